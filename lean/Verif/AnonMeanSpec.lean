import Verif.PrtMeanSpec
import Verif.PrtAnonSpec
/-! # Specification: what axioms with anonymous individuals mean -/
namespace Cowl.Sem
open Ast

/-- The interpretation with other things for the anonymous individuals. -/
def Interp.withAnon (I : Interp) (an : Str → I.Thing) : Interp :=
  ⟨I.Thing, I.Value, I.cls, I.objProp, I.dataProp, I.datatype, I.named, an, I.lit, I.facet, I.isNamed⟩

/-- The axioms hold for some choice of things for the anonymous individuals
(https://www.w3.org/TR/owl2-direct-semantics, section 2.4). -/
def HoldsSome (I : Interp) (xs : List Obj) : Prop := ∃ an, HoldsIn (I.withAnon an) xs

end Cowl.Sem
