import Verif.Examples
import Verif.Ast
/-! # The queries for classes and types

Models the functions at the end of `include/cowl_ontology.h`; `cowl_ontology_iterate_sub_classes` is in `Verif.Examples`. -/
namespace Cowl.Queries
open Examples Ast

/-- `COWL_AF_DISJ_CLASSES`, `include/cowl_axiom_flags.h:55`: bit `COWL_AT_DISJ_CLASSES`, which is 3. -/
def afDisjClasses : BitVec 64 := 8#64

/-- `COWL_AF_CLASS_ASSERT`, `include/cowl_axiom_flags.h:140`: bit `COWL_AT_CLASS_ASSERT`, which is 28. -/
def afClassAssert : BitVec 64 := 1#64 <<< 28

/-- `cowl_ontology_iterate_super_classes`, `include/cowl_ontology.h:461-465`. -/
def iterSuperClasses {σ : Type} (o : Onto) (c : Iri) (k : Callback σ Obj) (s : σ) : σ × Ret :=
  o.iterRelated (.ent .cls c) afSubClass psRight k s

/-- `cowl_ontology_iterate_eq_classes`, `include/cowl_ontology.h:475-478`. -/
def iterEqClasses {σ : Type} (o : Onto) (c : Iri) (k : Callback σ Obj) (s : σ) : σ × Ret :=
  o.iterRelated (.ent .cls c) afEquivClasses psAny k s

/-- `cowl_ontology_iterate_disjoint_classes`, `include/cowl_ontology.h:488-492`. -/
def iterDisjointClasses {σ : Type} (o : Onto) (c : Iri) (k : Callback σ Obj) (s : σ) : σ × Ret :=
  o.iterRelated (.ent .cls c) afDisjClasses psAny k s

/-- The primitive of an individual: `CowlAnyIndividual`, `include/cowl_any.h:45`. -/
def indPrim : Ind → Prim
  | .named i => .ent .namedInd i
  | .anon s => .anon s

/-- `cowl_ontology_iterate_types`, `include/cowl_ontology.h:502-506`. -/
def iterIndTypes {σ : Type} (o : Onto) (i : Ind) (k : Callback σ Obj) (s : σ) : σ × Ret :=
  o.iterRelated (indPrim i) afClassAssert psLeft k s

end Cowl.Queries
