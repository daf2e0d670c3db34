import Verif.SemSpec
/-!
# Specification: other readings of the vocabulary

Two interpretations over the same things and values that differ in what the vocabulary stands for, and where they agree.
-/
namespace Cowl.Sem
open Ast

/-- Another reading of the vocabulary, over the same things and values. -/
structure Reading (I : Interp) where
  cls : Iri → I.Thing → Prop
  objProp : Iri → I.Thing → I.Thing → Prop
  dataProp : Iri → I.Thing → I.Value → Prop
  datatype : Iri → I.Value → Prop
  named : Iri → I.Thing
  anon : Str → I.Thing
  lit : Str → LitTag → I.Value
  facet : Iri → I.Value → I.Value → Prop

/-- The interpretation with the other reading. -/
def Interp.read (I : Interp) (w : Reading I) : Interp where
  Thing := I.Thing
  Value := I.Value
  cls := w.cls
  objProp := w.objProp
  dataProp := w.dataProp
  datatype := w.datatype
  named := w.named
  anon := w.anon
  lit := w.lit
  facet := w.facet
  isNamed := I.isNamed

/-- The datatype of a literal: that of literals with a language is `rdf:langString`. -/
def datatypeOf : LitTag → Iri
  | .dt i => i
  | .lang _ => ⟨ascii "http://www.w3.org/1999/02/22-rdf-syntax-ns#", ascii "langString"⟩

/-- The readings agree about a primitive. To agree about a datatype is to agree about its values and about the values of its
literals, to agree about an IRI is to agree about the facet with this name. Annotation properties have no meaning. -/
def Reading.Agrees {I : Interp} (w : Reading I) : Prim → Prop
  | .iri i => w.facet i = I.facet i
  | .ent .cls i => w.cls i = I.cls i
  | .ent .objProp i => w.objProp i = I.objProp i
  | .ent .dataProp i => w.dataProp i = I.dataProp i
  | .ent .datatype i => w.datatype i = I.datatype i ∧ ∀ v t, datatypeOf t = i → w.lit v t = I.lit v t
  | .ent .namedInd i => w.named i = I.named i
  | .ent .annotProp _ => True
  | .anon s => w.anon s = I.anon s

end Cowl.Sem
