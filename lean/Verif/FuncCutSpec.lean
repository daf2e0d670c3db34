import Verif.FuncDoc
/-! # Specification: documents in functional syntax that are cut short -/
namespace Cowl.FuncCut
open Change Func

/-- A handler that takes notes of what it is told, and accepts everything. -/
def noting : Callback (List Item) Item := fun l i => (l ++ [i], .ok)

/-- The IRI or the version of the ontology. -/
def IsName : Item → Prop
  | .iri _ => True
  | .version _ => True
  | _ => False

/-- What is told about a cut document, compared with the whole document: all of it is told in the
same way about the whole, but for a name at the end; and then the cut document is rejected. -/
def CutOf (cut whole : List Item × Outcome) : Prop :=
  ∃ l ids, cut.1 = l ++ ids ∧ l <+: whole.1 ∧ (∀ x ∈ ids, IsName x) ∧ (ids = [] ∨ cut.2 = .rejected)

end Cowl.FuncCut
