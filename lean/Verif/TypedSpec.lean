import Verif.Ast
import Verif.FuncDoc
/-!
# Specification: what readers hand over are constructs of OWL 2

The constructs of `Ast` with the numbers of operands that the structural specification asks for.
-/
namespace Cowl.Ast

/-- The literal is in normal form: a language tag is not empty and without capitals; the datatypes of
literals with a language tag are not used without one. -/
def Lit.Normal (l : Lit) : Prop :=
  match l.tag with
  | .lang t => t ≠ [] ∧ ∀ c ∈ t, ¬ (65 ≤ c ∧ c ≤ 90)
  | .dt i => i ≠ rdfLangString ∧ i ≠ rdfPlainLiteral

/-- What the structural specification of OWL 2 asks for: at least two operands of intersections, unions,
equivalences, disjointness and chains; at least one member of an enumeration and one facet. -/
def owl2 : Req where
  iri _ := True
  lit := Lit.Normal
  anon _ := True
  sub _ := True
  two n := 2 ≤ n
  one n := 1 ≤ n
  any _ := True
  card _ := True

/-- The object is an axiom of OWL 2. -/
def IsAx (R : Req) (o : Obj) : Prop := ∃ a : Axiom, o = a.toObj ∧ a.Meets R

/-- The object is an annotation. -/
def IsAnnot (R : Req) (o : Obj) : Prop := ∃ a : Annot, o = a.toObj ∧ a.Meets R

/-- What is told is what it should be. -/
def ItemOk (R : Req) : Func.Item → Prop
  | .ax o => IsAx R o
  | .annot o => IsAnnot R o
  | _ => True

end Cowl.Ast
