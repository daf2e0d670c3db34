import Verif.Ast
/-! # Specification of the queries for subclasses -/
namespace Cowl.Examples
open Ast

/-- The line for an axiom that puts an atomic class below `c`. -/
def belowLine (c : Iri) : Axiom → Option Str
  | ⟨.subClass (.cls i) (.cls d), _⟩ => if d = c then some i.rem else none
  | _ => none

/-- The same, but not for `c` itself. -/
def properLine (c : Iri) : Axiom → Option Str
  | ⟨.subClass (.cls i) (.cls d), _⟩ => if d = c ∧ i ≠ c then some i.rem else none
  | _ => none

/-- The axiom puts `c` below `c`. -/
def SelfBelow (c : Iri) : Axiom → Prop
  | ⟨.subClass (.cls i) (.cls d), _⟩ => d = c ∧ i = c
  | _ => False

/-- One of the axioms puts the class `i` right below `c`. -/
def Child (as : List Axiom) (c i : Iri) : Prop := i ≠ c ∧ ∃ a ∈ as, a.ax = .subClass (.cls i) (.cls c)

/-- The axioms put the class `i` below `c`, in one or more steps. -/
inductive Below (as : List Axiom) : Iri → Iri → Prop
  | one {c i : Iri} (h : Child as c i) : Below as c i
  | more {c i j : Iri} (h : Child as c i) (g : Below as i j) : Below as c j

end Cowl.Examples
