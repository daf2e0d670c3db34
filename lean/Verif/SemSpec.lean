import Verif.Ast
/-!
# Specification: what constructs mean

The direct semantics of OWL 2 (https://www.w3.org/TR/owl2-direct-semantics). Nothing here depends on the program. The conditions
that the standard puts on interpretations (`owl:Thing` is everything, datatypes have their values, ...) are not needed for what is
claimed, so an interpretation may be anything; what is said about all of them holds for those of the standard.
-/
namespace Cowl.Sem
open Ast

/-- Interpretations: things, values, and what the vocabulary stands for. Anonymous individuals stand for fixed things; an ontology
holds if it does for some choice of these. -/
structure Interp where
  Thing : Type
  Value : Type
  cls : Iri → Thing → Prop
  objProp : Iri → Thing → Thing → Prop
  dataProp : Iri → Thing → Value → Prop
  datatype : Iri → Value → Prop
  named : Iri → Thing
  anon : Str → Thing
  lit : Str → LitTag → Value
  facet : Iri → Value → Value → Prop
  /-- Things that have a name, for keys. -/
  isNamed : Thing → Prop

/-- There are at least `n` of them. -/
def AtLeast {α : Type} (n : Nat) (p : α → Prop) : Prop := ∃ l : List α, l.Nodup ∧ l.length = n ∧ ∀ x ∈ l, p x

/-- The number of them is as the restriction says. -/
def Card {α : Type} (k : CardKind) (n : Nat) (p : α → Prop) : Prop :=
  match k with
  | .min => AtLeast n p
  | .max => ¬ AtLeast (n + 1) p
  | .exact => AtLeast n p ∧ ¬ AtLeast (n + 1) p

variable (I : Interp)

/-- What an individual is. -/
def ind : Ind → I.Thing
  | .named i => I.named i
  | .anon s => I.anon s

/-- What an object property expression relates. -/
def ope : Ope → I.Thing → I.Thing → Prop
  | .prop i => I.objProp i
  | .inv i => fun x y => I.objProp i y x

/-- The value of a literal. -/
def lit (l : Lit) : I.Value := I.lit l.value l.tag

mutual
/-- The values in a data range. -/
def dr : DR → I.Value → Prop
  | .dt i => I.datatype i
  | .inter ds => fun v => ∀ p ∈ drs ds, p v
  | .union ds => fun v => ∃ p ∈ drs ds, p v
  | .compl d => fun v => ¬ dr d v
  | .oneOf ls => fun v => ∃ l ∈ ls.map (lit I), v = l
  | .restr i fs => fun v => I.datatype i v ∧ ∀ f ∈ fs.map fun f => (f.1, lit I f.2), I.facet f.1 f.2 v

/-- The values in each of the data ranges. -/
def drs : List DR → List (I.Value → Prop)
  | [] => []
  | d :: ds => dr d :: drs ds
end

mutual
/-- The members of a class expression. -/
def ce : CE → I.Thing → Prop
  | .cls i => I.cls i
  | .inter cs => fun x => ∀ p ∈ ces cs, p x
  | .union cs => fun x => ∃ p ∈ ces cs, p x
  | .compl c => fun x => ¬ ce c x
  | .oneOf is => fun x => ∃ i ∈ is.map (ind I), x = i
  | .objSome p c => fun x => ∃ y, ope I p x y ∧ ce c y
  | .objAll p c => fun x => ∀ y, ope I p x y → ce c y
  | .objHasValue p i => fun x => ope I p x (ind I i)
  | .objHasSelf p => fun x => ope I p x x
  | .objCard k n p => fun x => Card k n.toNat (ope I p x)
  | .objCardQ k n p c => fun x => Card k n.toNat fun y => ope I p x y ∧ ce c y
  | .dataSome p d => fun x => ∃ v, I.dataProp p x v ∧ dr I d v
  | .dataAll p d => fun x => ∀ v, I.dataProp p x v → dr I d v
  | .dataHasValue p l => fun x => I.dataProp p x (lit I l)
  | .dataCard k n p => fun x => Card k n.toNat (I.dataProp p x)
  | .dataCardQ k n p d => fun x => Card k n.toNat fun v => I.dataProp p x v ∧ dr I d v

/-- The members of each of the class expressions. -/
def ces : List CE → List (I.Thing → Prop)
  | [] => []
  | c :: cs => ce c :: ces cs
end

/-- Properties one after the other. -/
def chain {α : Type} : List (α → α → Prop) → α → α → Prop
  | [] => fun x y => x = y
  | r :: rs => fun x y => ∃ z, r x z ∧ chain rs z y

/-- What the left of an object sub-property axiom relates. -/
def subOpe : SubOpe → I.Thing → I.Thing → Prop
  | .ope p => ope I p
  | .chain ps => chain (ps.map (ope I))

/-- They have no members in common. -/
def Disj {α : Type} (p q : α → Prop) : Prop := ∀ x, ¬ (p x ∧ q x)

/-- They relate no pair in common. -/
def Disj2 {α β : Type} (p q : α → β → Prop) : Prop := ∀ x y, ¬ (p x y ∧ q x y)

/-- A characteristic of a property. -/
def char {α : Type} (r : α → α → Prop) : OpeChar → Prop
  | .func => ∀ x y z, r x y → r x z → y = z
  | .invFunc => ∀ x y z, r y x → r z x → y = z
  | .symm => ∀ x y, r x y → r y x
  | .asymm => ∀ x y, r x y → ¬ r y x
  | .trans => ∀ x y z, r x y → r y z → r x z
  | .refl => ∀ x, r x x
  | .irrefl => ∀ x, ¬ r x x

/-- The axiom holds. Declarations and axioms about annotations always do. -/
def sat : Ax → Prop
  | .subClass c d => ∀ x, ce I c x → ce I d x
  | .equivClasses cs => (ces I cs).Pairwise fun p q => p = q
  | .disjClasses cs => (ces I cs).Pairwise Disj
  | .disjUnion c cs => (∀ x, I.cls c x ↔ ∃ p ∈ ces I cs, p x) ∧ (ces I cs).Pairwise Disj
  | .subObjProp p q => ∀ x y, subOpe I p x y → ope I q x y
  | .equivObjProp ps => (ps.map (ope I)).Pairwise fun p q => p = q
  | .disjObjProp ps => (ps.map (ope I)).Pairwise Disj2
  | .invObjProp p q => ∀ x y, ope I p x y ↔ ope I q y x
  | .objPropDomain p c => ∀ x y, ope I p x y → ce I c x
  | .objPropRange p c => ∀ x y, ope I p x y → ce I c y
  | .objPropChar k p => char (ope I p) k
  | .subDataProp p q => ∀ x v, I.dataProp p x v → I.dataProp q x v
  | .equivDataProp ps => (ps.map I.dataProp).Pairwise fun p q => p = q
  | .disjDataProp ps => (ps.map I.dataProp).Pairwise Disj2
  | .dataPropDomain p c => ∀ x v, I.dataProp p x v → ce I c x
  | .dataPropRange p d => ∀ x v, I.dataProp p x v → dr I d v
  | .funcDataProp p => ∀ x v w, I.dataProp p x v → I.dataProp p x w → v = w
  | .datatypeDef i d => ∀ v, I.datatype i v ↔ dr I d v
  | .hasKey c ps ds => ∀ x y, ce I c x → I.isNamed x → ce I c y → I.isNamed y →
      (∀ r ∈ ps.map (ope I), ∃ z, I.isNamed z ∧ r x z ∧ r y z) → (∀ r ∈ ds.map I.dataProp, ∃ v, r x v ∧ r y v) → x = y
  | .sameInd is => (is.map (ind I)).Pairwise fun x y => x = y
  | .diffInd is => (is.map (ind I)).Pairwise fun x y => x ≠ y
  | .classAssert c i => ce I c (ind I i)
  | .objPropAssert p i j => ope I p (ind I i) (ind I j)
  | .negObjPropAssert p i j => ¬ ope I p (ind I i) (ind I j)
  | .dataPropAssert p i l => I.dataProp p (ind I i) (lit I l)
  | .negDataPropAssert p i l => ¬ I.dataProp p (ind I i) (lit I l)
  | _ => True

/-- The axioms have the consequence `P`. -/
def Follows (as : List Axiom) (P : Interp → Prop) : Prop := ∀ I, (∀ a ∈ as, sat I a.ax) → P I

end Cowl.Sem
