import Verif.Own
/-!
# Specification of the memory of vectors, literals and composites

Which calls a client may make, and what it may rely on.
-/
namespace Cowl.Own

/-- The references of the object at an address. -/
def refsAt (s : St) (a : Nat) : List Nat :=
  match s.cell a with
  | none => []
  | some c => c.refs

/-- One gets from the object at `a` to the object at `b` by following references. -/
inductive Path (s : St) : Nat → Nat → Prop
  | refl (a) : Path s a a
  | step {a b c} : b ∈ refsAt s a → Path s b c → Path s a c

/-- The client owns a reference to the object, or to one that leads to it. -/
def Usable (s : St) (a : Nat) : Prop := ∃ r, 0 < s.ext r ∧ Path s r a

/-- The object is a vector. -/
def IsVec (s : St) (a : Nat) : Prop := ∃ b items, s.cell a = some (.vec b items)

/-- The allocator gives blocks that are not in use, each one once. -/
def Blocks (s : St) (ms : List (Option Nat)) : Prop :=
  (∀ m ∈ ms, ∀ a, m = some a → s.cell a = none) ∧
    ms.Pairwise fun m m' => ∀ a, m = some a → m' ≠ some a

/-- Calls a client may make: it passes objects it can use, of the kind that is asked for, and
releases only references it owns. An object is not added to a vector it contains. -/
def Fair (s : St) : Op → Prop
  | .leaf m _ => s.cell m = none
  | .make m k fields opt _ => Blocks s [m] ∧ k ∈ ctors ∧ fields.length = k.n ∧
      (∀ x ∈ fields, Usable s x) ∧ (∀ x ∈ opt, Usable s x ∧ (k.form = .annot → IsVec s x))
  | .vector _ m items => Blocks s [m] ∧ ∀ x ∈ items, Usable s x
  | .nary _ m₁ m₂ t items => Blocks s [m₁, m₂] ∧ t ∈ naryTypes ∧ ∀ x ∈ items, Usable s x
  | .literal m value tag _ => Blocks s [m] ∧ Usable s value ∧ Usable s tag
  | .hasKey m₁ m₂ m₃ cls objs datas annot => Blocks s [m₁, m₂, m₃] ∧ Usable s cls ∧
      (∀ x ∈ objs, Usable s x ∧ IsVec s x) ∧ (∀ x ∈ datas, Usable s x ∧ IsVec s x) ∧
      (∀ x ∈ annot, Usable s x ∧ IsVec s x)
  | .chain m sub super annot => Blocks s [m] ∧ Usable s sub ∧ IsVec s sub ∧ Usable s super ∧
      (∀ x ∈ annot, Usable s x ∧ IsVec s x)
  | .ordered m => Blocks s [m]
  | .add _ v x => Usable s v ∧ IsVec s v ∧ Usable s x ∧ ¬ Path s x v
  | .retain a => Usable s a
  | .release a => 0 < s.ext a

/-- There is memory for everything the call allocates. -/
def Calm : Op → Prop
  | .leaf _ _ => True
  | .make m _ _ _ _ => m.isSome
  | .vector buf m _ => buf ∧ m.isSome
  | .nary buf m₁ m₂ _ _ => buf ∧ m₁.isSome ∧ m₂.isSome
  | .literal m _ _ _ => m.isSome
  | .hasKey m₁ m₂ m₃ _ _ _ _ => m₁.isSome ∧ m₂.isSome ∧ m₃.isSome
  | .chain m _ _ _ => m.isSome
  | .ordered m => m.isSome
  | .add ok _ _ => ok
  | .retain _ => True
  | .release _ => True

/-- Memory after any history of such calls, all of which meet the condition. -/
inductive Reaches (allowed : Op → Prop) : St → Prop
  | start : Reaches allowed .start
  | step {s op s' r} : Reaches allowed s → Fair s op → allowed op → s.step op = some (s', r) →
      Reaches allowed s'

/-- Calls that do not go wrong if memory is lacking: all but those of literals with a language
tag and of vectors that are marked as ordered, which set a bit of NULL, and `HasKey` axioms whose
empty vectors cannot be created while the axiom can, which retain NULL. -/
def Sturdy : Op → Prop
  | .literal m _ _ isLang => isLang → m.isSome
  | .hasKey m₁ m₂ m₃ _ objs datas _ =>
      m₃.isSome → (objs.isSome ∨ m₁.isSome) ∧ (datas.isSome ∨ m₂.isSome)
  | .ordered m => m.isSome
  | _ => True

/-- How often the objects in memory refer to the object. -/
def held (s : St) (a : Nat) : Nat := (s.dom.map fun b => (refsAt s b).count a).sum

/-- The calls that change a vector in place. -/
def Op.target : Op → Option Nat
  | .chain _ sub _ _ => some sub
  | .add _ v _ => some v
  | _ => none

/-- Whether the call gives the caller a reference, or NULL. -/
def Op.gives : Op → Bool
  | .add _ _ _ => false
  | .release _ => false
  | _ => true

/-- The reference a call takes from the caller. -/
def Op.takes : Op → Option Nat
  | .release a => some a
  | _ => none

end Cowl.Own
