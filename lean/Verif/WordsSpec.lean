import Verif.Words
/-! # Specification: headers whose count has no bound -/
namespace Cowl.Words

/-- Type, bit and number of references. -/
structure Head where
  t : OType
  b : Bool
  rc : Nat

/-- An access to a memory in which type, bit and count are kept apart. A count of 0 cannot be decreased. -/
def ideal (m : Mem Head) : Act → Option (Mem Head × Nat)
  | .make a t b => if (m a).isNone then some (set m a (some ⟨t, b, 1⟩), 0) else none
  | .incr a => edit m a fun h => some (some { h with rc := h.rc + 1 }, 0)
  | .decr a => edit m a fun h => if h.rc = 0 then none else some (some { h with rc := h.rc - 1 }, h.rc - 1)
  | .setBit a => edit m a fun h => some (some { h with b := true }, 0)
  | .unsetBit a => edit m a fun h => some (some { h with b := false }, 0)
  | .getType a => edit m a fun h => some (some h, h.t.code)
  | .hasBit a => edit m a fun h => some (some h, h.b.toNat)
  | .getRef a => edit m a fun h => some (some h, h.rc)
  | .free a => edit m a fun _ => some (none, 0)

/-- While the program runs all counts are below `n`. -/
def Prog.Fits {ρ : Type} (n : Nat) : Prog ρ → Mem Head → Prop
  | .done _, _ => True
  | .act c k, m => ∀ m' x, ideal m c = some (m', x) → (∀ a h, m' a = some h → h.rc < n) ∧ (k x).Fits n m'

/-- Whether an access adds a reference. -/
def Act.adds : Act → Nat
  | .incr _ => 1
  | _ => 0

/-- The number of references that the program adds. -/
def Prog.added {ρ : Type} : Prog ρ → Mem Head → Nat
  | .done _, _ => 0
  | .act c k, m =>
    match ideal m c with
    | none => 0
    | some (m', x) => c.adds + (k x).added m'

/-- The word says what the header says. -/
def Tells {w : Nat} (f : Flags.Word w) (h : Head) : Prop :=
  Flags.getType f = h.t.code ∧ Flags.hasBit f = h.b ∧ Flags.getRef f = h.rc

/-- Two memories have objects at the same addresses, with the same headers. -/
def Agrees {w : Nat} (v : Mem (Flags.Word w)) (m : Mem Head) : Prop :=
  ∀ a, (v a = none ∧ m a = none) ∨ ∃ f h, v a = some f ∧ m a = some h ∧ Tells f h

/-- The memory without objects. -/
def none' {α : Type} : Mem α := fun _ => none

end Cowl.Words
