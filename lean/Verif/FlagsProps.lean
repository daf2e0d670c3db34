import Verif.FlagsLemmas
/-! # C01: reference counting keeps type and lifetime right -/
namespace Cowl.Flags

/-- What a caller observes of an object: its type, its flag, its number of
references; or that it was destroyed; or that a call was made after that. -/
def observe {w : Nat} : Obj w → (Nat × Bool × Nat) ⊕ Life
  | .live f => .inl (getType f, hasBit f, getRef f)
  | .freed => .inr .dead
  | .ub => .inr .misuse

/-- What the specification predicts for an object of type `t` and flag `b`. -/
def predict (t : Nat) (b : Bool) : Life → (Nat × Bool × Nat) ⊕ Life
  | .alive n => .inl (t, b, n)
  | l => .inr l

/-- C01. For both word widths (32 and, with `COWL_HUGE`, 64; any width above 8),
every type that fits the 7-bit field, every flag and every history along which
the owner count stays below the capacity of the counter, the object behaves as
the owner count says: type and flag never change, it dies exactly when the count
drops to zero and not before. -/
theorem C01_refcount (w : Nat) (hw : 8 < w) (t : Nat) (ht : t < 128) (b : Bool)
    (ops : List Op) (hcap : Life.Within (2 ^ (w - 8)) (.alive 1) ops) :
    observe (run w t b ops) = predict t b (Life.run ops) := by
  have h0 : Rel (w := w) t b (.live (mk w t b)) (.alive 1) := by
    obtain ⟨h1, h2, h3⟩ := mk_fields hw t ht b
    exact ⟨h1, h2, h3, by omega⟩
  have := rel_run (by omega) t b ops _ _ h0 hcap
  unfold run Life.run
  revert this
  generalize ops.foldl step (.live (mk w t b)) = o
  generalize ops.foldl Life.step (.alive 1) = l
  cases o <;> cases l <;> simp_all [Rel, observe, predict]

/-- The hypotheses hold for a history that retains twice and releases three times. -/
example : Life.Within (2 ^ (32 - 8)) (.alive 1) [.retain, .release, .retain, .release, .release] ∧
    Life.run [.retain, .release, .retain, .release, .release] = .dead := by
  simp [Life.Within, Life.step, Life.run]

/-- C01, boundary. The capacity hypothesis is needed: retaining an object that
already has `2^24 - 1` references (the documented maximum for the default build)
flips the flag bit and reads back a reference count of zero. -/
theorem C01_overflow_fails :
    let f : Word 32 := mk 32 5 false + 16777214#32
    getRef f = 2 ^ 24 - 1 ∧ hasBit f = false ∧
      getRef (incrRef f) = 0 ∧ hasBit (incrRef f) = true := by
  decide

/-- Setting and clearing the flag leaves type and count alone (`cowl_set_bit`,
`cowl_unset_bit`, `cowl_object_private.h:58-66`). -/
theorem C01_set_unset_bit (w : Nat) (hw : 8 ≤ w) (f : Word w) :
    hasBit (setBit f) = true ∧ getType (setBit f) = getType f ∧ getRef (setBit f) = getRef f ∧
    hasBit (unsetBit f) = false ∧ getType (unsetBit f) = getType f ∧
      getRef (unsetBit f) = getRef f := by
  have key : ∀ g : Word w, (∀ i, i ≠ w - 8 → g.getLsbD i = f.getLsbD i) →
      getType g = getType f ∧ getRef g = getRef f := by
    intro g hg
    constructor
    · unfold getType
      congr 2
      apply BitVec.eq_of_getLsbD_eq
      intro i hi
      simp only [BitVec.getLsbD_and, typeMask_getLsbD hw]
      by_cases h : i = w - 8
      · subst h; simp
      · rw [hg i h]
    · unfold getRef
      congr 1
      apply BitVec.eq_of_getLsbD_eq
      intro i hi
      simp only [BitVec.getLsbD_and, refMask_getLsbD hw]
      by_cases h : i = w - 8
      · subst h; simp
      · rw [hg i h]
  have hs := key (setBit f) (by
    intro i hi; simp only [setBit, BitVec.getLsbD_or, bitMask_getLsbD hw]; simp [hi])
  have hu := key (unsetBit f) (by
    intro i hi
    by_cases hiw : i < w
    · simp only [unsetBit, BitVec.getLsbD_and, BitVec.getLsbD_not, bitMask_getLsbD hw]
      simp [hi, hiw]
    · rw [BitVec.getLsbD_of_ge _ _ (by omega), BitVec.getLsbD_of_ge _ _ (by omega)])
  have h8 : w - 8 < w := by omega
  refine ⟨?_, hs.1, hs.2, ?_, hu.1, hu.2⟩
  · rw [hasBit_eq hw]
    show (setBit f).getLsbD (w - 8) = true
    simp only [setBit, BitVec.getLsbD_or, bitMask_getLsbD hw]; simp
  · rw [hasBit_eq hw]
    show (unsetBit f).getLsbD (w - 8) = false
    simp only [unsetBit, BitVec.getLsbD_and, BitVec.getLsbD_not, bitMask_getLsbD hw]
    simp

end Cowl.Flags
