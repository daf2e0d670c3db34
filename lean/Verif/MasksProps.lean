import Verif.Masks
/-! # C43: masks of types -/
namespace Cowl.Masks

/-! ## Lemmas -/

theorem getLsbD_fromType (w t i : Nat) :
    (fromType w t).getLsbD i = (decide (i < w) && decide (i = t)) := by
  unfold fromType
  rw [BitVec.getLsbD_shiftLeft, BitVec.getLsbD_one]
  by_cases h1 : i < w <;> by_cases h2 : i = t <;> by_cases h3 : i < t <;>
    simp_all <;> omega

theorem hasType_eq {w : Nat} (f : BitVec w) (t : Nat) (ht : t < w) :
    hasType f t = f.getLsbD t := by
  unfold hasType
  rw [Bool.eq_iff_iff, beq_iff_eq]
  constructor
  · intro h
    have := congrArg (fun x => x.getLsbD t) h
    simp only [BitVec.getLsbD_and, getLsbD_fromType] at this
    simpa [ht] using this
  · intro h
    apply BitVec.eq_of_getLsbD_eq
    intro i hi
    simp only [BitVec.getLsbD_and, getLsbD_fromType]
    by_cases h2 : i = t
    · subst h2; simp [hi, h]
    · simp [h2]

theorem getLsbD_lowMask (n i : Nat) (hn : n < 64) :
    ((1#64 <<< n) - 1#64).getLsbD i = decide (i < n) := by
  have h : (1#64 <<< n) - 1#64 = BitVec.ofNat 64 (2 ^ n - 1) := by
    have hp : 2 ^ n < 2 ^ 64 := Nat.pow_lt_pow_right (by omega) hn
    have hp1 : 1 ≤ 2 ^ n := Nat.one_le_two_pow
    apply BitVec.eq_of_toNat_eq
    rw [BitVec.toNat_sub, BitVec.toNat_shiftLeft, BitVec.toNat_ofNat, BitVec.toNat_ofNat,
      Nat.shiftLeft_eq]
    omega
  rw [h, BitVec.getLsbD_ofNat, Nat.testBit_two_pow_sub_one]
  by_cases h1 : i < n
  · simp [h1]; omega
  · simp [h1]

/-- `firstSet` finds the least index, if any. -/
theorem firstSet_spec (f : BitVec 64) :
    (∀ j < firstSet f, f.getLsbD j = false) ∧ (firstSet f < 64 → f.getLsbD (firstSet f) = true) := by
  unfold firstSet
  cases h : (List.range 64).find? fun i => f.getLsbD i with
  | none =>
    rw [List.find?_eq_none] at h
    simp only [Option.getD_none]
    refine ⟨fun j hj => ?_, fun h => absurd h (by omega)⟩
    simpa using h j (List.mem_range.2 hj)
  | some a =>
    simp only [Option.getD_some]
    have ha := List.find?_some h
    refine ⟨fun j hj => ?_, fun _ => ha⟩
    rw [List.find?_range_eq_some] at h
    simpa using h.2.2 j hj

theorem nextType_spec (f : BitVec 64) (t : Nat) (ht : t < 37) :
    t < nextType f t ∧ (∀ j, t < j → j < nextType f t → f.getLsbD j = false) ∧
      (nextType f t < 64 → f.getLsbD (nextType f t) = true) := by
  have hs := firstSet_spec (f &&& ~~~ ((1#64 <<< (t + 1)) - 1#64))
  have hb : ∀ j, (f &&& ~~~ ((1#64 <<< (t + 1)) - 1#64)).getLsbD j =
      (f.getLsbD j && (decide (j < 64) && !decide (j < t + 1))) := by
    intro j
    rw [BitVec.getLsbD_and, BitVec.getLsbD_not, getLsbD_lowMask _ _ (by omega)]
  rw [show firstSet (f &&& ~~~ ((1#64 <<< (t + 1)) - 1#64)) = nextType f t from rfl] at hs
  have h2 : nextType f t < 64 → f.getLsbD (nextType f t) = true ∧ t < nextType f t := by
    intro h
    have := hs.2 h
    rw [hb] at this
    simp at this
    rw [BitVec.getLsbD_eq_getElem h]
    exact ⟨this.1, by omega⟩
  refine ⟨?_, fun j h3 h4 => ?_, fun h => (h2 h).1⟩
  · by_cases h : nextType f t < 64
    · exact (h2 h).2
    · omega
  · have := hs.1 j h4
    rw [hb] at this
    by_cases h5 : j < 64
    · simpa [h5, show ¬ j < t + 1 by omega] using this
    · exact BitVec.getLsbD_of_ge f j (by omega)

theorem filter_range'_skip (p : Nat → Bool) (a n m : Nat) (h : ∀ j, a ≤ j → j < a + n → p j = false) :
    (List.range' a (n + m)).filter p = (List.range' (a + n) m).filter p := by
  rw [← List.range'_append_1, List.filter_append]
  rw [List.filter_eq_nil_iff.2]
  · simp
  · intro x hx
    rw [List.mem_range'_1] at hx
    simp [h x hx.1 hx.2]

theorem foreachFrom_spec (f : BitVec 64) : ∀ (fuel t : Nat), 38 ≤ fuel + t → 1 ≤ fuel →
    (t < 64 → f.getLsbD t = true) →
    foreachFrom f fuel t = some ((List.range' t (37 - t)).filter fun i => f.getLsbD i) := by
  intro fuel
  induction fuel with
  | zero => intro t _ h; omega
  | succ n ih =>
    intro t hf _ ht
    rw [foreachFrom]
    by_cases h37 : t < 37
    · obtain ⟨h1, h2, h3⟩ := nextType_spec f t h37
      rw [if_pos h37, ih _ (by omega) (by omega) h3]
      rw [show 37 - t = (37 - (t + 1)) + 1 by omega, List.range'_succ,
        List.filter_cons_of_pos (by simpa using ht (by omega))]
      simp only [Option.map_some]
      congr 2
      by_cases h : nextType f t < 37
      · have := filter_range'_skip (fun i => f.getLsbD i) (t + 1) (nextType f t - (t + 1))
          (37 - nextType f t) (fun j hj hj' => h2 j (by omega) (by omega))
        rw [show nextType f t - (t + 1) + (37 - nextType f t) = 37 - (t + 1) by omega,
          show t + 1 + (nextType f t - (t + 1)) = nextType f t by omega] at this
        exact this.symm
      · have := filter_range'_skip (fun i => f.getLsbD i) (t + 1) (37 - (t + 1)) 0
          (fun j hj hj' => h2 j (by omega) (by omega))
        rw [show 37 - nextType f t = 0 by omega]
        simpa using this.symm
    · rw [if_neg h37, show 37 - t = 0 by omega]; simp

/-! ## Properties -/

/-- C43, the loop: for every mask, the loop ends, and its body runs for exactly
the types of the mask, in increasing order. -/
theorem C43_foreach (f : BitVec 64) :
    foreachType 38 f = some ((List.range 37).filter fun t => hasType f t) := by
  have hs := firstSet_spec f
  have hfilt : ((List.range 37).filter fun t => hasType f t) =
      (List.range 37).filter fun i => f.getLsbD i := by
    apply List.filter_congr
    intro x hx
    exact hasType_eq f x (by have := List.mem_range.1 hx; omega)
  rw [foreachType, foreachFrom_spec f 38 _ (by omega) (by omega) hs.2, hfilt]
  congr 1
  rw [List.range_eq_range']
  by_cases h : firstSet f < 37
  · have := filter_range'_skip (fun i => f.getLsbD i) 0 (firstSet f) (37 - firstSet f)
      (fun j _ hj => hs.1 j (by omega))
    rw [show firstSet f + (37 - firstSet f) = 37 by omega] at this
    simpa using this.symm
  · have := filter_range'_skip (fun i => f.getLsbD i) 0 37 0 (fun j _ hj => hs.1 j (by omega))
    rw [show 37 - firstSet f = 0 by omega]
    simpa using this.symm

example : foreachType 38 (addType (addType 0#64 5) 36) = some [5, 36] := by decide +kernel

/-- C43, set laws for masks of any width (64 for axioms, 8 for primitives): a mask
is a set of types, and two masks with the same types below the width are equal. -/
theorem C43_laws {w : Nat} (f : BitVec w) (t u : Nat) (hu : u < w) :
    (hasType (fromType w t) u = true ↔ u = t) ∧
    (hasType (addType f t) u = true ↔ hasType f u = true ∨ u = t) ∧
    (hasType (removeType f t) u = true ↔ hasType f u = true ∧ u ≠ t) ∧
    (hasType (0#w) u = false) := by
  rw [hasType_eq _ u hu, hasType_eq _ u hu, hasType_eq _ u hu, hasType_eq _ u hu, hasType_eq _ u hu]
  unfold addType removeType
  rw [BitVec.getLsbD_or, BitVec.getLsbD_and, BitVec.getLsbD_not, getLsbD_fromType]
  simp only [hu, decide_true, Bool.true_and, Bool.or_eq_true, Bool.and_eq_true,
    Bool.not_eq_true', decide_eq_true_eq, decide_eq_false_iff_not, ne_eq, BitVec.getLsbD_zero,
    and_self]

theorem C43_ext {w : Nat} (f g : BitVec w) (h : ∀ t < w, hasType f t = hasType g t) : f = g := by
  apply BitVec.eq_of_getLsbD_eq
  intro i hi
  rw [← hasType_eq f i hi, ← hasType_eq g i hi]
  exact h i hi

theorem getLsbD_afAll (i : Nat) : afAll.getLsbD i = decide (i < 37) :=
  getLsbD_lowMask 37 i (by omega)

/-- C43, `has_all_types` and `has_no_types` speak about the 37 axiom types. -/
theorem C43_all_none (f : BitVec 64) :
    (hasAllTypes f = true ↔ ∀ t < 37, hasType f t = true) ∧
    (hasNoTypes f = true ↔ ∀ t < 37, hasType f t = false) := by
  constructor
  · unfold hasAllTypes
    rw [beq_iff_eq]
    constructor
    · intro h t ht
      rw [hasType_eq f t (by omega)]
      have := congrArg (fun x => x.getLsbD t) h
      simp only [BitVec.getLsbD_and, getLsbD_afAll] at this
      simpa [ht] using this
    · intro h
      apply BitVec.eq_of_getLsbD_eq
      intro i hi
      rw [BitVec.getLsbD_and, getLsbD_afAll]
      by_cases h37 : i < 37
      · have := h i h37
        rw [hasType_eq f i hi] at this
        simp [h37, this]
      · simp [h37]
  · unfold hasNoTypes
    rw [bne, Bool.not_not, beq_iff_eq]
    constructor
    · intro h t ht
      rw [hasType_eq f t (by omega)]
      have := congrArg (fun x => x.getLsbD t) h
      simp only [BitVec.getLsbD_and, getLsbD_afAll, BitVec.getLsbD_zero] at this
      simpa [ht] using this
    · intro h
      apply BitVec.eq_of_getLsbD_eq
      intro i hi
      rw [BitVec.getLsbD_and, getLsbD_afAll, BitVec.getLsbD_zero]
      by_cases h37 : i < 37
      · have := h i h37
        rw [hasType_eq f i hi] at this
        simp [this]
      · simp [h37]

example : hasAllTypes afAll = true ∧ hasNoTypes (1#64 <<< 37) = true ∧
    hasAllTypes (removeType afAll 7) = false := by decide +kernel

/-- C43, the "all primitives" mask selects each of the 8 primitive types. -/
theorem C43_primitives_all (t : Nat) (ht : t < 8) : hasType pfAll t = true := by
  revert t; decide

end Cowl.Masks
