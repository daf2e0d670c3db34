import Verif.FlagsSpec
namespace Cowl.Flags

variable {w : Nat}

theorem bitMask_toNat (hw : 8 ≤ w) : (bitMask w).toNat = 2 ^ (w - 8) := by
  have h1 : (1#w).toNat = 1 := by
    simp [BitVec.toNat_ofNat]; omega
  have h2 : 2 ^ (w - 8) < 2 ^ w := Nat.pow_lt_pow_right (by omega) (by omega)
  have : w - 7 - 1 = w - 8 := by omega
  simp [bitMask, bitOffset, refSize, BitVec.toNat_shiftLeft, h1, Nat.shiftLeft_eq, this]
  exact Nat.mod_eq_of_lt h2

theorem refMask_toNat (hw : 8 ≤ w) : (refMask w).toNat = 2 ^ (w - 8) - 1 := by
  have h0 := bitMask_toNat hw
  have hp : 0 < 2 ^ (w - 8) := Nat.two_pow_pos _
  have h1 : (1#w).toNat = 1 := by
    simp [BitVec.toNat_ofNat]; omega
  unfold refMask
  rw [BitVec.toNat_sub_of_le]
  · rw [h0, h1]
  · rw [BitVec.le_def, h0, h1]; exact hp

theorem getRef_eq (hw : 8 ≤ w) (f : Word w) : getRef f = f.toNat % 2 ^ (w - 8) := by
  simp [getRef, BitVec.toNat_and, refMask_toNat hw, Nat.and_two_pow_sub_one_eq_mod]

theorem bitMask_getLsbD (hw : 8 ≤ w) (i : Nat) :
    (bitMask w).getLsbD i = decide (i = w - 8) := by
  rw [BitVec.getLsbD, bitMask_toNat hw, Nat.testBit_two_pow]
  simp [eq_comm]

theorem refMask_getLsbD (hw : 8 ≤ w) (i : Nat) :
    (refMask w).getLsbD i = decide (i < w - 8) := by
  rw [BitVec.getLsbD, refMask_toNat hw, Nat.testBit_two_pow_sub_one]

theorem typeMask_getLsbD (hw : 8 ≤ w) (i : Nat) :
    (typeMask w).getLsbD i = decide (w - 8 < i ∧ i < w) := by
  have h8 : w - 8 < w := by omega
  by_cases hi : i < w
  · simp only [typeMask, bitTypeMask, BitVec.getLsbD_and, BitVec.getLsbD_not,
      BitVec.getLsbD_allOnes, refMask_getLsbD hw, bitMask_getLsbD hw, hi]
    by_cases h : w - 8 < i
    · have h1 : ¬ i < w - 8 := by omega
      have h2 : ¬ i = w - 8 := by omega
      simp [h, h1, h2]
    · by_cases h2 : i = w - 8
      · simp [h2]
      · have h1 : i < w - 8 := by omega
        simp [h, h1]
  · simp [typeMask, bitTypeMask, hi]

theorem getType_eq (hw : 8 ≤ w) (f : Word w) : getType f = f.toNat / 2 ^ (w - 7) := by
  have e : typeOffset w = w - 7 := by simp [typeOffset, bitOffset, refSize]; omega
  have : (f &&& typeMask w) >>> typeOffset w = f >>> typeOffset w := by
    apply BitVec.eq_of_getLsbD_eq
    intro i hi
    rw [e]
    simp only [BitVec.getLsbD_ushiftRight, BitVec.getLsbD_and, typeMask_getLsbD hw]
    by_cases h : w - 7 + i < w
    · have : w - 8 < w - 7 + i := by omega
      simp [this, h]
    · rw [BitVec.getLsbD_of_ge _ _ (by omega)]; simp
  rw [getType, this, BitVec.toNat_ushiftRight, e, Nat.shiftRight_eq_div_pow]

theorem hasBit_eq (hw : 8 ≤ w) (f : Word w) : hasBit f = f.toNat.testBit (w - 8) := by
  have h8 : w - 8 < w := by omega
  unfold hasBit
  by_cases h : f.toNat.testBit (w - 8) = true
  · rw [h, beq_iff_eq]
    apply BitVec.eq_of_getLsbD_eq
    intro i hi
    rw [BitVec.getLsbD_and, bitMask_getLsbD hw]
    by_cases hi' : i = w - 8
    · subst hi'; simp [BitVec.getLsbD, h]
    · simp [hi']
  · have hf : f.toNat.testBit (w - 8) = false := by simpa using h
    rw [hf]
    rw [beq_eq_false_iff_ne]
    intro hc
    have := congrArg (fun x => BitVec.getLsbD x (w - 8)) hc
    simp only [BitVec.getLsbD_and, bitMask_getLsbD hw] at this
    simp [BitVec.getLsbD, hf] at this

/-- The word as a mixed-radix number. -/
theorem word_decomp (hw : 8 ≤ w) (f : Word w) :
    f.toNat = getType f * 2 ^ (w - 7) + (hasBit f).toNat * 2 ^ (w - 8) + getRef f := by
  rw [getType_eq hw, hasBit_eq hw, getRef_eq hw, Nat.testBit_eq_decide_div_mod_eq]
  have e : 2 ^ (w - 7) = 2 ^ (w - 8) * 2 := by
    rw [← Nat.pow_succ]; congr 1; omega
  rw [e, ← Nat.div_div_eq_div_mul]
  generalize 2 ^ (w - 8) = P
  have h1 := Nat.div_add_mod f.toNat P
  have h2 := Nat.div_add_mod (f.toNat / P) 2
  generalize f.toNat / P = q at *
  have h3 : (decide (q % 2 = 1)).toNat = q % 2 := by
    rcases Nat.mod_two_eq_zero_or_one q with h | h <;> simp [h]
  rw [h3]
  generalize f.toNat % P = r at *
  rw [← h1]
  have : P * q = q / 2 * (P * 2) + q % 2 * P := by
    conv => lhs; rw [← h2]
    rw [Nat.mul_add, Nat.mul_comm P (q % 2)]
    congr 1
    rw [← Nat.mul_assoc, Nat.mul_comm (P * 2), Nat.mul_comm P 2]
  omega

/-- Conversely the three fields are determined by a mixed-radix reading. -/
theorem fields_of_toNat (hw : 8 ≤ w) (f : Word w) (t r : Nat) (b : Bool)
    (hr : r < 2 ^ (w - 8))
    (h : f.toNat = t * 2 ^ (w - 7) + b.toNat * 2 ^ (w - 8) + r) :
    getType f = t ∧ hasBit f = b ∧ getRef f = r := by
  rw [getType_eq hw, hasBit_eq hw, getRef_eq hw, Nat.testBit_eq_decide_div_mod_eq, h]
  have e : 2 ^ (w - 7) = 2 ^ (w - 8) * 2 := by
    rw [← Nat.pow_succ]; congr 1; omega
  rw [e]
  have hP : 0 < 2 ^ (w - 8) := Nat.two_pow_pos _
  generalize 2 ^ (w - 8) = P at *
  have e2 : t * (P * 2) + b.toNat * P + r = P * (2 * t + b.toNat) + r := by
    rw [Nat.mul_add, Nat.mul_comm b.toNat P, Nat.mul_comm 2 t, ← Nat.mul_assoc,
      ← Nat.mul_assoc, Nat.mul_comm t]
  have hb : b.toNat < 2 := by cases b <;> simp
  rw [e2]
  refine ⟨?_, ?_, ?_⟩
  · rw [← Nat.div_div_eq_div_mul, Nat.mul_add_div hP, Nat.div_eq_of_lt hr]
    omega
  · rw [Nat.mul_add_div hP, Nat.div_eq_of_lt hr]
    cases b
    · simp
    · simp
  · rw [Nat.mul_add_mod, Nat.mod_eq_of_lt hr]

theorem mk_toNat (hw : 8 < w) (t : Nat) (ht : t < 128) (b : Bool) :
    (mk w t b).toNat = t * 2 ^ (w - 7) + b.toNat * 2 ^ (w - 8) + 1 := by
  have hw8 : 8 ≤ w := by omega
  have e : typeOffset w = w - 7 := by simp [typeOffset, bitOffset, refSize]; omega
  have hpw : 2 ^ w = 128 * 2 ^ (w - 7) := by
    have : w = 7 + (w - 7) := by omega
    conv => lhs; rw [this, Nat.pow_add]
  have h1 : (1#w).toNat = 1 := by
    simp [BitVec.toNat_ofNat]; omega
  have hP1 : 1 ≤ 2 ^ (w - 8 - 1) := Nat.one_le_two_pow
  have e8 : 2 ^ (w - 8) = 2 * 2 ^ (w - 8 - 1) := by
    rw [Nat.mul_comm, ← Nat.pow_succ]; congr 1; omega
  have e7 : 2 ^ (w - 7) = 2 * 2 ^ (w - 8) := by
    rw [Nat.mul_comm, ← Nat.pow_succ]; congr 1; omega
  have htw : (BitVec.ofNat w t <<< typeOffset w).toNat = t * 2 ^ (w - 7) := by
    rw [e, BitVec.toNat_shiftLeft, BitVec.toNat_ofNat, Nat.shiftLeft_eq]
    have : t < 2 ^ w := by rw [hpw]; have := Nat.two_pow_pos (w - 7); omega
    rw [Nat.mod_eq_of_lt this, Nat.mod_eq_of_lt]
    rw [hpw]
    exact Nat.mul_lt_mul_of_pos_right ht (Nat.two_pow_pos _)
  unfold mk
  rw [BitVec.toNat_or, BitVec.toNat_or, htw, h1]
  have hb : (if b = true then bitMask w else 0#w).toNat = b.toNat * 2 ^ (w - 8) := by
    cases b <;> simp [bitMask_toNat hw8]
  rw [hb]
  have hblt : b.toNat * 2 ^ (w - 8) < 2 ^ (w - 7) := by
    rw [e7]; cases b <;> simp <;> omega
  rw [Nat.mul_comm t, ← Nat.two_pow_add_eq_or_of_lt hblt]
  have : 2 ^ (w - 7) * t + b.toNat * 2 ^ (w - 8) = 2 ^ (w - 8) * (2 * t + b.toNat) := by
    rw [e7, Nat.mul_add, Nat.mul_comm b.toNat, ← Nat.mul_assoc, Nat.mul_comm (2 ^ (w-8)) 2]
  rw [this, ← Nat.two_pow_add_eq_or_of_lt (by omega)]

theorem mk_fields (hw : 8 < w) (t : Nat) (ht : t < 128) (b : Bool) :
    getType (mk w t b) = t ∧ hasBit (mk w t b) = b ∧ getRef (mk w t b) = 1 := by
  apply fields_of_toNat (by omega) _ _ _ _ _ (mk_toNat hw t ht b)
  have : 2 ^ 1 ≤ 2 ^ (w - 8) := Nat.pow_le_pow_right (by omega) (by omega)
  omega

theorem one_toNat (hw : 8 ≤ w) : (1#w).toNat = 1 := by
  simp [BitVec.toNat_ofNat]; omega

theorem incr_fields (hw : 8 ≤ w) (f : Word w) (h : getRef f + 1 < 2 ^ (w - 8)) :
    getType (incrRef f) = getType f ∧ hasBit (incrRef f) = hasBit f ∧
      getRef (incrRef f) = getRef f + 1 := by
  apply fields_of_toNat hw _ _ _ _ h
  have hd := word_decomp hw f
  have h1 := one_toNat hw
  have htype : getType f < 128 := by
    rw [getType_eq hw]
    apply Nat.div_lt_of_lt_mul
    have := f.isLt
    have e : 2 ^ (w - 7) * 128 = 2 ^ w := by
      rw [show (128 : Nat) = 2 ^ 7 from rfl, ← Nat.pow_add]; congr 1; omega
    omega
  have e7 : 2 ^ (w - 7) = 2 * 2 ^ (w - 8) := by
    rw [Nat.mul_comm, ← Nat.pow_succ]; congr 1; omega
  have ew : 2 ^ w = 128 * 2 ^ (w - 7) := by
    have : w = 7 + (w - 7) := by omega
    conv => lhs; rw [this, Nat.pow_add]
  have hm : getType f * 2 ^ (w - 7) ≤ 127 * 2 ^ (w - 7) := Nat.mul_le_mul_right _ (by omega)
  have hb : (hasBit f).toNat * 2 ^ (w - 8) ≤ 2 ^ (w - 8) := by cases hasBit f <;> simp
  rw [incrRef, BitVec.toNat_add, h1, Nat.mod_eq_of_lt]
  · omega
  · omega

theorem decr_fields (hw : 8 ≤ w) (f : Word w) (h : 0 < getRef f) :
    getType (decrRef f) = getType f ∧ hasBit (decrRef f) = hasBit f ∧
      getRef (decrRef f) = getRef f - 1 := by
  have hlt : getRef f < 2 ^ (w - 8) := by
    rw [getRef_eq hw]; exact Nat.mod_lt _ (Nat.two_pow_pos _)
  apply fields_of_toNat hw _ _ _ _ (by omega)
  have hd := word_decomp hw f
  have h1 := one_toNat hw
  rw [decrRef, BitVec.toNat_sub_of_le, h1]
  · omega
  · rw [BitVec.le_def, h1]; omega

/-- Relation between the object and the owner count. -/
def Rel (t : Nat) (b : Bool) : Obj w → Life → Prop
  | .live f, .alive n => getType f = t ∧ hasBit f = b ∧ getRef f = n ∧ 0 < n
  | .freed, .dead => True
  | .ub, .misuse => True
  | _, _ => False

theorem rel_step (hw : 8 ≤ w) (t : Nat) (b : Bool) (o : Obj w) (l : Life) (op : Op)
    (h : Rel t b o l) (hcap : ∀ n, l.step op = .alive n → n < 2 ^ (w - 8)) :
    Rel t b (step o op) (l.step op) := by
  cases o with
  | live f =>
    cases l with
    | alive n =>
      obtain ⟨h1, h2, h3, h4⟩ := h
      cases op with
      | retain =>
        have := hcap (n + 1) rfl
        have hf := incr_fields hw f (by omega)
        simp only [step, Life.step, Rel]
        exact ⟨hf.1.trans h1, hf.2.1.trans h2, by omega, by omega⟩
      | release =>
        have hf := decr_fields hw f (by omega)
        simp only [step, Life.step]
        by_cases hn : n = 1
        · have : getRef (decrRef f) = 0 := by omega
          simp [this, hn, Rel]
        · have : getRef (decrRef f) ≠ 0 := by omega
          simp only [this, hn, if_false, Rel]
          exact ⟨hf.1.trans h1, hf.2.1.trans h2, by omega, by omega⟩
    | dead => exact h.elim
    | misuse => exact h.elim
  | freed => cases l <;> simp_all [Rel, step, Life.step]
  | ub => cases l <;> simp_all [Rel, step, Life.step]

theorem within_head {cap : Nat} {l : Life} {ops : List Op} (h : Life.Within cap l ops) :
    ∀ n, l = .alive n → n < cap := by
  cases ops with
  | nil => exact h
  | cons op ops => exact h.1

theorem rel_run (hw : 8 ≤ w) (t : Nat) (b : Bool) (ops : List Op) (o : Obj w) (l : Life)
    (h : Rel t b o l) (hcap : Life.Within (2 ^ (w - 8)) l ops) :
    Rel t b (ops.foldl step o) (ops.foldl Life.step l) := by
  induction ops generalizing o l with
  | nil => exact h
  | cons op ops ih =>
    exact ih _ _ (rel_step hw t b o l op h (within_head hcap.2)) hcap.2

end Cowl.Flags
