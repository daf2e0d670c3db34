import Verif.UintText
/-! # C28: unsigned integers as text -/
namespace Cowl

/-- A decimal digit. -/
def IsDigit (c : UInt8) : Prop := 48 ≤ c.toNat ∧ c.toNat ≤ 57

/-- The number a digit string denotes: positional notation, base ten. -/
def decimal : Str → Nat → Nat
  | [], acc => acc
  | c :: s, acc => decimal s (acc * 10 + (c.toNat - 48))

theorem decimal_append (s t : Str) (n : Nat) : decimal (s ++ t) n = decimal t (decimal s n) := by
  induction s generalizing n with
  | nil => rfl
  | cons c s ih => exact ih _

/-! ## The reversal loop -/

theorem swapLoop_eq : ∀ (n : Nat) (l : Str), l.length ≤ n → swapLoop n l = l.reverse
  | 0, [], _ => rfl
  | 0, _ :: _, h => by simp at h
  | _ + 1, [], _ => rfl
  | n + 1, x :: t, h => by
    rw [swapLoop]
    cases ht : t.getLast? with
    | none => rw [List.getLast?_eq_none_iff] at ht; subst ht; rfl
    | some y =>
      have hne : t ≠ [] := by rintro rfl; simp at ht
      have hy : t = t.dropLast ++ [y] := by
        have h1 := List.dropLast_concat_getLast hne
        rw [List.getLast?_eq_some_getLast hne] at ht
        cases ht
        exact h1.symm
      have hl : t.dropLast.length ≤ n := by simp at h ⊢; omega
      dsimp only
      rw [swapLoop_eq n _ hl]
      conv => rhs; rw [hy]
      simp

/-! ## Digits -/

theorem digit_toNat {d : Nat} (h : d < 10) : (UInt8.ofNat (d + 48)).toNat = d + 48 := by
  simp; omega

theorem digitsRev_digits : ∀ (fuel n : Nat), ∀ c ∈ digitsRev fuel n, IsDigit c
  | 0, _, c, h => by cases h
  | fuel + 1, n, c, h => by
    rw [digitsRev] at h
    rcases List.mem_cons.1 h with h1 | h1
    · rw [h1, IsDigit, digit_toNat (Nat.mod_lt _ (by omega))]
      have := Nat.mod_lt n (show 10 > 0 by omega)
      omega
    · split at h1
      · cases h1
      · exact digitsRev_digits fuel _ c h1

theorem digitsRev_value : ∀ (fuel n : Nat), n < 10 ^ fuel → ∀ acc,
    decimal (digitsRev fuel n).reverse acc = acc * 10 ^ (digitsRev fuel n).length + n
  | 0, n, h, acc => by
    have : n = 0 := by simp at h; exact h
    subst this; simp [digitsRev, decimal]
  | fuel + 1, n, h, acc => by
    rw [digitsRev]
    have hd := digit_toNat (Nat.mod_lt n (show 10 > 0 by omega))
    split
    · rename_i h0
      simp only [List.reverse_cons, List.reverse_nil, List.nil_append, decimal, hd,
        List.length_cons, List.length_nil]
      omega
    · rw [List.reverse_cons, decimal_append, digitsRev_value fuel (n / 10) (by
        rw [Nat.pow_succ] at h; omega)]
      simp only [decimal, hd, List.length_cons, Nat.pow_succ]
      generalize 10 ^ (digitsRev fuel (n / 10)).length = P
      rw [← Nat.mul_assoc]
      generalize acc * P = Q
      omega

theorem digitsRev_ne_nil (fuel n : Nat) : digitsRev (fuel + 1) n ≠ [] := by simp [digitsRev]

theorem uintToStr_eq (n : UInt32) : uintToStr n = (digitsRev 10 n.toNat).reverse :=
  swapLoop_eq _ _ (Nat.le_refl _)

/-- C28, writing: the text of a number is a non-empty string of digits which denotes
the number, without leading zeros. -/
theorem C28_write (n : UInt32) : uintToStr n ≠ [] ∧ (∀ c ∈ uintToStr n, IsDigit c) ∧
    decimal (uintToStr n) 0 = n.toNat := by
  rw [uintToStr_eq]
  refine ⟨by simp [digitsRev_ne_nil], fun c h => digitsRev_digits _ _ c (List.mem_reverse.1 h), ?_⟩
  have : n.toNat < 10 ^ 10 := Nat.lt_trans n.toNat_lt (by decide)
  rw [digitsRev_value _ _ this]; simp

theorem digit_val {c : UInt8} (h : IsDigit c) : ¬ (c < 48 ∨ 57 < c) := by
  rw [UInt8.lt_iff_toNat_lt, UInt8.lt_iff_toNat_lt]
  have h1 : (48 : UInt8).toNat = 48 := rfl
  have h2 : (57 : UInt8).toNat = 57 := rfl
  rw [h1, h2]
  unfold IsDigit at h
  omega

theorem not_digit {c : UInt8} (h : ¬ IsDigit c) : c < 48 ∨ 57 < c := by
  rw [UInt8.lt_iff_toNat_lt, UInt8.lt_iff_toNat_lt]
  have h1 : (48 : UInt8).toNat = 48 := rfl
  have h2 : (57 : UInt8).toNat = 57 := rfl
  rw [h1, h2]
  unfold IsDigit at h
  omega

theorem toUintLoop_digits : ∀ (s : Str) (r : UInt32) (n : Nat), (∀ c ∈ s, IsDigit c) →
    r = UInt32.ofNat n → toUintLoop s r = UInt32.ofNat (decimal s n)
  | [], _, _, _, hr => hr
  | c :: s, r, n, h, hr => by
    rw [toUintLoop, if_neg (digit_val (h c (by simp))), decimal]
    apply toUintLoop_digits s _ _ fun x hx => h x (by simp [hx])
    rw [hr, UInt32.ofNat_add, UInt32.ofNat_mul]
    rfl

/-- C28, reading a digit string: its value modulo 2^32. -/
theorem C28_read (s : Str) (h : ∀ c ∈ s, IsDigit c) : (strToUint s).toNat = decimal s 0 % 2 ^ 32 := by
  rw [strToUint, toUintLoop_digits s 0 0 h rfl]; simp

/-- C28, round trip, for every representable integer. -/
theorem C28_round_trip (n : UInt32) : strToUint (uintToStr n) = n := by
  obtain ⟨_, h1, h2⟩ := C28_write n
  apply UInt32.toNat_inj.1
  rw [C28_read _ h1, h2]
  exact Nat.mod_eq_of_lt n.toNat_lt

theorem toUintLoop_bad : ∀ (s : Str) (r : UInt32), (∃ c ∈ s, ¬ IsDigit c) → toUintLoop s r = 0xFFFFFFFF
  | [], _, h => by obtain ⟨c, h, _⟩ := h; cases h
  | c :: s, r, h => by
    rw [toUintLoop]
    by_cases hc : IsDigit c
    · rw [if_neg (digit_val hc)]
      apply toUintLoop_bad
      obtain ⟨x, hx, hd⟩ := h
      rcases List.mem_cons.1 hx with h1 | h1
      · exact absurd (h1 ▸ hc) hd
      · exact ⟨x, h1, hd⟩
    · rw [if_pos (not_digit hc)]

/-- C28, rejection of text with a character that is not a digit. Missing from the
full statement: numbers out of range and the empty string, see `C28_fails`. -/
theorem C28_partial (s : Str) (h : ∃ c ∈ s, ¬ IsDigit c) : strToUint s = 0xFFFFFFFF :=
  toUintLoop_bad s 0 h

/-- C28 is false as stated: numbers that do not fit are reduced modulo 2^32, the
empty string is zero, and the value used for rejection is also a legal number. -/
theorem C28_fails : strToUint (ascii "4294967296") = 0 ∧ strToUint (ascii "4294967297") = 1 ∧
    strToUint [] = 0 ∧ strToUint (ascii "4294967295") = strToUint (ascii "x") := by decide +kernel

example : uintToStr 4294967295 = ascii "4294967295" ∧ uintToStr 0 = ascii "0" ∧
    uintToStr 1020 = ascii "1020" ∧ strToUint (ascii "0042") = 42 ∧
    strToUint (ascii "12a") = 0xFFFFFFFF := by decide +kernel

example : (∀ c ∈ ascii "0042", IsDigit c) ∧ decimal (ascii "0042") 0 = 42 ∧
    ∃ c ∈ ascii "12a", ¬ IsDigit c := by
  refine ⟨?_, by decide, 97, by decide, by simp [IsDigit]⟩
  have : ∀ c ∈ ascii "0042", 48 ≤ c.toNat ∧ c.toNat ≤ 57 := by decide
  exact this

end Cowl
