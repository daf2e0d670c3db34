import Verif.PrtNum
/-! # Lemmas about numbers in ProtocOWL: the instance `leb` is lawful -/
namespace Cowl.Prt

theorem lebDec_enc (r : Str) : ∀ k n, n < 128 ^ (k + 1) → lebDec (k + 1) (lebEnc (k + 1) n ++ r) = some (n, r)
  | k, n, h => by
    rw [lebEnc]
    split
    · rename_i hn
      have : (UInt8.ofNat n).toNat = n := by simp; omega
      simp [lebDec, this, hn]
    · rename_i hn
      have hm := Nat.mod_lt n (show 128 > 0 by omega)
      have : (UInt8.ofNat (n % 128 + 128)).toNat = n % 128 + 128 := by simp; omega
      cases k with
      | zero => simp at h; omega
      | succ k =>
        rw [List.cons_append, lebDec, this, if_neg (by omega),
          lebDec_enc r k (n / 128) (by rw [Nat.pow_succ] at h; omega)]
        simp; omega

theorem lebDec_lt : ∀ {k s n r}, lebDec k s = some (n, r) → r.length < s.length
  | 0, s, n, r, h => by simp [lebDec] at h
  | k + 1, [], n, r, h => by simp [lebDec] at h
  | k + 1, c :: s, n, r, h => by
    rw [lebDec] at h
    split at h
    · cases h; simp
    · cases e : lebDec k s with
      | none => rw [e] at h; cases h
      | some p =>
        obtain ⟨m, q⟩ := p
        rw [e] at h; cases h
        have := lebDec_lt e
        simp; omega

theorem zagzig_zigzag (v : Int) (h : IsInt32 v) : zigzag v < 4294967296 ∧ zagzig (zigzag v) = v := by
  obtain ⟨h1, h2⟩ := h
  unfold zagzig zigzag
  split <;> constructor <;> try omega
  all_goals split <;> omega

theorem zagzig_range (n : Nat) (h : n < 4294967296) : IsInt32 (zagzig n) := by
  unfold zagzig IsInt32; split <;> omega

theorem isDigit_iff (c : UInt8) : isDigit c = true ↔ IsDigit c := by
  simp [isDigit, IsDigit]

theorem fmtUint_digits (n : Nat) : ∀ c ∈ fmtUint n, IsDigit c := fun c h =>
  digitsRev_digits 10 n c (by simpa [fmtUint] using h)

theorem fmtUint_ne_nil (n : Nat) : fmtUint n ≠ [] := by
  simpa [fmtUint] using digitsRev_ne_nil 9 n

theorem fmtUint_value (n : Nat) (h : n < 10 ^ 10) : decimal (fmtUint n) 0 = n := by
  simpa [fmtUint] using digitsRev_value 10 n h 0

theorem takeWhile_digits {ds r : Str} (h : ∀ c ∈ ds, IsDigit c) (hr : ∀ c ∈ r.head?, ¬ IsDigit c) :
    (ds ++ r).takeWhile isDigit = ds := by
  rw [List.takeWhile_append_of_pos (fun c hc => (isDigit_iff c).2 (h c hc))]
  cases r with
  | nil => simp
  | cons c r =>
    have : isDigit c = false := by
      cases e : isDigit c with
      | false => rfl
      | true => exact absurd ((isDigit_iff c).1 e) (hr c (by simp))
    simp [this]

theorem clamp_range (v : Int) : IsInt32 (clamp v) := by
  unfold clamp IsInt32; split; omega; split <;> omega

theorem clamp_id {v : Int} (h : IsInt32 v) : clamp v = v := by
  unfold clamp; obtain ⟨h1, h2⟩ := h; rw [if_neg (by omega), if_neg (by omega)]

theorem strtol_fmt (v : Int) (hv : IsInt32 v) (r : Str) (hr : ∀ c ∈ r.head?, ¬ IsDigit c) :
    strtol (fmtInt v ++ r) = (v, r) := by
  obtain ⟨h1, h2⟩ := hv
  have hd := fmtUint_digits v.natAbs
  have hne := fmtUint_ne_nil v.natAbs
  have hval := fmtUint_value v.natAbs (by omega)
  by_cases h : v < 0
  · simp only [strtol, fmtInt, if_pos h, List.cons_append, List.head?_cons, List.drop_succ_cons, List.drop_zero,
      beq_self_eq_true, Bool.true_or, if_true, takeWhile_digits hd hr, if_neg hne, List.drop_left, hval]
    rw [show (-(v.natAbs : Int)) = v by omega, clamp_id ⟨h1, h2⟩]
  · have hh : ∃ c t, fmtUint v.natAbs = c :: t := List.exists_cons_of_ne_nil hne
    obtain ⟨c, t, e⟩ := hh
    have hc : IsDigit c := hd c (by rw [e]; simp)
    have n1 : c ≠ 45 := by rintro rfl; simp [IsDigit] at hc
    have n2 : c ≠ 43 := by rintro rfl; simp [IsDigit] at hc
    have hhead : (fmtUint v.natAbs ++ r).head? = some c := by rw [e]; rfl
    have b1 : (some c == some (45 : UInt8)) = false := by simpa using n1
    have b2 : (some c == some (43 : UInt8)) = false := by simpa using n2
    simp only [strtol, fmtInt, if_neg h, hhead, b1, b2, Bool.or_self, Bool.false_eq_true, if_false,
      takeWhile_digits hd hr, if_neg hne, List.drop_left, hval]
    rw [show ((v.natAbs : Int)) = v by omega, clamp_id ⟨h1, h2⟩]

theorem fmtInt_ne_nil (v : Int) : fmtInt v ≠ [] := by
  unfold fmtInt; split
  · simp
  · exact fmtUint_ne_nil _

theorem strtol_range (s : Str) : IsInt32 (strtol s).1 := by
  unfold strtol
  dsimp only
  generalize (if (s.head? == some 45 || s.head? == some 43) = true then s.drop 1 else s) = t
  generalize t.takeWhile isDigit = ds
  split
  · show IsInt32 0; constructor <;> decide
  · exact clamp_range _

/-- The assumptions about ulib can be met. -/
theorem leb_lawful : leb.Lawful where
  read_varint n h r := by
    simp only [leb]
    rw [lebDec_enc r 4 n (by omega)]; simp; omega
  varint_lt h := by
    simp only [leb, Option.map_eq_some_iff] at h
    obtain ⟨p, hp, e⟩ := h
    cases e
    exact ⟨Nat.mod_lt _ (by omega), lebDec_lt hp⟩
  read_svarint v h r := by
    have := zagzig_zigzag v h
    simp only [leb]
    rw [lebDec_enc r 4 _ (by omega)]; simp [Nat.mod_eq_of_lt this.1, this.2]
  svarint_lt h := by
    simp only [leb, Option.map_eq_some_iff] at h
    obtain ⟨p, hp, e⟩ := h
    cases e
    exact ⟨zagzig_range _ (Nat.mod_lt _ (by omega)), lebDec_lt hp⟩
  to_int v h := by
    have := strtol_fmt v h [] (by simp)
    simp only [List.append_nil] at this
    simp only [leb, this]
    simp [fmtInt_ne_nil]
  to_int_range h := by
    simp only [leb] at h
    split at h
    · cases h; exact strtol_range _
    · cases h
  str_to_int v h r hr := strtol_fmt v h r hr
  str_to_int_range s := strtol_range s

/-! ## Lengths -/

theorem digitsRev_length : ∀ fuel n, (digitsRev fuel n).length ≤ fuel
  | 0, _ => by simp [digitsRev]
  | fuel + 1, n => by
    rw [digitsRev]
    split
    · simp
    · simpa using digitsRev_length fuel (n / 10)

theorem fmtUint_length (n : Nat) : (fmtUint n).length ≤ 10 := by
  unfold fmtUint; rw [List.length_reverse]; exact digitsRev_length 10 n

theorem fmtInt_length (v : Int) : (fmtInt v).length ≤ 11 := by
  unfold fmtInt
  split
  · simpa using fmtUint_length v.natAbs
  · have := fmtUint_length v.natAbs; omega

end Cowl.Prt
