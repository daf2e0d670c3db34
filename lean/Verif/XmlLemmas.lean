import Verif.Xml
import Verif.XmlSpec
namespace Cowl

open XmlSpec

theorem isNcNameStart_iff (c : UInt8) : isNcNameStart c = true ↔ NameStart c := by
  simp [isNcNameStart, NameStart, UInt8.le_iff_toNat_le, ← UInt8.toNat_inj]
  omega

theorem isNcNameNonStart_iff (c : UInt8) :
    (isNcNameStart c || isNcNameNonStart c) = true ↔ NameChar c := by
  rw [Bool.or_eq_true, isNcNameStart_iff]
  simp [isNcNameNonStart, NameChar, UInt8.le_iff_toNat_le, ← UInt8.toNat_inj]
  rw [or_assoc]

/-- Name character in the code's sense. -/
def isNc (c : UInt8) : Bool := isNcNameStart c || isNcNameNonStart c

/-- What the scan computes: `r` reversed prefix still to be scanned, `n` the
current answer. -/
theorem nsScan_le (r : List UInt8) (n : Nat) (h : r.length ≤ n) : nsScan r n ≤ n := by
  induction r generalizing n with
  | nil => simp [nsScan]
  | cons c r ih =>
    simp only [nsScan]
    simp only [List.length_cons] at h
    split
    · have := ih r.length (Nat.le_refl _); omega
    · split
      · omega
      · exact ih n (by omega)

theorem localName_snoc (l : List UInt8) (c : UInt8) :
    LocalName (l ++ [c]) ↔ (l = [] ∧ NameStart c) ∨ (LocalName l ∧ NameChar c) := by
  cases l with
  | nil =>
    constructor
    · rintro ⟨d, t, h1, h2, h3⟩
      simp at h1
      left; exact ⟨rfl, h1.1 ▸ h2⟩
    · rintro (⟨_, h⟩ | ⟨⟨d, t, h, _⟩, _⟩)
      · exact ⟨c, [], rfl, h, by simp⟩
      · simp at h
  | cons d l =>
    constructor
    · rintro ⟨d', t, h1, h2, h3⟩
      injection h1 with h1 h1'
      subst h1 h1'
      right
      refine ⟨⟨d, l, rfl, h2, fun x hx => h3 x (by simp [hx])⟩, h3 c (by simp)⟩
    · rintro (⟨h, _⟩ | ⟨⟨d', t, h, h2, h3⟩, h4⟩)
      · simp at h
      · injection h with h h'
        subst h h'
        refine ⟨d, l ++ [c], rfl, h2, ?_⟩
        intro x hx
        rcases List.mem_append.1 hx with hx | hx
        · exact h3 x hx
        · simp at hx; subst hx; exact h4

/-- The scan without its initial answer. -/
def nsFind : List UInt8 → Option Nat
  | [] => none
  | c :: rest =>
    if isNcNameStart c then some ((nsFind rest).getD rest.length)
    else if !isNcNameNonStart c then none
    else nsFind rest

theorem nsScan_eq_find (r : List UInt8) (n : Nat) : nsScan r n = (nsFind r).getD n := by
  induction r generalizing n with
  | nil => rfl
  | cons c r ih =>
    simp only [nsScan, nsFind]
    split
    · rw [ih]; rfl
    · split
      · rfl
      · exact ih n

theorem nsFind_lt (r : List UInt8) (k : Nat) (h : nsFind r = some k) : k < r.length := by
  induction r generalizing k with
  | nil => simp [nsFind] at h
  | cons c r ih =>
    simp only [nsFind] at h
    split at h
    · injection h with h
      cases hr : nsFind r with
      | none => rw [hr] at h; simp at h; simp; omega
      | some k' => rw [hr] at h; simp at h; have := ih k' hr; simp; omega
    · split at h
      · simp at h
      · have := ih k h; simp; omega

theorem nsLength_eq (s : Str) : nsLength s = (nsFind s.reverse).getD s.length := nsScan_eq_find _ _

/-- What the scan finds. -/
theorem nsFind_spec (r : List UInt8) :
    match nsFind r with
    | none => ∀ i, i < r.length → ¬ LocalName (r.reverse.drop i)
    | some k => LocalName (r.reverse.drop k) ∧ ∀ i, i < k → ¬ LocalName (r.reverse.drop i) := by
  induction r with
  | nil => simp [nsFind]
  | cons c r ih =>
    have hdrop : ∀ i, i ≤ r.length → (c :: r).reverse.drop i = r.reverse.drop i ++ [c] := by
      intro i hi
      rw [List.reverse_cons, List.drop_append_of_le_length (by simp; omega)]
    have hnil : ∀ i, r.reverse.drop i = [] ↔ r.length ≤ i := by
      intro i; rw [List.drop_eq_nil_iff]; simp
    simp only [nsFind]
    by_cases hs : isNcNameStart c = true
    · have hcs : NameStart c := (isNcNameStart_iff c).1 hs
      simp only [hs, if_true]
      cases hf : nsFind r with
      | none =>
        rw [hf] at ih
        simp only [Option.getD_none]
        refine ⟨?_, ?_⟩
        · rw [hdrop _ (Nat.le_refl _), localName_snoc]
          exact Or.inl ⟨(hnil _).2 (Nat.le_refl _), hcs⟩
        · intro i hi hc
          rw [hdrop _ (by omega), localName_snoc] at hc
          rcases hc with ⟨hc, _⟩ | ⟨hc, _⟩
          · have := (hnil _).1 hc; omega
          · exact ih i hi hc
      | some k =>
        rw [hf] at ih
        have hk := nsFind_lt _ _ hf
        simp only [Option.getD_some]
        refine ⟨?_, ?_⟩
        · rw [hdrop _ (by omega), localName_snoc]
          exact Or.inr ⟨ih.1, Or.inl hcs⟩
        · intro i hi hc
          rw [hdrop _ (by omega), localName_snoc] at hc
          rcases hc with ⟨hc, _⟩ | ⟨hc, _⟩
          · have := (hnil _).1 hc; omega
          · exact ih.2 i hi hc
    · have hcs : ¬ NameStart c := fun h => hs ((isNcNameStart_iff c).2 h)
      simp only [hs]
      by_cases hns : isNcNameNonStart c = true
      · have hnc : NameChar c := (isNcNameNonStart_iff c).1 (by simp [hns])
        simp only [hns, Bool.not_true, Bool.false_eq_true, if_false]
        have hback : ∀ i, i < (c :: r).length → LocalName ((c :: r).reverse.drop i) →
            i < r.length ∧ LocalName (r.reverse.drop i) := by
          intro i hi hc
          simp only [List.length_cons] at hi
          rw [hdrop _ (by omega), localName_snoc] at hc
          rcases hc with ⟨_, hc⟩ | ⟨hc, _⟩
          · exact absurd hc hcs
          · refine ⟨?_, hc⟩
            apply Nat.lt_of_not_le
            intro hle
            rw [(hnil i).2 hle] at hc
            obtain ⟨_, _, h, _⟩ := hc
            simp at h
        cases hf : nsFind r with
        | none =>
          rw [hf] at ih
          intro i hi hc
          obtain ⟨h1, h2⟩ := hback i hi hc
          exact ih i h1 h2
        | some k =>
          rw [hf] at ih
          have hk := nsFind_lt _ _ hf
          refine ⟨?_, ?_⟩
          · rw [hdrop _ (by omega), localName_snoc]
            exact Or.inr ⟨ih.1, hnc⟩
          · intro i hi hc
            obtain ⟨h1, h2⟩ := hback i (by simp; omega) hc
            exact ih.2 i hi h2
      · have hnc : ¬ NameChar c := by
          intro h
          have := (isNcNameNonStart_iff c).2 h
          simp [hs, hns] at this
        simp only [hns]
        intro i hi hc
        simp only [List.length_cons] at hi
        rw [hdrop _ (by omega), localName_snoc] at hc
        rcases hc with ⟨_, hc⟩ | ⟨_, hc⟩
        · exact hcs hc
        · exact hnc hc

theorem nsLength_le (s : Str) : nsLength s ≤ s.length := by
  unfold nsLength
  exact nsScan_le _ _ (by simp)

/-- Full characterisation of `nsLength`. -/
theorem nsLength_spec (s : Str) :
    (nsLength s = s.length ∨ LocalName (s.drop (nsLength s))) ∧
      ∀ i, i < nsLength s → ¬ LocalName (s.drop i) := by
  have h := nsFind_spec s.reverse
  rw [nsLength_eq]
  cases hf : nsFind s.reverse with
  | none =>
    rw [hf, List.reverse_reverse, List.length_reverse] at h
    exact ⟨Or.inl rfl, h⟩
  | some k =>
    rw [hf, List.reverse_reverse] at h
    exact ⟨Or.inr h.1, h.2⟩

theorem getNsRem_nsLength (s : Str) :
    getNsRem s (nsLength s) = (s.take (nsLength s), s.drop (nsLength s)) := by
  unfold getNsRem
  split
  · rfl
  · have := nsLength_le s
    have e : nsLength s = s.length := by omega
    rw [e]; simp

/-- Scan over a concatenation: the second part matters only if the first has no
breaking byte. -/
theorem nsFind_append (a b : List UInt8) :
    nsFind (a ++ b) =
      if a.all isNc then (nsFind b).or ((nsFind a).map (· + b.length))
      else (nsFind a).map (· + b.length) := by
  induction a with
  | nil => simp [nsFind]
  | cons c a ih =>
    simp only [List.cons_append, nsFind, ih, List.all_cons]
    by_cases hs : isNcNameStart c = true
    · have hc : isNc c = true := by simp [isNc, hs]
      simp only [hs, if_true, hc, Bool.true_and]
      by_cases hall : a.all isNc = true
      · simp only [hall, if_true]
        cases nsFind b with
        | some k => simp
        | none => cases nsFind a <;> simp
      · rw [if_neg hall, if_neg hall]
        cases nsFind a <;> simp
    · rw [if_neg hs, if_neg hs]
      by_cases hn : isNcNameNonStart c = true
      · simp [hn, isNc]
      · simp [hn, hs, isNc]

theorem nsLength_lt_iff (s : Str) : nsLength s < s.length ↔ (nsFind s.reverse).isSome := by
  rw [nsLength_eq]
  cases h : nsFind s.reverse with
  | none => simp
  | some k => have := nsFind_lt _ _ h; simp at this ⊢; exact this

/-- `nsLength s = 0` forces every byte of `s` to be a name character. -/
theorem all_isNc_of_nsLength_zero (s : Str) (h : nsLength s = 0) : s.reverse.all isNc = true := by
  rcases (nsLength_spec s).1 with h1 | h1
  · rw [h] at h1
    have : s = [] := List.length_eq_zero_iff.1 h1.symm
    subst this; rfl
  · rw [h, List.drop_zero] at h1
    obtain ⟨c, t, rfl, hc, ht⟩ := h1
    rw [List.all_eq_true]
    intro x hx
    rw [isNc, isNcNameNonStart_iff]
    rcases List.mem_cons.1 (List.mem_reverse.1 hx) with hx | hx
    · subst hx; exact Or.inl hc
    · exact ht x hx

/-- The two ways of building an IRI agree exactly outside one situation. -/
theorem iriOfParts_eq_iff (p s : Str) :
    iriOfParts p s = ((p ++ s).take (nsLength (p ++ s)), (p ++ s).drop (nsLength (p ++ s))) ↔
      ¬ (0 < nsLength s ∧ s.all isNc = true ∧ nsLength p < p.length) := by
  have hrev : (p ++ s).reverse = s.reverse ++ p.reverse := List.reverse_append
  have hall : s.reverse.all isNc = s.all isNc := by simp
  have happ := nsFind_append s.reverse p.reverse
  rw [hall, List.length_reverse] at happ
  have hps : nsLength (p ++ s) = (nsFind (s.reverse ++ p.reverse)).getD (p.length + s.length) := by
    rw [nsLength_eq, hrev, List.length_append]
  unfold iriOfParts
  simp only []
  by_cases h0 : 0 < nsLength s
  · rw [if_pos h0]
    have hs' := nsLength_eq s
    have hsle := nsLength_le s
    have key : nsLength (p ++ s) = p.length + nsLength s →
        (p ++ s.take (nsLength s), s.drop (nsLength s)) =
          ((p ++ s).take (nsLength (p ++ s)), (p ++ s).drop (nsLength (p ++ s))) := by
      intro e
      rw [e, List.take_length_add_append, List.drop_length_add_append]
    by_cases ha : s.all isNc = true
    · rw [if_pos ha] at happ
      by_cases hp : nsLength p < p.length
      · have hp' := (nsLength_lt_iff p).1 hp
        obtain ⟨k, hk⟩ := Option.isSome_iff_exists.1 hp'
        have hkl := nsFind_lt _ _ hk
        rw [List.length_reverse] at hkl
        rw [happ, hk] at hps
        simp only [Option.some_or, Option.getD_some] at hps
        constructor
        · intro e
          exfalso
          have := congrArg (fun x => x.1.length) e
          simp only [List.length_append, List.length_take, hps] at this
          omega
        · intro e; exact absurd ⟨h0, ha, hp⟩ e
      · have hp' : nsFind p.reverse = none := by
          cases hk : nsFind p.reverse with
          | none => rfl
          | some k => exact absurd ((nsLength_lt_iff p).2 (by simp [hk])) hp
        rw [happ, hp'] at hps
        constructor
        · intro _ e; exact hp e.2.2
        · intro _
          apply key
          rw [hps, hs']
          cases nsFind s.reverse <;> simp
          omega
    · rw [if_neg ha] at happ
      rw [happ] at hps
      constructor
      · intro _ e; exact ha e.2.1
      · intro _
        apply key
        rw [hps, hs']
        cases nsFind s.reverse <;> simp
        omega
  · rw [if_neg h0]
    have hz : nsLength s = 0 := by omega
    have ha : s.all isNc = true := hall ▸ all_isNc_of_nsLength_zero s hz
    rw [if_pos ha] at happ
    have e : nsLength (p ++ s) = nsLength p := by
      rw [hps, happ, nsLength_eq p]
      cases nsFind p.reverse with
      | some k => simp
      | none =>
        have := nsLength_eq s
        rw [hz] at this
        cases hf : nsFind s.reverse with
        | none =>
          rw [hf] at this
          simp only [Option.getD_none] at this
          simp [hf, ← this]
        | some k => rw [hf] at this; simp at this ⊢; omega
    have hple := nsLength_le p
    rw [e]
    constructor
    · intro _ h; exact h0 h.1
    · intro _
      rw [List.take_append_of_le_length hple, List.drop_append_of_le_length hple]
      split
      · rfl
      · have : nsLength p = p.length := by omega
        rw [this]; simp

end Cowl
