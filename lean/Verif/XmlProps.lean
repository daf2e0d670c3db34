import Verif.XmlLemmas
/-! # C02, C03: splitting IRIs -/
namespace Cowl
open XmlSpec

/-- C02. A non-empty string is split without loss, at the longest suffix that is
empty or a local name. -/
theorem C02_split (s : Str) (h : s ≠ []) :
    ∃ ns rem, iriFromString s = some (ns, rem) ∧ IsSplit s ns rem := by
  have hne : ¬ (s.length + 1 ≤ 1) := by
    cases s with
    | nil => exact absurd rfl h
    | cons => simp
  refine ⟨_, _, by rw [iriFromString, if_neg hne, getNsRem_nsLength], ?_⟩
  obtain ⟨h1, h2⟩ := nsLength_spec s
  refine ⟨(List.take_append_drop _ _).symm, ?_, ?_⟩
  · rcases h1 with h1 | h1
    · left; rw [h1]; simp
    · exact Or.inr h1
  · intro ns' rem' e hl
    have hn : nsLength s ≤ ns'.length := by
      apply Nat.le_of_not_lt
      intro hc
      apply h2 _ hc
      rw [e, List.drop_left]; exact hl
    have := congrArg List.length e
    rw [List.length_append] at this
    have := nsLength_le s
    rw [List.length_drop]
    omega

/-- C02, uniqueness: the specification determines the split, so `C02_split` says
which one is taken. -/
theorem C02_split_unique (s ns rem ns' rem' : Str)
    (h : IsSplit s ns rem) (h' : IsSplit s ns' rem') : ns = ns' ∧ rem = rem' := by
  obtain ⟨e, hr, hm⟩ := h
  obtain ⟨e', hr', hm'⟩ := h'
  have hlen : rem.length = rem'.length := by
    rcases hr with hr | hr <;> rcases hr' with hr' | hr'
    · rw [hr, hr']
    · have := hm _ _ e' hr'
      rw [hr] at this ⊢
      simp only [List.length_nil] at this ⊢
      omega
    · have := hm' _ _ e hr
      rw [hr'] at this ⊢
      simp only [List.length_nil] at this ⊢
      omega
    · exact Nat.le_antisymm (hm' _ _ e hr) (hm _ _ e' hr')
  have e2 : ns ++ rem = ns' ++ rem' := e ▸ e'
  have := List.append_inj' e2 hlen
  exact this

/-- The empty string has no IRI (`cowl_iri_from_string` returns NULL). -/
theorem C02_empty : iriFromString [] = none := rfl

/-- `http://a#b-1` is split after `#`. -/
example : iriFromString (ascii "http://a#b-1") = some (ascii "http://a#", ascii "b-1") := by
  decide +kernel

/-- C03. Assembling from prefix and suffix agrees with splitting the whole string
exactly when it is not the case that the suffix starts with non-start name
bytes, has only name bytes, and the prefix ends in a local name. -/
theorem C03_parts_iff (p s : Str) (h : p ++ s ≠ []) :
    some (iriOfParts p s) = iriFromString (p ++ s) ↔
      ¬ ((¬ (s = [] ∨ LocalName s)) ∧ (∀ c ∈ s, NameChar c) ∧
          ∃ a b, p = a ++ b ∧ LocalName b) := by
  have hne : ¬ ((p ++ s).length + 1 ≤ 1) := by
    intro hc
    apply h
    apply List.length_eq_zero_iff.1
    omega
  rw [iriFromString, if_neg hne, getNsRem_nsLength, Option.some.injEq, iriOfParts_eq_iff]
  have h1 : 0 < nsLength s ↔ ¬ (s = [] ∨ LocalName s) := by
    constructor
    · intro hp hc
      rcases hc with hc | hc
      · subst hc; simp [nsLength, nsScan] at hp
      · exact (nsLength_spec s).2 0 hp (by simpa using hc)
    · intro hc
      apply Nat.pos_of_ne_zero
      intro hz
      apply hc
      rcases (nsLength_spec s).1 with h' | h'
      · left; rw [hz] at h'; exact List.length_eq_zero_iff.1 h'.symm
      · right; rw [hz] at h'; simpa using h'
  have h2 : s.all isNc = true ↔ ∀ c ∈ s, NameChar c := by
    rw [List.all_eq_true]
    constructor
    · intro hc c hm; exact (isNcNameNonStart_iff c).1 (hc c hm)
    · intro hc c hm; exact (isNcNameNonStart_iff c).2 (hc c hm)
  have h3 : nsLength p < p.length ↔ ∃ a b, p = a ++ b ∧ LocalName b := by
    constructor
    · intro hl
      refine ⟨p.take (nsLength p), p.drop (nsLength p), (List.take_append_drop _ _).symm, ?_⟩
      rcases (nsLength_spec p).1 with h' | h'
      · omega
      · exact h'
    · rintro ⟨a, b, e, hb⟩
      have hn : nsLength p ≤ a.length := by
        apply Nat.le_of_not_lt
        intro hc
        apply (nsLength_spec p).2 _ hc
        rw [e, List.drop_left]; exact hb
      obtain ⟨c, t, hbt, _⟩ := hb
      have := congrArg List.length e
      rw [hbt, List.length_append, List.length_cons] at this
      omega
  rw [h1, h2, h3]

/-- C03 for the usual case: the prefix is a namespace (it does not end in a local
name), or the suffix is a local name. -/
theorem C03_partial (p s : Str) (h : p ++ s ≠ [])
    (hs : (∀ a b, p = a ++ b → ¬ LocalName b) ∨ LocalName s) :
    some (iriOfParts p s) = iriFromString (p ++ s) := by
  rw [C03_parts_iff p s h]
  rintro ⟨h1, _, a, b, e, hb⟩
  rcases hs with hs | hs
  · exact hs a b e hb
  · exact h1 (Or.inr hs)

/-- The hypotheses of `C03_partial` hold for a usual namespace and name. -/
example : LocalName (ascii "Class1") ∧ ascii "http://ex.org/" ++ ascii "Class1" ≠ [] := by
  constructor
  · refine ⟨67, ascii "lass1", by decide +kernel, ?_, ?_⟩
    · exact (isNcNameStart_iff _).1 (by decide +kernel)
    · intro x hx
      apply (isNcNameNonStart_iff x).1
      revert x
      decide +kernel
  · decide +kernel

/-- C03 fails in general: `cowl_iri("http://ex.org/ab", "1c")` has remainder `c`,
while `cowl_iri_from_string("http://ex.org/ab1c")` has remainder `ab1c`: two
distinct IRI objects for one IRI. -/
theorem C03_fails :
    iriOfParts (ascii "http://ex.org/ab") (ascii "1c")
        = (ascii "http://ex.org/ab1", ascii "c") ∧
      iriFromString (ascii "http://ex.org/ab" ++ ascii "1c")
        = some (ascii "http://ex.org/", ascii "ab1c") := by
  decide +kernel

/-- The full string is preserved by both constructors, always. -/
theorem C03_lossless (p s : Str) : (iriOfParts p s).1 ++ (iriOfParts p s).2 = p ++ s := by
  unfold iriOfParts
  simp only []
  split
  · simp
  · split
    · rw [← List.append_assoc, List.take_append_drop]
    · rfl

end Cowl
