import Verif.OntoHeader
/-! # C20: IRI and version of an ontology -/
namespace Cowl.Header

/-! ## Specification -/

/-- One if the optional address is `n`. -/
def one (x : Option Nat) (n : Nat) : Nat := if x = some n then 1 else 0

/-- Every reference has an owner: the ontology owns one to its current IRI and one to
its current version, others own `ext`. -/
def Owned (s : St) : Prop := ∀ n, s.rc n = s.ext n + one s.iri n + one s.version n

/-- A call of one of the setters. -/
inductive Call where
  | iri (x : Option Nat)
  | version (x : Option Nat)

/-- The argument. -/
def Call.arg : Call → Option Nat
  | .iri x => x
  | .version x => x

/-- The program's step. -/
def St.call (s : St) : Call → Option St
  | .iri x => s.setIri x
  | .version x => s.setVersion x

/-- The program's run. -/
def St.run (s : St) : List Call → Option St
  | [] => some s
  | c :: cs => (s.call c).bind fun s => s.run cs

/-- The argument of the last call of `set_iri`, or the value before. -/
def lastIri (x : Option Nat) : List Call → Option Nat
  | [] => x
  | .iri y :: cs => lastIri y cs
  | .version _ :: cs => lastIri x cs

/-- The argument of the last call of `set_version`, or the value before. -/
def lastVersion (x : Option Nat) : List Call → Option Nat
  | [] => x
  | .iri _ :: cs => lastVersion x cs
  | .version y :: cs => lastVersion y cs

/-! ## Lemmas -/

theorem one_some (a n : Nat) : one (some a) n = if n = a then 1 else 0 := by
  unfold one
  by_cases h : n = a
  · simp [h]
  · have : ¬ a = n := fun e => h e.symm
    simp [h, this]

theorem one_none (n : Nat) : one none n = 0 := rfl

theorem releaseOpt_some {rc : Nat → Nat} {x : Option Nat} (h : ∀ n, one x n ≤ rc n) :
    ∃ rc', releaseOpt rc x = some rc' ∧ ∀ n, rc' n = rc n - one x n := by
  cases x with
  | none => exact ⟨rc, rfl, fun n => rfl⟩
  | some a =>
    have h1 := h a
    rw [one_some, if_pos rfl] at h1
    have h2 : rc a ≠ 0 := by omega
    refine ⟨_, by rw [releaseOpt, release, if_neg h2], fun n => ?_⟩
    rw [one_some]
    by_cases hn : n = a
    · simp [hn]
    · simp [hn]

theorem retainOpt_some {rc : Nat → Nat} {x : Option Nat} (h : ∀ n, x = some n → 0 < rc n) :
    ∃ rc', retainOpt rc x = some rc' ∧ ∀ n, rc' n = rc n + one x n := by
  cases x with
  | none => exact ⟨rc, rfl, fun n => rfl⟩
  | some a =>
    have h2 : rc a ≠ 0 := by have := h a rfl; omega
    refine ⟨_, by rw [retainOpt, retain, if_neg h2], fun n => ?_⟩
    rw [one_some]
    by_cases hn : n = a
    · simp [hn]
    · simp [hn]

/-! ## Theorems -/

/-- C20, exact: `set_iri` is defined iff someone besides the IRI member owns a
reference to the argument; then it sets the IRI, leaves the version, and the
ownership of references is in order. -/
theorem C20_set_iri (s : St) (h : Owned s) (x : Option Nat) :
    ((∃ s', s.setIri x = some s') ↔ ∀ n, x = some n → 0 < s.ext n + one s.version n) ∧
    ∀ s', s.setIri x = some s' →
      s'.iri = x ∧ s'.version = s.version ∧ s'.ext = s.ext ∧ Owned s' := by
  obtain ⟨rc, h1, h2⟩ := releaseOpt_some (rc := s.rc) (x := s.iri) fun n => by
    have := h n; omega
  constructor
  · constructor
    · rintro ⟨s', hs⟩ n rfl
      unfold St.setIri at hs
      rw [h1] at hs
      dsimp only at hs
      by_cases h0 : rc n = 0
      · rw [retainOpt, retain, if_pos h0] at hs; cases hs
      · have := h2 n; have := h n; omega
    · intro hx
      obtain ⟨rc', h3, h4⟩ := retainOpt_some (rc := rc) (x := x) fun n hn => by
        have := hx n hn; have := h2 n; have := h n; omega
      unfold St.setIri
      rw [h1]
      dsimp only
      rw [h3]
      exact ⟨_, rfl⟩
  · intro s' hs
    unfold St.setIri at hs
    rw [h1] at hs
    dsimp only at hs
    split at hs
    · cases hs
    · rename_i rc' h3
      cases hs
      refine ⟨rfl, rfl, rfl, fun n => ?_⟩
      have h4 : ∀ n, rc' n = rc n + one x n := by
        obtain ⟨rc'', h5, h6⟩ := retainOpt_some (rc := rc) (x := x) fun n hn => by
          subst hn
          by_cases h0 : rc n = 0
          · rw [retainOpt, retain, if_pos h0] at h3; cases h3
          · omega
        rw [h3] at h5
        cases h5
        exact h6
      have := h2 n; have := h n; have := h4 n
      dsimp only
      omega

/-- C20, exact: likewise for `set_version`. -/
theorem C20_set_version (s : St) (h : Owned s) (x : Option Nat) :
    ((∃ s', s.setVersion x = some s') ↔ ∀ n, x = some n → 0 < s.ext n + one s.iri n) ∧
    ∀ s', s.setVersion x = some s' →
      s'.version = x ∧ s'.iri = s.iri ∧ s'.ext = s.ext ∧ Owned s' := by
  obtain ⟨rc, h1, h2⟩ := releaseOpt_some (rc := s.rc) (x := s.version) fun n => by
    have := h n; omega
  constructor
  · constructor
    · rintro ⟨s', hs⟩ n rfl
      unfold St.setVersion at hs
      rw [h1] at hs
      dsimp only at hs
      by_cases h0 : rc n = 0
      · rw [retainOpt, retain, if_pos h0] at hs; cases hs
      · have := h2 n; have := h n; omega
    · intro hx
      obtain ⟨rc', h3, h4⟩ := retainOpt_some (rc := rc) (x := x) fun n hn => by
        have := hx n hn; have := h2 n; have := h n; omega
      unfold St.setVersion
      rw [h1]
      dsimp only
      rw [h3]
      exact ⟨_, rfl⟩
  · intro s' hs
    unfold St.setVersion at hs
    rw [h1] at hs
    dsimp only at hs
    split at hs
    · cases hs
    · rename_i rc' h3
      cases hs
      refine ⟨rfl, rfl, rfl, fun n => ?_⟩
      have h4 : ∀ n, rc' n = rc n + one x n := by
        obtain ⟨rc'', h5, h6⟩ := retainOpt_some (rc := rc) (x := x) fun n hn => by
          subst hn
          by_cases h0 : rc n = 0
          · rw [retainOpt, retain, if_pos h0] at h3; cases h3
          · omega
        rw [h3] at h5
        cases h5
        exact h6
      have := h2 n; have := h n; have := h4 n
      dsimp only
      omega

/-- C20, proved part. If the caller owns a reference to each argument, any sequence
of setter calls is defined; afterwards the getters return the last values set,
independently of each other, and the ontology owns one reference to each current
value and none to previous ones; freeing it leaves the references of others only.
Missing: an argument to which only the ontology owns a reference (`C20_fails`). -/
theorem C20_partial : ∀ (cs : List Call) (s : St), Owned s →
    (∀ c ∈ cs, ∀ n, c.arg = some n → 0 < s.ext n) →
    ∃ s', s.run cs = some s' ∧ s'.iri = lastIri s.iri cs ∧
      s'.version = lastVersion s.version cs ∧ s'.ext = s.ext ∧ Owned s' ∧ s'.free = some s.ext
  | [], s, h, _ => by
    refine ⟨s, rfl, rfl, rfl, rfl, h, ?_⟩
    obtain ⟨rc, h1, h2⟩ := releaseOpt_some (rc := s.rc) (x := s.iri) fun n => by
      have := h n; omega
    obtain ⟨rc', h3, h4⟩ := releaseOpt_some (rc := rc) (x := s.version) fun n => by
      have := h n; have := h2 n; omega
    unfold St.free
    rw [h1]
    dsimp only
    rw [h3]
    congr 1
    funext n
    have := h n; have := h2 n; have := h4 n
    omega
  | .iri x :: cs, s, h, ha => by
    obtain ⟨h1, h2⟩ := C20_set_iri s h x
    obtain ⟨s1, h3⟩ := h1.2 fun n hn => by have := ha (.iri x) (by simp) n hn; omega
    obtain ⟨h4, h5, h6, h7⟩ := h2 s1 h3
    obtain ⟨s', h8, h9, h10, h11, h12, h13⟩ := C20_partial cs s1 h7 fun c hc n hn => by
      rw [h6]; exact ha c (List.mem_cons_of_mem _ hc) n hn
    refine ⟨s', ?_, ?_, ?_, h11.trans h6, h12, by rw [h13, h6]⟩
    · rw [St.run, St.call, h3]; exact h8
    · rw [h9, h4, lastIri]
    · rw [h10, h5, lastVersion]
  | .version x :: cs, s, h, ha => by
    obtain ⟨h1, h2⟩ := C20_set_version s h x
    obtain ⟨s1, h3⟩ := h1.2 fun n hn => by have := ha (.version x) (by simp) n hn; omega
    obtain ⟨h4, h5, h6, h7⟩ := h2 s1 h3
    obtain ⟨s', h8, h9, h10, h11, h12, h13⟩ := C20_partial cs s1 h7 fun c hc n hn => by
      rw [h6]; exact ha c (List.mem_cons_of_mem _ hc) n hn
    refine ⟨s', ?_, ?_, ?_, h11.trans h6, h12, by rw [h13, h6]⟩
    · rw [St.run, St.call, h3]; exact h8
    · rw [h9, h5, lastIri]
    · rw [h10, h4, lastVersion]

/-- An ontology with an IRI that others own too. -/
example : Owned ⟨some 1, none, fun n => if n = 1 then 3 else if n = 2 then 1 else 0,
      fun n => if n = 1 then 2 else if n = 2 then 1 else 0⟩ ∧
    ∀ c ∈ [Call.version (some 1), .iri none, .iri (some 2), .iri (some 1)], ∀ n, c.arg = some n →
      0 < if n = 1 then 2 else if n = 2 then 1 else 0 := by
  constructor
  · intro n
    rw [one_some, one_none]
    dsimp only
    split <;> simp
  · simp [Call.arg]

/-- C20 is false as stated: setting the IRI that the ontology already has, as in
`cowl_ontology_set_iri(o, cowl_ontology_get_iri(o))`, when nobody else owns a
reference to it, retains an object that has just been freed. -/
theorem C20_fails (s : St) (h : Owned s) (n : Nat) (hi : s.iri = some n) (hv : s.version ≠ some n)
    (he : s.ext n = 0) : s.setIri s.iri = none := by
  have := (C20_set_iri s h s.iri).1
  cases hs : s.setIri s.iri with
  | none => rfl
  | some s' =>
    have h1 := this.1 ⟨s', hs⟩ n hi
    rw [he, one, if_neg hv] at h1
    omega

/-- This happens: read an ontology, then set its own IRI. -/
example : Owned ⟨some 1, none, fun n => if n = 1 then 1 else 0, fun _ => 0⟩ := by
  intro n
  rw [one_some, one_none]
  dsimp only
  split <;> simp

end Cowl.Header
