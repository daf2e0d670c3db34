import Verif.Reader
import Verif.FuncDocProps
/-! # C46: errors of readers -/
namespace Cowl
open Prefix Func FuncSpec Change Reader

/-- C46, results: an ontology is returned iff the code is not an error, and then it is
the one the reader has filled. -/
theorem C46_result {σ : Type} (read : σ → σ × Ret) (onto : Option σ) :
    ((Reader.readOntology read onto).1 ≠ none ↔ (Reader.readOntology read onto).2.isErr = false) ∧
    ∀ o, (Reader.readOntology read onto).1 = some o → ∃ s, onto = some s ∧ o = (read s).1 := by
  cases onto with
  | none => exact ⟨by simp [Reader.readOntology, Ret.isErr], fun o h => nomatch h⟩
  | some s =>
    simp only [Reader.readOntology]
    cases h : (read s).2.isErr
    · simp [h]
    · simp [h]

/-- C46, stages: a failure of opening is reported and nothing is read; otherwise an error
of the reader; otherwise the code of closing. -/
theorem C46_stages {σ : Type} (read : σ → σ × Ret) (oret uret : Ret) (s : σ) :
    (oret.isErr = true → readPath read oret uret s = (s, oret)) ∧
    (oret.isErr = false → (readPath read oret uret s).1 = (read s).1 ∧
      ((read s).2.isErr = true → (readPath read oret uret s).2 = (read s).2) ∧
      ((read s).2.isErr = false → (readPath read oret uret s).2 = uret)) := by
  refine ⟨fun h => by simp [readPath, h], fun h => ?_⟩
  simp only [readPath, h, readDeinit, Bool.false_eq_true, if_false]
  exact ⟨trivial, fun h => by simp [h], fun h => by simp [h]⟩

/-! ## The functional reader and its handler -/

/-- Kept by every call of the handler without error. -/
def Kept {σ : Type} (h : Callback σ Item) (P : σ → Prop) : Prop :=
  ∀ s i, P s → (h s i).2.isErr = false → P (h s i).1

/-- Success with `P`, or one of two errors. -/
def Ends {σ : Type} (P : σ → Prop) (s : σ) (r : Outcome) : Prop :=
  (r = .ok ∧ P s) ∨ code r = .errSyntax ∨ code r = .errMem

/-- Goes on only with `P`. -/
def StepKeeps {σ : Type} (P : σ → Prop) : Step σ → Prop
  | .go s _ _ => P s
  | .stop s r => Ends P s r

theorem ends_rejected {σ : Type} (P : σ → Prop) (s : σ) : Ends P s .rejected := .inr (.inl rfl)

theorem ends_stop {σ : Type} (P : σ → Prop) (s : σ) (r : Ret) : Ends P s (.refused (stopCode r)) :=
  .inr (.inl rfl)

theorem ends_prefix {σ : Type} (P : σ → Prop) (s : σ) (r : Ret) : Ends P s (.refused (prefixCode r)) := by
  by_cases h : r = .errMem
  · exact .inr (.inr (by simp [code, prefixCode, h]))
  · exact .inr (.inl (by simp [code, prefixCode, h]))

theorem emit_keeps {σ : Type} {h : Callback σ Item} {P : σ → Prop} (hk : Kept h P) {s : σ} (hs : P s) (m : PMap)
    (i : Item) (ts : List Tok) : StepKeeps P (emit h s m i ts) := by
  unfold emit
  by_cases hr : (h s i).2 = .ok
  · simp only [hr, if_true]
    exact hk s i hs (by rw [hr]; rfl)
  · simp only [hr, if_false]
    exact ends_stop ..

theorem readPrefixes_keeps {σ : Type} {h : Callback σ Item} {P : σ → Prop} (hk : Kept h P) :
    ∀ (n : Nat) (ts : List Tok), ts.length ≤ n → ∀ (a : Nat) (s : σ) (m : PMap), P s →
      StepKeeps P (readPrefixes h a s m ts)
  | 0, [], _, a, s, m, hs => by simpa [readPrefixes, StepKeeps] using hs
  | n + 1, ts, hn, a, s, m, hs => by
    rw [readPrefixes.eq_def]
    split
    · rename_i p ns ts
      simp only
      split
      · exact ends_prefix ..
      · rename_i hr
        exact readPrefixes_keeps hk n ts (by simp only [List.length_cons] at hn; omega) _ _ _
          (hk s _ hs (by simpa using hr))
    · exact ends_rejected ..
    · exact hs

theorem readId_keeps {σ : Type} {h : Callback σ Item} {P : σ → Prop} (hk : Kept h P) {s : σ} (hs : P s) (m : PMap)
    (ts : List Tok) : StepKeeps P (readId h s m ts) := by
  unfold readId
  split
  · exact hs
  · split
    · exact hs
    · split
      · exact ends_rejected ..
      · rename_i i _
        split
        · exact emit_keeps hk hs ..
        · split
          · exact emit_keeps hk hs ..
          · split
            · exact ends_rejected ..
            · rename_i v _
              by_cases h1 : (h s (.iri i)).2 = .ok
              · by_cases h2 : (h (h s (.iri i)).1 (.version v)).2 = .ok
                · simp only [h1, h2, ne_eq, not_true, if_false]
                  exact hk _ _ (hk _ _ hs (by rw [h1]; rfl)) (by rw [h2]; rfl)
                · simp only [h1, h2, ne_eq, not_true, if_false, not_false_iff, if_true]
                  exact ends_stop ..
              · simp only [h1, ne_eq, not_false_iff, if_true]
                exact ends_stop ..

theorem readHeader_keeps {σ : Type} {h : Callback σ Item} {P : σ → Prop} (hk : Kept h P) (k : Nat) :
    ∀ (n : Nat) (s : σ) (m : PMap) (ts : List Tok), P s → StepKeeps P (readHeader h k n s m ts)
  | 0, _, _, _, _ => ends_rejected ..
  | n + 1, s, m, ts, hs => by
    rw [readHeader.eq_def]
    simp only
    split
    · split
      · exact ends_rejected ..
      · rename_i i ts _
        have := emit_keeps hk hs m (.import i) ts
        cases he : emit h s m (.import i) ts with
        | go s m ts => rw [he] at this; exact readHeader_keeps hk k n s m ts this
        | stop s r => rw [he] at this; exact this
    · split
      · exact ends_rejected ..
      · rename_i o ts _
        have := emit_keeps hk hs m (.annot o) ts
        cases he : emit h s m (.annot o) ts with
        | go s m ts => rw [he] at this; exact readHeader_keeps hk k n s m ts this
        | stop s r => rw [he] at this; exact this
    · exact hs

theorem readAxioms_keeps {σ : Type} {h : Callback σ Item} {P : σ → Prop} (hk : Kept h P) (k : Nat) :
    ∀ (n : Nat) (s : σ) (m : PMap) (ts : List Tok), P s →
      Ends P (readAxioms h k n s m ts).1 (readAxioms h k n s m ts).2
  | 0, _, _, _, _ => ends_rejected ..
  | n + 1, s, m, ts, hs => by
    rw [readAxioms.eq_def]
    simp only
    split
    · rename_i ts
      by_cases ht : ts = []
      · exact .inl ⟨by simp [ht], hs⟩
      · simp only [ht, if_false]
        exact ends_rejected ..
    · split
      · exact ends_rejected ..
      · rename_i o ts _
        have := emit_keeps hk hs m (.ax o) ts
        cases he : emit h s m (.ax o) ts with
        | go s m ts => rw [he] at this; exact readAxioms_keeps hk k n s m ts this
        | stop s r => rw [he] at this; exact this

theorem funcRead_keeps {σ : Type} {h : Callback σ Item} {P : σ → Prop} (hk : Kept h P) {s : σ} (hs : P s) (m : PMap)
    (addr : Nat) (text : Str) : Ends P (funcRead h m addr text s).1 (funcRead h m addr text s).2 := by
  unfold funcRead
  have h1 := readPrefixes_keeps hk _ (lex text) (Nat.le_refl _) addr s m hs
  cases e1 : readPrefixes h addr s m (lex text) with
  | stop s r => rw [e1] at h1; exact h1
  | go s m ts =>
    rw [e1] at h1
    dsimp only
    unfold Func.readOntology
    split
    · rename_i ts
      have h2 := readId_keeps hk h1 m ts
      cases e2 : readId h s m ts with
      | stop s r => rw [e2] at h2; exact h2
      | go s m ts =>
        rw [e2] at h2
        dsimp only
        have h3 := readHeader_keeps hk text.length (text.length + 1) s m ts h2
        cases e3 : readHeader h text.length (text.length + 1) s m ts with
        | stop s r => rw [e3] at h3; exact h3
        | go s m ts => exact readAxioms_keeps hk _ _ s m ts (by rw [e3] at h3; exact h3)
    · exact ends_rejected ..

/-- The handler, with a record of its codes. -/
def recording {σ : Type} (h : Callback σ Item) : Callback (σ × List Ret) Item := fun s i =>
  let r := h s.1 i
  ((r.1, s.2 ++ [r.2]), r.2)

/-- C46, the part that holds of the functional reader, whatever the text and the
handler: it ends with success, and then no call of the handler gave an error, or with
one of two errors. -/
theorem C46_partial {σ : Type} (h : Callback σ Item) (m : PMap) (addr : Nat) (text : Str) (s : σ) :
    ((funcReader (recording h) m addr text (s, [])).2 = .ok ∧
      ∀ r ∈ (funcReader (recording h) m addr text (s, [])).1.2, r.isErr = false) ∨
    (funcReader (recording h) m addr text (s, [])).2 = .errSyntax ∨
    (funcReader (recording h) m addr text (s, [])).2 = .errMem := by
  have := funcRead_keeps (h := recording h) (P := fun x => ∀ r ∈ x.2, r.isErr = false) ?_
    (s := (s, [])) (by simp) m addr text
  · rcases this with ⟨h1, h2⟩ | h1 | h1
    · exact .inl ⟨by simp [funcReader, h1, code], h2⟩
    · exact .inr (.inl h1)
    · exact .inr (.inr h1)
  · intro x i hx he r hm
    simp only [recording, List.mem_append, List.mem_singleton] at hm
    rcases hm with hm | hm
    · exact hx r hm
    · rw [hm]; exact he

/-- Answers each axiom with `r`, and anything else with OK. -/
def answering (r : Ret) : Callback Nat Item
  | n, .ax _ => (n + 1, r)
  | n, _ => (n + 1, .ok)

/-- A document with an ontology IRI and an axiom. -/
def oneAxiom : Str := ascii "Ontology(<http://e/o>Declaration(Class(<http://e/A>)))"

/-- C46 is false as stated: an I/O error of the handler is reported as a syntax error,
although the text is well-formed; so is a request to stop, which is not an error. A
request to stop by another reader is lost if the ontology is read from a path. -/
theorem C46_fails :
    funcReader (answering .ok) (create [1, 2, 3, 4] []) 9 oneAxiom 0 = (2, .ok) ∧
    funcReader (answering .errIo) (create [1, 2, 3, 4] []) 9 oneAxiom 0 = (2, .errSyntax) ∧
    funcReader (answering .no) (create [1, 2, 3, 4] []) 9 oneAxiom 0 = (2, .errSyntax) ∧
    (readPath (fun n => (n + 1, Ret.no)) .ok .ok 0).2 = .ok := by
  refine ⟨by decide +kernel, by decide +kernel, by decide +kernel, rfl⟩

/-- Each stage can be the one that fails. -/
example :
    (Reader.readOntology (readPath (fun n : Nat => (n + 1, Ret.ok)) .ok .ok) (some 0)) = (some 1, .ok) ∧
    (Reader.readOntology (readPath (fun n : Nat => (n + 1, Ret.ok)) .errIo .ok) (some 0)) = (none, .errIo) ∧
    (Reader.readOntology (readPath (fun n : Nat => (n + 1, Ret.errSyntax)) .ok .errIo) (some 0)) =
      (none, .errSyntax) ∧
    (Reader.readOntology (readPath (fun n : Nat => (n + 1, Ret.no)) .ok .errIo) (some 0)) = (none, .errIo) :=
  ⟨rfl, rfl, rfl, rfl⟩

/-- A run of the functional reader with a recorded answer to each of two calls. -/
example : funcReader (recording (answering .ok)) (create [1, 2, 3, 4] []) 9 oneAxiom (0, []) =
    ((2, [.ok, .ok]), .ok) := by decide +kernel

end Cowl
