import Verif.FuncTellLemmas
import Verif.ReaderProps
import Verif.FuncDocSpec
/-! # C62: the functional reader tells the same to every handler -/
namespace Cowl
open Change Func FuncSpec Prefix FuncTell

/-- The handler, with a record of what it is told. -/
def taking {σ : Type} (h : Callback σ Item) : Callback (σ × List Item) Item := fun s i =>
  let r := h s.1 i
  ((r.1, s.2 ++ [i]), r.2)

/-- C62, with the peculiarities of `tell`: what is told is determined by the text, and so is
the result, unless the handler does not accept an item. -/
theorem C62_partial (m : PMap) (addr : Nat) (text : Str) :
    ∃ items acc, ∀ {σ : Type} (h : Callback σ Item) (s : σ),
      funcRead h m addr text s = ((tell h items s).1, conclude acc (tell h items s).2) :=
  funcRead_tells m addr text

theorem tell_taking {σ : Type} (h : Callback σ Item) (l : List Item) (s : σ) (t : List Item) :
    ∃ a b, l = a ++ b ∧ (tell (taking h) l (s, t)).1.2 = t ++ a ∧ ((tell (taking h) l (s, t)).2 = none → b = []) ∧
      tell h l s = ((tell (taking h) l (s, t)).1.1, (tell (taking h) l (s, t)).2) := by
  have one : ∀ (i : Item) (l : List Item) (s : σ) (t : List Item) (c : Prop) [Decidable c] (r : Ret),
      (∀ s t, ∃ a b, l = a ++ b ∧ (tell (taking h) l (s, t)).1.2 = t ++ a ∧ ((tell (taking h) l (s, t)).2 = none → b = []) ∧
        tell h l s = ((tell (taking h) l (s, t)).1.1, (tell (taking h) l (s, t)).2)) →
      let x := if c then tell (taking h) l ((h s i).1, t ++ [i]) else (((h s i).1, t ++ [i]), some r)
      ∃ a b, i :: l = a ++ b ∧ x.1.2 = t ++ a ∧ (x.2 = none → b = []) ∧
        (if c then tell h l (h s i).1 else ((h s i).1, some r)) = (x.1.1, x.2) := by
    intro i l s t c _ r hrec
    by_cases hc : c
    · simp only [hc, if_true]
      obtain ⟨a, b, h1, h2, h3, h4⟩ := hrec (h s i).1 (t ++ [i])
      exact ⟨i :: a, b, by rw [h1]; rfl, by rw [h2]; simp, h3, h4⟩
    · simp only [hc, if_false]
      exact ⟨[i], l, rfl, rfl, nofun, trivial⟩
  induction h' : l.length using Nat.strongRecOn generalizing l s t with
  | _ n ih =>
    have rec' : ∀ l' : List Item, l'.length < n → ∀ s t, ∃ a b, l' = a ++ b ∧ (tell (taking h) l' (s, t)).1.2 = t ++ a ∧
        ((tell (taking h) l' (s, t)).2 = none → b = []) ∧
        tell h l' s = ((tell (taking h) l' (s, t)).1.1, (tell (taking h) l' (s, t)).2) :=
      fun l' hl s t => ih l'.length hl l' s t rfl
    cases l with
    | nil => exact ⟨[], [], rfl, (List.append_nil t).symm, fun _ => rfl, rfl⟩
    | cons i l =>
      have hl : l.length < n := by rw [← h']; exact Nat.lt_succ_self _
      by_cases hp : ∃ p ns, i = .prefixDecl p ns
      · obtain ⟨p, ns, rfl⟩ := hp
        have := one (.prefixDecl p ns) l s t ((h s (.prefixDecl p ns)).2.isErr = false)
          (if (h s (.prefixDecl p ns)).2 = .errMem then .errMem else .errSyntax) (rec' l hl)
        have e : ∀ {σ : Type} (h : Callback σ Item) (s : σ), tell h (.prefixDecl p ns :: l) s =
            if (h s (.prefixDecl p ns)).2.isErr = false then tell h l (h s (.prefixDecl p ns)).1
            else ((h s (.prefixDecl p ns)).1, some (if (h s (.prefixDecl p ns)).2 = .errMem then .errMem else .errSyntax)) := by
          intro σ h s
          rw [tell]
          cases (h s (.prefixDecl p ns)).2.isErr <;> rfl
        rw [e, e]
        exact this
      · by_cases hv : ∃ x v l', i = .iri x ∧ l = .version v :: l'
        · obtain ⟨x, v, l', rfl, rfl⟩ := hv
          rw [tell, tell]
          by_cases hc : (h s (.iri x)).2 = .ok ∧ (h (h s (.iri x)).1 (.version v)).2 = .ok
          · have hc' : (taking h (s, t) (.iri x)).2 = .ok ∧ (taking h (taking h (s, t) (.iri x)).1 (.version v)).2 = .ok := hc
            rw [if_pos hc, if_pos hc']
            obtain ⟨a, b, h1, h2, h3, h4⟩ := rec' l' (by simp only [List.length_cons] at hl; omega)
              (h (h s (.iri x)).1 (.version v)).1 (t ++ [.iri x] ++ [.version v])
            exact ⟨.iri x :: .version v :: a, b, by rw [h1]; rfl, by
              show (tell (taking h) l' ((h (h s (.iri x)).1 (.version v)).1, t ++ [.iri x] ++ [.version v])).1.2 = _
              rw [h2]; simp, h3, h4⟩
          · have hc' : ¬ ((taking h (s, t) (.iri x)).2 = .ok ∧ (taking h (taking h (s, t) (.iri x)).1 (.version v)).2 = .ok) := hc
            rw [if_neg hc, if_neg hc']
            exact ⟨[.iri x, .version v], l', rfl, by show t ++ [_] ++ [_] = _; simp, nofun, rfl⟩
        · have e : ∀ {σ : Type} (h : Callback σ Item) (s : σ), tell h (i :: l) s =
              if (h s i).2 = .ok then tell h l (h s i).1 else ((h s i).1, some .errSyntax) := by
            intro σ h s
            rw [tell]
            · intro p ns e; exact hp ⟨p, ns, e⟩
            · intro x v l' e1 e2; exact hv ⟨x, v, l', e1, e2⟩
          have := one i l s t ((h s i).2 = .ok) .errSyntax (rec' l hl)
          rw [e, e]
          exact this

/-- C62, order: there is one list for each text; each handler is told a beginning of it, and
all of it if the reader accepts or rejects the text. -/
theorem C62_order (m : PMap) (addr : Nat) (text : Str) :
    ∃ items, ∀ {σ : Type} (h : Callback σ Item) (s : σ),
      (funcRead (taking h) m addr text (s, [])).1.2 <+: items ∧
      ((∀ r, (funcRead (taking h) m addr text (s, [])).2 ≠ .refused r) → (funcRead (taking h) m addr text (s, [])).1.2 = items) := by
  obtain ⟨items, acc, hf⟩ := funcRead_tells m addr text
  refine ⟨items, fun h s => ?_⟩
  obtain ⟨a, b, h1, h2, h3, -⟩ := tell_taking h items s []
  rw [hf]
  refine ⟨⟨b, by rw [h1] at h2 ⊢; rw [h2]; rfl⟩, fun hn => ?_⟩
  rw [h2]
  cases e : (tell (taking h) items (s, [])).2 with
  | some r => exact absurd (by show conclude acc _ = _; rw [e]; rfl) (hn r)
  | none => rw [h1, h3 e]; simp

/-- C62, result: unless the handler does not accept an item, the result does not depend on it. -/
theorem C62_accepting (m : PMap) (addr : Nat) (text : Str) : ∃ (items : List Item) (acc : Bool), ∀ {σ : Type} (h : Callback σ Item) (s : σ),
    Accepts h → funcRead h m addr text s = (give h s items, if acc then .ok else .rejected) := by
  obtain ⟨items, acc, hf⟩ := funcRead_tells m addr text
  refine ⟨items, acc, fun {σ} h s ha => ?_⟩
  have ht : ∀ (n : Nat) (l : List Item), l.length ≤ n → ∀ s : σ, tell h l s = (give h s l, none) := by
    intro n
    induction n with
    | zero => intro l hl s; cases l with
      | nil => rfl
      | cons => simp at hl
    | succ n ih =>
      intro l hl s
      cases l with
      | nil => rfl
      | cons x l =>
        have hl' : l.length ≤ n := Nat.le_of_succ_le_succ hl
        by_cases hp : ∃ p ns, x = .prefixDecl p ns
        · obtain ⟨p, ns, rfl⟩ := hp
          have : (h s (.prefixDecl p ns)).2.isErr = false := by rw [ha]; rfl
          rw [tell]
          simp only [this]
          exact ih l hl' _
        · by_cases hv : ∃ y v l', x = .iri y ∧ l = .version v :: l'
          · obtain ⟨y, v, l', rfl, rfl⟩ := hv
            rw [tell, if_pos ⟨ha _ _, ha _ _⟩]
            exact ih l' (by simp only [List.length_cons] at hl; omega) _
          · rw [tell, if_pos (ha _ _)]
            · exact ih l hl' _
            · intro p ns e; exact hp ⟨p, ns, e⟩
            · intro y v l' e1 e2; exact hv ⟨y, v, l', e1, e2⟩
  rw [hf, ht _ items (Nat.le_refl _) s]
  rfl

/-- Takes notes: 0 for a prefix, 1 for an IRI, 2 for a version, 3 for anything else. The codes
are given. -/
def answers (r0 r1 : Ret) : Callback (List Nat) Item
  | l, .prefixDecl _ _ => (l ++ [0], r0)
  | l, .iri _ => (l ++ [1], r1)
  | l, .version _ => (l ++ [2], .ok)
  | l, _ => (l ++ [3], .ok)

/-- A document with a prefix, an IRI, a version, and one axiom. -/
def versioned : Str :=
  ascii "Prefix(a:=<http://e/>)Ontology(<http://e/o><http://e/v>Declaration(Class(a:A)))"

/-- C62 is false as stated: the version is told after the IRI was refused; `COWL_NO` for a
prefix does not end the reading; and the result is not the code of the handler. -/
theorem C62_fails :
    funcRead (answers .ok .ok) (create [1, 2, 3, 4] []) 9 versioned [] = ([0, 1, 2, 3], .ok) ∧
    funcRead (answers .ok .err) (create [1, 2, 3, 4] []) 9 versioned [] = ([0, 1, 2], .refused .errSyntax) ∧
    funcRead (answers .no .ok) (create [1, 2, 3, 4] []) 9 versioned [] = ([0, 1, 2, 3], .ok) ∧
    funcRead (answers .errIo .ok) (create [1, 2, 3, 4] []) 9 versioned [] = ([0], .refused .errSyntax) := by
  refine ⟨?_, ?_, ?_, ?_⟩ <;> decide +kernel

/-- A handler that meets the condition of `C62_accepting`, with a text that is accepted. -/
example : Accepts (answers .ok .ok) ∧ (funcRead (answers .ok .ok) (create [1, 2, 3, 4] []) 9 versioned []).2 = .ok :=
  ⟨fun l i => by cases i <;> rfl, by decide +kernel⟩

end Cowl
