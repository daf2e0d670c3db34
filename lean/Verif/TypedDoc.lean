import Verif.TypedLemmas
import Verif.FuncTellProps
import Verif.ChangeLemmas
import Verif.AstLemmas
/-! # Lemmas: what the functional reader hands over, documents -/
namespace Cowl.Ast
open Func Change Prefix FuncTell

variable {σ : Type} {P : σ → Prop} {h : Callback σ Item}

/-- The state after a step has the property. -/
def StepP (P : σ → Prop) : Step σ → Prop
  | .go s _ _ => P s
  | .stop s _ => P s

theorem emit_keeps (hh : ∀ s i, P s → ItemOk owl2 i → P (h s i).1) {s : σ} (hs : P s) (m : PMap) {i : Item} (hi : ItemOk owl2 i)
    (ts : List Tok) : StepP P (emit h s m i ts) := by
  unfold emit
  dsimp only
  split
  · exact hh s i hs hi
  · exact hh s i hs hi

theorem readPrefixes_keeps (hh : ∀ s i, P s → ItemOk owl2 i → P (h s i).1) (addr : Nat) (s : σ) (m : PMap) (ts : List Tok) (hs : P s) :
    StepP P (readPrefixes h addr s m ts) := by
  fun_induction readPrefixes h addr s m ts with
  | case1 => exact hh _ _ hs trivial
  | case2 _ _ _ _ _ _ _ _ ih => exact ih (hh _ _ hs trivial)
  | case3 => exact hs
  | case4 => exact hs

theorem readId_keeps (hh : ∀ s i, P s → ItemOk owl2 i → P (h s i).1) {s : σ} (hs : P s) (m : PMap) (ts : List Tok) :
    StepP P (readId h s m ts) := by
  rw [Func.readId.eq_def]
  split
  · exact hs
  · split
    · exact hs
    · split
      · exact hs
      · split
        · exact emit_keeps hh hs m (show ItemOk owl2 (.iri _) from trivial) _
        · split
          · exact emit_keeps hh hs m (show ItemOk owl2 (.iri _) from trivial) _
          · split
            · exact hs
            · dsimp only
              split
              · exact hh _ _ (hh _ _ hs trivial) trivial
              · split
                · exact hh _ _ (hh _ _ hs trivial) trivial
                · exact hh _ _ (hh _ _ hs trivial) trivial

theorem readHeader_keeps (hh : ∀ s i, P s → ItemOk owl2 i → P (h s i).1) (k : Nat) : ∀ (n : Nat) (s : σ) (m : PMap) (ts : List Tok), P s →
    StepP P (readHeader h k n s m ts)
  | 0, _, _, _, hs => hs
  | n + 1, s, m, ts, hs => by
    rw [Func.readHeader.eq_def]
    dsimp only
    split
    · split
      · exact hs
      · rename_i i ts' _
        have := emit_keeps hh hs m (i := .import i) trivial ts'
        split
        · rename_i e; rw [e] at this; exact readHeader_keeps hh k n _ _ _ this
        · rename_i e; rw [e] at this; exact this
    · split
      · exact hs
      · rename_i o ts' e
        have := emit_keeps hh hs m (i := .annot o) (parseCat_typed k _ _ _ _ e) ts'
        split
        · rename_i e; rw [e] at this; exact readHeader_keeps hh k n _ _ _ this
        · rename_i e; rw [e] at this; exact this
    · exact hs

theorem readAxioms_keeps (hh : ∀ s i, P s → ItemOk owl2 i → P (h s i).1) (k : Nat) : ∀ (n : Nat) (s : σ) (m : PMap) (ts : List Tok), P s →
    P (readAxioms h k n s m ts).1
  | 0, _, _, _, hs => hs
  | n + 1, s, m, ts, hs => by
    rw [Func.readAxioms.eq_def]
    dsimp only
    split
    · exact hs
    · split
      · exact hs
      · rename_i o ts' e
        have := emit_keeps hh hs m (i := .ax o) (parseCat_typed k _ _ _ _ e) ts'
        split
        · rename_i e; rw [e] at this; exact readAxioms_keeps hh k n _ _ _ this
        · rename_i e; rw [e] at this; exact this

/-- A property of the state that typed items keep holds after reading. -/
theorem funcRead_typed (hh : ∀ s i, P s → ItemOk owl2 i → P (h s i).1) (m : PMap) (addr : Nat) (text : Str) {s : σ} (hs : P s) :
    P (funcRead h m addr text s).1 := by
  unfold funcRead
  have h1 := readPrefixes_keeps hh addr s m (lex text) hs
  split
  · rename_i e; rw [e] at h1; exact h1
  · rename_i s1 m1 ts1 e
    rw [e] at h1
    rw [Func.readOntology.eq_def]
    split
    · rename_i ts
      have h2 := readId_keeps hh (s := s1) h1 m1 ts
      split
      · rename_i e; rw [e] at h2; exact h2
      · rename_i s2 m2 ts2 e
        rw [e] at h2
        have h3 := readHeader_keeps hh text.length (text.length + 1) s2 m2 ts2 h2
        split
        · rename_i e; rw [e] at h3; exact h3
        · rename_i e
          rw [e] at h3
          exact readAxioms_keeps hh _ _ _ _ _ h3
    · exact h1

/-- Recording does not change what is done. -/
theorem funcRead_taking (h : Callback σ Item) (m : PMap) (addr : Nat) (text : Str) (s : σ) :
    (funcRead (taking h) m addr text (s, [])).1.1 = (funcRead h m addr text s).1 := by
  obtain ⟨items, acc, hf⟩ := funcRead_tells m addr text
  obtain ⟨_, _, _, _, _, h4⟩ := tell_taking h items s []
  rw [hf, hf, h4]

/-! ## Ontologies -/

open OntoSpec in
theorem reach_step {o o' : Onto} {s : Abs} {op : Op} (h : OntoSpec.Reaches o s) (hl : Legal s op) (ho : o.run [op] = some o') :
    OntoSpec.Reaches o' (s.step op) := by
  obtain ⟨ops, h1, h2, rfl⟩ := h
  refine ⟨ops ++ [op], ?_, ?_, ?_⟩
  · have key : ∀ (ops : List Op) (a : Abs), LegalRun a ops → Legal (a.run ops) op → LegalRun a (ops ++ [op]) := by
      intro ops
      induction ops with
      | nil => intro a _ hl; exact ⟨hl, trivial⟩
      | cons x xs ih => intro a h hl; exact ⟨h.1, ih _ h.2 hl⟩
    exact key ops _ h1 hl
  · rw [run_append', h2]; exact ho
  · have key : ∀ (ops : List Op) (a : Abs), (a.run ops).step op = a.run (ops ++ [op]) := by
      intro ops
      induction ops with
      | nil => intro a; rfl
      | cons x xs ih => intro a; exact ih _
    exact key ops _

end Cowl.Ast
