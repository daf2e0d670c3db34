import Verif.FuncIo
import Verif.FuncCutLemmas
import Verif.ReaderProps
/-! # Lemmas: the functional reader when its input fails -/
namespace Cowl.FuncIo
open Cowl.Change Cowl.Func Cowl.Reader FuncCut

theorem readToks_lex {σ : Type} (h : Callback σ Item) (m : Prefix.PMap) (a : Nat) (t : Str) (s : σ) :
    readToks h m a t.length (lex t) s = funcRead h m a t s := rfl

theorem lexQMem_eq : ∀ (s : Str) (mem : List Bool) (run : Bool) (acc : Str),
    lexQMem mem run s acc = .fail ∨ ∃ mem', lexQMem mem run s acc = .ok (lexQ s acc) mem'
  | [], mem, _, _ => .inr ⟨mem, rfl⟩
  | c :: s, mem, run, acc => by
    by_cases h1 : c = 34
    · exact .inr ⟨mem, by rw [lexQMem.eq_def, lexQ.eq_def]; dsimp only; rw [if_pos h1, if_pos h1]⟩
    by_cases h2 : c = 92
    · match s with
      | [] => exact .inr ⟨mem, by rw [lexQMem.eq_def, lexQ.eq_def]; dsimp only; rw [if_neg h1, if_neg h1, if_pos h2, if_pos h2]⟩
      | d :: s' =>
        by_cases h3 : d = 34 ∨ d = 92
        · by_cases h4 : (grows mem).1 = true
          · rcases lexQMem_eq s' (grows mem).2 false (acc ++ [d]) with e | ⟨mem', e⟩
            · refine .inl ?_
              rw [lexQMem.eq_def]; dsimp only
              rw [if_neg h1, if_pos h2, if_pos h3, if_pos h4, e]
            · refine .inr ⟨mem', ?_⟩
              rw [lexQMem.eq_def, lexQ.eq_def]; dsimp only
              rw [if_neg h1, if_pos h2, if_pos h3, if_pos h4, if_neg h1, if_pos h2, if_pos h3, e]
          · refine .inl ?_
            rw [lexQMem.eq_def]; dsimp only
            rw [if_neg h1, if_pos h2, if_pos h3, if_neg h4]
        · refine .inr ⟨mem, ?_⟩
          rw [lexQMem.eq_def, lexQ.eq_def]; dsimp only
          rw [if_neg h1, if_pos h2, if_neg h3, if_neg h1, if_pos h2, if_neg h3]
    · have hq : lexQ (c :: s) acc = lexQ s (acc ++ [c]) := by
        rw [lexQ.eq_def]; dsimp only; rw [if_neg h1, if_neg h2]
      rw [hq]
      by_cases h3 : run = true
      · have := lexQMem_eq s mem true (acc ++ [c])
        rw [lexQMem.eq_def]; dsimp only
        rw [if_neg h1, if_neg h2, if_pos h3]
        exact this
      · by_cases h4 : (grows mem).1 = true
        · have := lexQMem_eq s (grows mem).2 true (acc ++ [c])
          rw [lexQMem.eq_def]; dsimp only
          rw [if_neg h1, if_neg h2, if_neg h3, if_pos h4]
          exact this
        · refine .inl ?_
          rw [lexQMem.eq_def]; dsimp only
          rw [if_neg h1, if_neg h2, if_neg h3, if_neg h4]

theorem lexQMem_nil : ∀ (s : Str) (run : Bool) (acc : Str), lexQMem [] run s acc = .ok (lexQ s acc) []
  | [], _, _ => rfl
  | c :: s, run, acc => by
    by_cases h1 : c = 34
    · rw [lexQMem.eq_def, lexQ.eq_def]; dsimp only; rw [if_pos h1, if_pos h1]
    by_cases h2 : c = 92
    · match s with
      | [] => rw [lexQMem.eq_def, lexQ.eq_def]; dsimp only; rw [if_neg h1, if_neg h1, if_pos h2, if_pos h2]
      | d :: s' =>
        by_cases h3 : d = 34 ∨ d = 92
        · rw [lexQMem.eq_def, lexQ.eq_def]; dsimp only
          rw [if_neg h1, if_pos h2, if_pos h3, if_neg h1, if_pos h2, if_pos h3, if_pos (show (grows []).1 = true from rfl)]
          exact lexQMem_nil s' false (acc ++ [d])
        · rw [lexQMem.eq_def, lexQ.eq_def]; dsimp only
          rw [if_neg h1, if_pos h2, if_neg h3, if_neg h1, if_pos h2, if_neg h3]
    · have hq : lexQ (c :: s) acc = lexQ s (acc ++ [c]) := by
        rw [lexQ.eq_def]; dsimp only; rw [if_neg h1, if_neg h2]
      rw [hq, lexQMem.eq_def]; dsimp only
      rw [if_neg h1, if_neg h2]
      by_cases h3 : run = true
      · rw [if_pos h3]; exact lexQMem_nil s true _
      · rw [if_neg h3, if_pos (show (grows []).1 = true from rfl)]; exact lexQMem_nil s true _

/-- Tokens are missing at the end only. -/
theorem lexMemN_prefix : ∀ (n : Nat) (mem : List Bool) (s : Str), lexMemN n mem s <+: lexN n s
  | 0, _, _ => List.prefix_rfl
  | _ + 1, _, [] => List.prefix_rfl
  | n + 1, mem, c :: s => by
    rw [lexMemN, lexN]
    generalize best (c :: s) = b
    obtain ⟨r, l⟩ := b
    dsimp only
    cases r with
    | ws => exact lexMemN_prefix n mem _
    | comment => exact lexMemN_prefix n mem _
    | qmark =>
      dsimp only
      rcases lexQMem_eq ((c :: s).drop l) mem false [] with e | ⟨mem', e⟩
      · rw [e]; exact List.nil_prefix
      · rw [e]
        cases lexQ ((c :: s).drop l) [] with
        | done v rest => exact (List.prefix_cons_inj _).2 (lexMemN_prefix n mem' rest)
        | bad c => exact List.prefix_rfl
        | eof => exact List.prefix_rfl
    | any =>
      dsimp only
      split
      · exact List.prefix_rfl
      · exact (List.prefix_cons_inj _).2 (lexMemN_prefix n mem s)
    | _ => exact (List.prefix_cons_inj _).2 (lexMemN_prefix n mem _)

theorem lexMemN_nil : ∀ (n : Nat) (s : Str), lexMemN n [] s = lexN n s
  | 0, _ => rfl
  | _ + 1, [] => rfl
  | n + 1, c :: s => by
    rw [lexMemN, lexN]
    generalize best (c :: s) = b
    obtain ⟨r, l⟩ := b
    dsimp only
    cases r with
    | ws => exact lexMemN_nil n _
    | comment => exact lexMemN_nil n _
    | qmark =>
      dsimp only
      rw [lexQMem_nil]
      cases lexQ ((c :: s).drop l) [] with
      | done v rest => exact congrArg _ (lexMemN_nil n rest)
      | bad c => rfl
      | eof => rfl
    | any =>
      dsimp only
      split
      · rfl
      · exact congrArg _ (lexMemN_nil n s)
    | _ => exact congrArg _ (lexMemN_nil n _)

theorem Dead.of_prefix {X Z : List Tok} (h : Dead (X ++ Z)) : Dead X := by
  rcases h with h | ⟨c, X', h⟩
  · exact .inl fun hx => h (List.mem_append.2 (.inl hx))
  · cases X with
    | nil => exact .inl (by simp)
    | cons x X =>
      obtain ⟨rfl, -⟩ := List.cons.inj h
      exact .inr ⟨c, X, rfl⟩

/-- The tokens the parser gets, and those of the whole text. -/
theorem toks_cut (mem : List Bool) (t u : Str) :
    ∃ P X Y, lexMemN t.length mem t = P ++ X ∧ lex (t ++ u) = P ++ Y ∧ Dead X := by
  obtain ⟨P, X, Y, h1, h2, h3⟩ := lex_cut _ t u (Nat.le_refl _)
  obtain ⟨Z, hz⟩ := lexMemN_prefix t.length mem t
  rw [show lexN t.length t = P ++ X from h1] at hz
  rcases List.append_eq_append_iff.1 hz with ⟨a, e1, _⟩ | ⟨a, e1, e2⟩
  · exact ⟨_, [], a ++ Y, (List.append_nil _).symm, by rw [h2, e1, List.append_assoc], .inl (by simp)⟩
  · exact ⟨P, a, Y, e1, h2, Dead.of_prefix (e2 ▸ h3)⟩

/-- As `funcRead_more`. -/
theorem readToks_more {σ : Type} {h : Callback σ Item} {m : Prefix.PMap} {a : Nat} {mem : List Bool} {t u : Str} {s s' : σ}
    (e : readToks h m a t.length (lexMemN t.length mem t) s = (s', .ok)) :
    funcRead h m a (t ++ u) s = (s', .ok) ∨ funcRead h m a (t ++ u) s = (s', .rejected) := by
  unfold readToks at e
  obtain ⟨P, X, Y, hX, hY, hd⟩ := toks_cut mem t u
  rw [hX] at e
  cases e1 : readPrefixes h a s m (P ++ X) with
  | stop s1 r =>
    rw [e1] at e
    obtain ⟨rfl, rfl⟩ := _root_.Prod.mk.inj e
    exfalso
    obtain ⟨i, fin, -, hf⟩ := FuncTell.readPrefixes_tells _ (P ++ X) (Nat.le_refl _) a m
    rw [hf] at e1
    unfold FuncTell.after at e1
    split at e1 <;> cases e1
  | go s1 m1 ts1 =>
    rw [e1] at e
    have hk : t.length ≤ (t ++ u).length := by simp
    obtain ⟨q1, h1, c1, g1⟩ := prefixes_ok _ (Nat.le_refl _) e1
    obtain ⟨q2, rfl, c2, g2⟩ := ontology_ok hk (show Func.readOntology h t.length s1 m1 ts1 = (s', .ok) from e)
    have hx : X = [] := by
      have e2 : P ++ X = q1 ++ (q2 ++ [.rpar]) := h1
      rcases List.eq_nil_or_concat X with hn | ⟨L, b, hc⟩
      · exact hn
      · exfalso
        rw [List.concat_eq_append] at hc
        subst hc
        have e3 : (P ++ L) ++ [b] = (q1 ++ q2) ++ [.rpar] := by simpa using e2
        have hb : b = .rpar := by
          have := congrArg List.getLast? e3
          simpa using this
        have hL : P ++ L = q1 ++ q2 := by
          have := congrArg List.dropLast e3
          simpa using this
        rcases hd with hd | ⟨c, X', hc⟩
        · exact hd (by rw [hb]; simp)
        · cases L with
          | nil =>
            obtain ⟨hc, -⟩ := List.cons.inj (show b :: [] = .char c :: X' from hc)
            rw [hb] at hc
            cases hc
          | cons x L =>
            obtain ⟨rfl, -⟩ := List.cons.inj (show x :: (L ++ [b]) = .char c :: X' from hc)
            refine (c1.append c2) c ?_
            rw [← hL]; simp
    subst hx
    have hP : P = q1 ++ (q2 ++ [.rpar]) := by simpa using h1
    have e4 : lex (t ++ u) = q1 ++ (q2 ++ [.rpar] ++ Y) := by rw [hY, hP]; simp
    have e5 : funcRead h m a (t ++ u) s = (s', if Y = [] then .ok else .rejected) := by
      unfold funcRead
      rw [e4, g1 _ (head_more (by simp))]
      exact g2 Y
    rw [e5]
    by_cases hY : Y = []
    · rw [if_pos hY]; exact .inl rfl
    · rw [if_neg hY]; exact .inr rfl

theorem readToks_cut (m : Prefix.PMap) (a : Nat) (mem : List Bool) (t u : Str) :
    CutOf (readToks noting m a t.length (lexMemN t.length mem t) []) (funcRead noting m a (t ++ u) []) := by
  obtain ⟨P, X, Y, hX, hY, hd⟩ := toks_cut mem t u
  have := prefixes_cut (Y := Y) hd (show t.length ≤ (t ++ u).length by simp) _ P (Nat.le_refl _) a m []
  rw [← hX, ← hY] at this
  have e : ∀ k ts, readToks noting m a k ts [] = afterPrefixes k (readPrefixes noting a [] m ts) := by
    intro k ts
    unfold readToks
    cases readPrefixes noting a [] m ts <;> rfl
  rw [e, ← readToks_lex, e]
  exact this

theorem readToks_keeps {σ : Type} {h : Callback σ Item} {P : σ → Prop} (hk : Kept h P) {s : σ} (hs : P s) (m : Prefix.PMap)
    (a k : Nat) (ts : List Tok) : Ends P (readToks h m a k ts s).1 (readToks h m a k ts s).2 := by
  unfold readToks
  have h1 := readPrefixes_keeps hk _ ts (Nat.le_refl _) a s m hs
  cases e1 : readPrefixes h a s m ts with
  | stop s r => rw [e1] at h1; exact h1
  | go s m ts =>
    rw [e1] at h1
    dsimp only
    unfold Func.readOntology
    split
    · rename_i ts
      have h2 := readId_keeps hk h1 m ts
      cases e2 : readId h s m ts with
      | stop s r => rw [e2] at h2; exact h2
      | go s m ts =>
        rw [e2] at h2
        dsimp only
        have h3 := readHeader_keeps hk k (k + 1) s m ts h2
        cases e3 : readHeader h k (k + 1) s m ts with
        | stop s r => rw [e3] at h3; exact h3
        | go s m ts => exact readAxioms_keeps hk _ _ s m ts (by rw [e3] at h3; exact h3)
    · exact ends_rejected ..

theorem read_eq {σ : Type} {e : Env} (h1 : e.map = true) (h2 : e.scanner = true) (h : Callback σ Item) (m : Prefix.PMap) (a : Nat) (s : σ) :
    read e h m a s =
      ((readToks h m a (input e.reads).length (lexMemN (input e.reads).length e.mem (input e.reads)) s).1,
        code (readToks h m a (input e.reads).length (lexMemN (input e.reads).length e.mem (input e.reads)) s).2) := by
  unfold read
  rw [h1, h2]
  rfl

theorem read_ok {σ : Type} {e : Env} (h2 : e.scanner = true) {h : Callback σ Item} {m : Prefix.PMap} {a : Nat} {s s' : σ}
    (hr : read e h m a s = (s', .ok)) :
    readToks h m a (input e.reads).length (lexMemN (input e.reads).length e.mem (input e.reads)) s = (s', .ok) := by
  by_cases h1 : e.map = true
  · rw [read_eq h1 h2] at hr
    obtain ⟨e1, e2⟩ := _root_.Prod.mk.inj hr
    rcases readToks_keeps (P := fun _ => True) (h := h) (fun _ _ _ _ => trivial) (s := s) trivial m a (input e.reads).length
        (lexMemN (input e.reads).length e.mem (input e.reads)) with ⟨k, -⟩ | k | k
    · rw [← e1, ← k]
    · rw [k] at e2; cases e2
    · rw [k] at e2; cases e2
  · unfold read at hr
    rw [if_pos (by simpa using h1)] at hr
    cases hr

theorem input_flatten : ∀ {l : List Str}, [] ∉ l → input (l.map some) = l.flatten
  | [], _ => rfl
  | [] :: l, h => absurd (by simp) h
  | (c :: t) :: l, h => by
    show c :: t ++ input (l.map some) = _
    rw [input_flatten (fun k => h (List.mem_cons_of_mem _ k))]
    rfl

end Cowl.FuncIo
