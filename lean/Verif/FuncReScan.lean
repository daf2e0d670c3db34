import Verif.FuncReLemmas
/-!
# Lemmas: the rules that flex takes, and the tokens of a text
-/
namespace Cowl.Re
open Cowl.Func

theorem take_of_split {s u v : Str} {n : Nat} (h : s = u ++ v) (hl : u.length = n) : s.take n = u ∧ n ≤ s.length := by
  subst h hl; exact ⟨take_left u v, by rw [List.length_append]; omega⟩

theorem take_split {s : Str} {n : Nat} (h : n ≤ s.length) : s = s.take n ++ s.drop n ∧ (s.take n).length = n :=
  ⟨(List.take_append_drop n s).symm, by rw [List.length_take]; omega⟩

/-- The first of those with the longest matches is chosen. -/
theorem chosen_of {ρ : Type} {rs before after : List ρ} {pat : ρ → Re} {s : Str} {r : ρ} {len : ρ → Nat}
    (hl : ∀ x, Longest (Matches (pat x)) s (len x)) (hr : rs = before ++ r :: after) (hp : 0 < len r)
    (hm : ∀ x ∈ rs, len x ≤ len r) (hb : ∀ x ∈ before, len x < len r) : Chosen rs pat s r (len r) := by
  obtain ⟨u, v, e, l, hu⟩ := (hl r).1 hp
  obtain ⟨h1, h2⟩ := take_of_split e l
  have key : ∀ x k, k ≤ s.length → Matches (pat x) (s.take k) → k ≤ len x := fun x k hk h => by
    obtain ⟨e, l⟩ := take_split hk
    have := (hl x).2 _ _ e h
    omega
  refine ⟨before, after, hr, hp, h2, h1.symm ▸ hu, fun x hx k h1 h2 h => ?_, fun x hx h => ?_⟩
  · have := key x k h2 h; have := hm x hx; omega
  · have := key x _ h2 h; have := hb x hx; omega

theorem chosen_unique {ρ : Type} {rs : List ρ} {pat : ρ → Re} {s : Str} {r r' : ρ} {n n' : Nat}
    (h : Chosen rs pat s r n) (h' : Chosen rs pat s r' n') : r = r' ∧ n = n' := by
  obtain ⟨b, a, e, p, l, m, x, f⟩ := h
  obtain ⟨b', a', e', p', l', m', x', f'⟩ := h'
  have hr : r ∈ rs := e ▸ List.mem_append_right _ (List.mem_cons_self ..)
  have hr' : r' ∈ rs := e' ▸ List.mem_append_right _ (List.mem_cons_self ..)
  have hn : n = n' := by
    rcases Nat.lt_trichotomy n n' with h | h | h
    · exact absurd m' (x r' hr' n' h l')
    · exact h
    · exact absurd m (x' r hr n h l)
  subst hn
  refine ⟨?_, rfl⟩
  rcases List.append_eq_append_iff.1 (e.symm.trans e') with ⟨t, h1, h2⟩ | ⟨t, h1, h2⟩
  · cases t with
    | nil => exact (List.cons.inj h2).1
    | cons y t =>
      have hy : r = y := (List.cons.inj h2).1
      exact absurd m (f' r (by rw [h1, hy]; simp))
  · cases t with
    | nil => exact (List.cons.inj h2).1.symm
    | cons y t =>
      have hy : r' = y := (List.cons.inj h2).1
      exact absurd m' (f r' (by rw [h1, hy]; simp))

/-- What the search for the longest match gives. -/
theorem foldl_choice (s : Str) : ∀ (l : List Rule) (b : Rule × Nat),
    (l.foldl (better s) b = b ∧ ∀ x ∈ l, x.len s ≤ b.2) ∨
    ∃ before r after, l = before ++ r :: after ∧ l.foldl (better s) b = (r, r.len s) ∧ b.2 < r.len s ∧
      (∀ x ∈ l, x.len s ≤ r.len s) ∧ ∀ x ∈ before, x.len s < r.len s
  | [], b => .inl ⟨rfl, nofun⟩
  | x :: l, b => by
    rw [List.foldl_cons]
    by_cases hx : b.2 < x.len s
    · have e : better s b x = (x, x.len s) := if_pos hx
      rw [e]
      rcases foldl_choice s l (x, x.len s) with ⟨h1, h2⟩ | ⟨before, r, after, h1, h2, h3, h4, h5⟩
      · refine .inr ⟨[], x, l, rfl, h1, hx, ?_, nofun⟩
        intro y hy; rcases List.mem_cons.1 hy with rfl | hy
        · exact Nat.le_refl _
        · exact h2 y hy
      · refine .inr ⟨x :: before, r, after, by rw [h1]; rfl, h2, Nat.lt_trans hx h3, ?_, ?_⟩
        · intro y hy; rcases List.mem_cons.1 hy with rfl | hy
          · exact Nat.le_of_lt h3
          · exact h4 y hy
        · intro y hy; rcases List.mem_cons.1 hy with rfl | hy
          · exact h3
          · exact h5 y hy
    · have e : better s b x = b := if_neg hx
      rw [e]
      rcases foldl_choice s l b with ⟨h1, h2⟩ | ⟨before, r, after, h1, h2, h3, h4, h5⟩
      · refine .inl ⟨h1, ?_⟩
        intro y hy; rcases List.mem_cons.1 hy with rfl | hy
        · omega
        · exact h2 y hy
      · refine .inr ⟨x :: before, r, after, by rw [h1]; rfl, h2, h3, ?_, ?_⟩
        · intro y hy; rcases List.mem_cons.1 hy with rfl | hy
          · omega
          · exact h4 y hy
        · intro y hy; rcases List.mem_cons.1 hy with rfl | hy
          · omega
          · exact h5 y hy

theorem chosen_best (c : UInt8) (s : Str) : Chosen Rule.all pattern (c :: s) (best (c :: s)).1 (best (c :: s)).2 := by
  have hp := best_pos c s
  rcases foldl_choice (c :: s) Rule.all (.any, 0) with ⟨h1, _⟩ | ⟨before, r, after, h1, h2, h3, h4, h5⟩
  · rw [show best (c :: s) = (.any, 0) from h1] at hp; exact absurd hp (by decide)
  · rw [show best (c :: s) = (r, r.len (c :: s)) from h2]
    exact chosen_of (fun x => longest_rule (c :: s) x) h1 (Nat.lt_of_le_of_lt (Nat.zero_le _) h3) h4 h5

theorem chosen_nil {ρ : Type} {rs : List ρ} {pat : ρ → Re} {r : ρ} {n : Nat} (h : Chosen rs pat [] r n) : False := by
  obtain ⟨_, _, _, p, l, _⟩ := h
  simp only [List.length_nil] at l; omega

theorem best_of {c : UInt8} {s : Str} {r : Rule} {n : Nat} (h : Chosen Rule.all pattern (c :: s) r n) :
    best (c :: s) = (r, n) := by
  obtain ⟨h1, h2⟩ := chosen_unique (chosen_best c s) h
  exact Prod.ext h1 h2

theorem Chosen.matches {ρ : Type} {rs : List ρ} {pat : ρ → Re} {s : Str} {r : ρ} {n : Nat} (h : Chosen rs pat s r n) :
    ∃ u v, s = u ++ v ∧ u.length = n ∧ 0 < n ∧ Matches (pat r) u ∧ s.take n = u ∧ s.drop n = v := by
  obtain ⟨_, _, _, p, l, m, _⟩ := h
  obtain ⟨h1, h2⟩ := take_split l
  exact ⟨_, _, h1, h2, p, m, rfl, rfl⟩

/-! ## Quoted strings -/

/-- A character of `QSTRING_CHAR`. -/
def plain (c : UInt8) : Bool := !(c == 34) && !(c == 92)

theorem plain_one : One (.cls fun d => !(d == 34) && !(d == 92)) plain := One.cls fun _ => rfl

/-- Lengths of the longest matches in the start condition `QSTRING`. -/
def qlen (s : Str) : QRule → Nat
  | .chars => (s.takeWhile plain).length
  | .escaped => Nat.max (textLen [92, 34] s) (textLen [92, 92] s)
  | .qmark => textLen [34] s
  | .any => Rule.len s .any

theorem qlongest (s : Str) : ∀ r, Longest (Matches (qpattern r)) s (qlen s r)
  | .chars => by
    refine ⟨fun _ => ⟨_, _, takeWhile_split plain s, rfl, (star_iff plain_one).2 (takeWhile_run s)⟩, ?_⟩
    rintro u v rfl h
    obtain ⟨w, hw⟩ := run_le (v := v) ((star_iff plain_one).1 h)
    show _ ≤ ((u ++ v).takeWhile plain).length
    rw [hw, List.length_append]; omega
  | .escaped => by
    have a := longest_text [92, 34] s
    have b := longest_text [92, 92] s
    refine Longest.congr (P := fun u => u = [92, 34] ∨ u = [92, 92]) (fun u => ?_) ⟨fun h => ?_, ?_⟩
    · show _ ↔ Matches (.alt (text [92, 34]) (text [92, 92])) u
      rw [alt_iff, text_iff, text_iff]
    · by_cases hp : textLen [92, 92] s ≤ textLen [92, 34] s
      · have e : qlen s .escaped = textLen [92, 34] s := Nat.max_eq_left hp
        rw [e] at h ⊢
        obtain ⟨u, v, h1, h2, h3⟩ := a.1 h
        exact ⟨u, v, h1, h2, .inl h3⟩
      · have e : qlen s .escaped = textLen [92, 92] s := Nat.max_eq_right (by omega)
        rw [e] at h ⊢
        obtain ⟨u, v, h1, h2, h3⟩ := b.1 h
        exact ⟨u, v, h1, h2, .inr h3⟩
    · intro u v e h
      rcases h with h | h
      · exact Nat.le_trans (a.2 u v e h) (Nat.le_max_left ..)
      · exact Nat.le_trans (b.2 u v e h) (Nat.le_max_right ..)
  | .qmark => longest_rule s .qmark
  | .any => longest_rule s .any

theorem qany_le (s : Str) : qlen s .any ≤ 1 := any_len_le s

theorem q_chars {c : UInt8} {s : Str} (h : plain c = true) :
    Chosen QRule.all qpattern (c :: s) .chars ((c :: s).takeWhile plain).length := by
  have hp : 0 < qlen (c :: s) .chars := by
    show 0 < ((c :: s).takeWhile plain).length
    rw [List.takeWhile_cons, if_pos h]; exact Nat.succ_pos _
  have h34 : ¬ (34 = c) := by rintro rfl; exact absurd h (by decide)
  have h92 : ¬ (92 = c) := by rintro rfl; exact absurd h (by decide)
  refine chosen_of (len := qlen (c :: s)) (before := []) (qlongest _) rfl hp ?_ nofun
  intro x hx
  cases x with
  | chars => exact Nat.le_refl _
  | escaped => simp [qlen, textLen, h92]
  | qmark => simp [qlen, textLen, h34]
  | any => exact Nat.le_trans (qany_le _) hp

theorem q_qmark (s : Str) : Chosen QRule.all qpattern (34 :: s) .qmark 1 := by
  have e : qlen (34 :: s) .qmark = 1 := by simp [qlen, textLen]
  have e1 : qlen (34 :: s) .chars = 0 := by simp [qlen, plain]
  have e2 : qlen (34 :: s) .escaped = 0 := by simp [qlen, textLen]
  have := chosen_of (rs := QRule.all) (r := QRule.qmark) (len := qlen (34 :: s)) (before := [.chars, .escaped])
    (after := [.any]) (qlongest _) rfl (by omega) (by
      intro x hx
      cases x with
      | any => rw [e]; exact qany_le _
      | _ => omega) (by
      intro x hx
      cases x with
      | chars => omega
      | escaped => omega
      | qmark => simp at hx
      | any => simp at hx)
  rwa [e] at this

theorem q_escaped {d : UInt8} (hd : d = 34 ∨ d = 92) (s : Str) : Chosen QRule.all qpattern (92 :: d :: s) .escaped 2 := by
  have e : qlen (92 :: d :: s) .escaped = 2 := by rcases hd with rfl | rfl <;> simp [qlen, textLen] <;> rfl
  have e1 : qlen (92 :: d :: s) .chars = 0 := by simp [qlen, plain]
  have e2 : qlen (92 :: d :: s) .qmark = 0 := by simp [qlen, textLen]
  have e3 : qlen (92 :: d :: s) .any ≤ 1 := qany_le _
  have := chosen_of (rs := QRule.all) (r := QRule.escaped) (len := qlen (92 :: d :: s)) (before := [.chars])
    (after := [.qmark, .any]) (qlongest _) rfl (by omega) (by intro x hx; cases x <;> omega) (by
      intro x hx; rcases List.mem_singleton.1 hx with rfl; omega)
  rwa [e] at this

theorem q_any {s : Str} (h : ∀ d t, s = d :: t → d ≠ 34 ∧ d ≠ 92) : Chosen QRule.all qpattern (92 :: s) .any 1 := by
  have e : qlen (92 :: s) .any = 1 := rfl
  have e1 : qlen (92 :: s) .chars = 0 := by simp [qlen, plain]
  have e2 : qlen (92 :: s) .qmark = 0 := by simp [qlen, textLen]
  have e3 : qlen (92 :: s) .escaped = 0 := by
    cases s with
    | nil => rfl
    | cons d t =>
      obtain ⟨h1, h2⟩ := h d t rfl
      simp [qlen, textLen, Ne.symm h1, Ne.symm h2]
  have := chosen_of (rs := QRule.all) (r := QRule.any) (len := qlen (92 :: s)) (before := [.chars, .escaped, .qmark])
    (after := []) (qlongest _) rfl (by omega) (by intro x hx; cases x <;> omega) (by
      intro x hx; cases x with
      | any => simp at hx
      | _ => omega)
  rwa [e] at this

theorem lexQ_run : ∀ {u : Str} (v b : Str), (∀ c ∈ u, plain c = true) → lexQ (u ++ v) b = lexQ v (b ++ u)
  | [], v, b, _ => by rw [List.append_nil]; rfl
  | c :: u, v, b, h => by
    have hc := h c (List.mem_cons_self ..)
    have h34 : c ≠ 34 := by rintro rfl; exact absurd hc (by decide)
    have h92 : c ≠ 92 := by rintro rfl; exact absurd hc (by decide)
    rw [List.cons_append, lexQ.eq_def]
    dsimp only
    rw [if_neg h34, if_neg h92, lexQ_run v _ fun d hd => h d (List.mem_cons_of_mem _ hd), List.append_assoc]
    rfl

theorem lexQ_esc {d : UInt8} (hd : d = 34 ∨ d = 92) (s b : Str) : lexQ (92 :: d :: s) b = lexQ s (b ++ [d]) := by
  rw [lexQ.eq_def]
  dsimp only
  rw [if_neg (by decide), if_pos rfl, if_pos hd]

theorem lexQ_bad {s : Str} (h : ∀ d t, s = d :: t → d ≠ 34 ∧ d ≠ 92) (b : Str) : lexQ (92 :: s) b = .bad 92 := by
  rw [lexQ.eq_def]
  dsimp only
  rw [if_neg (by decide), if_pos rfl]
  cases s with
  | nil => rfl
  | cons d t =>
    obtain ⟨h1, h2⟩ := h d t rfl
    dsimp only
    rw [if_neg (by rintro (h | h); exact h1 h; exact h2 h)]

theorem plain_of {c : UInt8} (h1 : c ≠ 34) (h2 : c ≠ 92) : plain c = true := by simp [plain, h1, h2]

theorem qscan_lexQ : ∀ (n : Nat) (s b : Str), s.length ≤ n → QScan s b (lexQ s b)
  | _, [], b, _ => .eof b
  | n + 1, c :: s, b, h => by
    by_cases h34 : c = 34
    · subst h34
      have e : lexQ (34 :: s) b = .done b s := by rw [lexQ.eq_def]; dsimp only; rw [if_pos rfl]
      rw [e]; exact .qmark (q_qmark s)
    · by_cases h92 : c = 92
      · subst h92
        by_cases hs : ∃ d t, s = d :: t ∧ (d = 34 ∨ d = 92)
        · obtain ⟨d, t, rfl, hd⟩ := hs
          rw [lexQ_esc hd]
          refine .escaped (q_escaped hd t) (qscan_lexQ n t (b ++ [d]) ?_)
          simp only [List.length_cons] at h; omega
        · have hs : ∀ d t, s = d :: t → d ≠ 34 ∧ d ≠ 92 := fun d t e =>
            ⟨fun g => hs ⟨d, t, e, .inl g⟩, fun g => hs ⟨d, t, e, .inr g⟩⟩
          rw [lexQ_bad hs]
          exact .any (q_any hs) rfl
      · have hc := plain_of h34 h92
        have e : lexQ (c :: s) b = lexQ ((c :: s).dropWhile plain) (b ++ (c :: s).takeWhile plain) := by
          rw [← lexQ_run _ b (takeWhile_run (c :: s)), ← takeWhile_split]
        rw [e]
        have ht : (c :: s).take ((c :: s).takeWhile plain).length = (c :: s).takeWhile plain := by
          have := take_left ((c :: s).takeWhile plain) ((c :: s).dropWhile plain)
          rwa [← takeWhile_split] at this
        refine .chars (q_chars hc) ?_
        rw [ht, drop_takeWhile]
        refine qscan_lexQ n _ _ ?_
        have hl := congrArg List.length (takeWhile_split plain (c :: s))
        rw [List.takeWhile_cons, if_pos hc] at hl
        simp only [List.length_append, List.length_cons] at hl h
        omega

theorem qscan_unique {s b : Str} {r : QRes} (h : QScan s b r) : r = lexQ s b := by
  induction h with
  | eof b => rfl
  | chars hc _ ih =>
    obtain ⟨u, v, rfl, _, _, hm, h1, h2⟩ := hc.matches
    rw [ih, h1, h2, lexQ_run v _ ((star_iff plain_one).1 hm)]
  | escaped hc _ ih =>
    obtain ⟨u, v, rfl, _, _, hm, h1, h2⟩ := hc.matches
    rw [ih, h1, h2]
    have hm : Matches (.alt (text [92, 34]) (text [92, 92])) u := hm
    rw [alt_iff, text_iff, text_iff] at hm
    rcases hm with rfl | rfl
    · exact (lexQ_esc (.inl rfl) v _).symm
    · exact (lexQ_esc (.inr rfl) v _).symm
  | qmark hc =>
    obtain ⟨u, v, rfl, _, _, hm, _, h2⟩ := hc.matches
    obtain ⟨d, rfl, hd⟩ := (one_ch 34 _).1 hm
    have hd := eq_of_beq hd
    subst hd
    rw [h2]
    rw [List.singleton_append, lexQ.eq_def]; dsimp only; rw [if_pos rfl]
  | any hc hh =>
    rename_i s b n c
    cases s with
    | nil => cases hh
    | cons x s =>
      cases hh
      by_cases h34 : c = 34
      · subst h34
        exact absurd (chosen_unique hc (q_qmark s)).1 (by nofun)
      · by_cases h92 : c = 92
        · subst h92
          refine (lexQ_bad (fun d t e => ?_) _).symm
          subst e
          refine ⟨fun g => ?_, fun g => ?_⟩
          · exact absurd (chosen_unique hc (q_escaped (.inl g) t)).1 (by nofun)
          · exact absurd (chosen_unique hc (q_escaped (.inr g) t)).1 (by nofun)
        · exact absurd (chosen_unique hc (q_chars (plain_of h34 h92))).1 (by nofun)

/-! ## Tokens -/

theorem value_tok {r : Rule} {w : Str} {t : Tok} (h : Value r w t) : t = r.tok w ∧ r ≠ .ws ∧ r ≠ .comment ∧ r ≠ .qmark ∧ r ≠ .any := by
  cases h with
  | iriRef v =>
    refine ⟨?_, by nofun, by nofun, by nofun, by nofun⟩
    show _ = Tok.iriRef (((60 :: v ++ [62]).drop 1).take ((60 :: v ++ [62]).length - 2))
    congr 1
    have e : (60 :: v ++ [62]).length - 2 = v.length := by simp
    rw [e]; exact (take_left v [62]).symm
  | pnameNs v =>
    refine ⟨?_, by nofun, by nofun, by nofun, by nofun⟩
    show _ = Tok.pnameNs ((v ++ [58]).take ((v ++ [58]).length - 1))
    congr 1
    have e : (v ++ [58]).length - 1 = v.length := by simp
    rw [e]; exact (take_left v [58]).symm
  | _ => exact ⟨rfl, by nofun, by nofun, by nofun, by nofun⟩

theorem tok_value {r : Rule} {w : Str} (h : Matches (pattern r) w) (h1 : r ≠ .ws) (h2 : r ≠ .comment) (h3 : r ≠ .qmark)
    (h4 : r ≠ .any) : Value r w (r.tok w) := by
  have key : ∃ t, Value r w t := by
    cases r with
    | ws => exact absurd rfl h1
    | comment => exact absurd rfl h2
    | qmark => exact absurd rfl h3
    | any => exact absurd rfl h4
    | kw k => exact ⟨_, .kw k w⟩
    | nat => exact ⟨_, .nat w⟩
    | iriRef =>
      have h : Matches (.seq (ch 60) _) w := h
      obtain ⟨v, rfl, g⟩ := ch_seq_iff.1 h
      obtain ⟨x, rfl, _⟩ := seq_ch_iff.1 g
      exact ⟨_, .iriRef x⟩
    | pnameNs =>
      obtain ⟨q, rfl, _⟩ := ns_iff.1 h
      exact ⟨_, .pnameNs q⟩
    | pnameLn => exact ⟨_, .pnameLn w⟩
    | blank =>
      have h : Matches (.seq (ch 95) _) w := h
      obtain ⟨v, rfl, g⟩ := ch_seq_iff.1 h
      obtain ⟨x, rfl, _⟩ := ch_seq_iff.1 g
      exact ⟨_, .blank x⟩
    | lang =>
      have h : Matches (.seq (ch 64) _) w := h
      obtain ⟨v, rfl, _⟩ := ch_seq_iff.1 h
      exact ⟨_, .lang v⟩
    | dcaret => exact ⟨_, .dcaret w⟩
    | lpar => exact ⟨_, .lpar w⟩
    | rpar => exact ⟨_, .rpar w⟩
    | equals => exact ⟨_, .equals w⟩
  obtain ⟨t, ht⟩ := key
  exact (value_tok ht).1 ▸ ht

/-- What follows a quoted string. -/
def afterQ : QRes → List Tok
  | .done v rest => .qstr v :: lex rest
  | .bad c => [.char c]
  | .eof => []

/-- One step of the scanner. -/
def step (c : UInt8) (s : Str) (r : Rule) (n : Nat) : List Tok :=
  match r with
  | .ws | .comment => lex ((c :: s).drop n)
  | .qmark => afterQ (lexQ ((c :: s).drop n) [])
  | .any => if endsInput c then [] else .char c :: lex s
  | r => r.tok ((c :: s).take n) :: lex ((c :: s).drop n)

theorem lex_step (c : UInt8) (s : Str) : lex (c :: s) = step c s (best (c :: s)).1 (best (c :: s)).2 := by
  have hp := best_pos c s
  have hd : lexN s.length ((c :: s).drop (best (c :: s)).2) = lex ((c :: s).drop (best (c :: s)).2) :=
    lexN_lex (drop_cons_le hp)
  have hs : lexN s.length s = lex s := rfl
  show lexN (s.length + 1) (c :: s) = _
  rw [lexN]
  rw [hd]
  cases (best (c :: s)).1 with
  | qmark =>
    show (match lexQ ((c :: s).drop (best (c :: s)).2) [] with
      | .done v rest => .qstr v :: lexN s.length rest
      | .bad c => [.char c]
      | .eof => []) = afterQ (lexQ ((c :: s).drop (best (c :: s)).2) [])
    cases hq : lexQ ((c :: s).drop (best (c :: s)).2) [] with
    | done v rest =>
      have h1 := lexQ_length hq
      have h2 := drop_cons_le (c := c) (s := s) hp
      show _ = Tok.qstr v :: lex rest
      dsimp only
      rw [lexN_lex (by omega)]
    | bad => rfl
    | eof => rfl
  | _ => rfl

theorem scan_lex : ∀ (n : Nat) (s : Str), s.length ≤ n → Scan s (lex s)
  | _, [], _ => .nil
  | n + 1, c :: s, h => by
    have hc := chosen_best c s
    have hp := best_pos c s
    rw [lex_step]
    have hl : ((c :: s).drop (best (c :: s)).2).length ≤ n := by
      have := drop_cons_le (c := c) (s := s) hp
      simp only [List.length_cons] at h; omega
    have ih := scan_lex n _ hl
    obtain ⟨u, v, _, _, _, hm, ht, _⟩ := hc.matches
    generalize hr : (best (c :: s)).1 = r at hc hm
    generalize hn : (best (c :: s)).2 = k at hc hp hl ih ht
    have tok : r ≠ .ws → r ≠ .comment → r ≠ .qmark → r ≠ .any →
        Scan (c :: s) (r.tok ((c :: s).take k) :: lex ((c :: s).drop k)) := fun h1 h2 h3 h4 =>
      .tok hc (tok_value (ht ▸ hm) h1 h2 h3 h4) ih
    cases r with
    | ws => exact .skip hc (.inl rfl) ih
    | comment => exact .skip hc (.inr rfl) ih
    | qmark =>
      have hq := qscan_lexQ _ ((c :: s).drop k) [] (Nat.le_refl _)
      show Scan (c :: s) (afterQ (lexQ ((c :: s).drop k) []))
      cases hres : lexQ ((c :: s).drop k) [] with
      | done v rest =>
        rw [hres] at hq
        have := lexQ_length hres
        exact .qstr hc hq (scan_lex n rest (by omega))
      | bad d => rw [hres] at hq; exact .qbad hc hq
      | eof => rw [hres] at hq; exact .qeof hc hq
    | any =>
      have hk : k = 1 := by
        obtain ⟨u, v, _, hl, _, hm, _, _⟩ := hc.matches
        obtain ⟨d, rfl, _⟩ := cls_iff.1 hm
        exact hl.symm
      subst hk
      show Scan (c :: s) (if endsInput c then [] else .char c :: lex s)
      split
      · rename_i he
        refine .ends hc rfl ?_
        unfold endsInput at he
        simpa using he
      · rename_i he
        unfold endsInput at he
        simp only [Bool.or_eq_true, beq_iff_eq, decide_eq_true_eq, not_or] at he
        exact .any hc rfl he.1 (UInt8.not_le.1 he.2) ih
    | _ => exact tok (by nofun) (by nofun) (by nofun) (by nofun)

theorem step_tok {c : UInt8} {s : Str} {r : Rule} {n : Nat} (h1 : r ≠ .ws) (h2 : r ≠ .comment) (h3 : r ≠ .qmark)
    (h4 : r ≠ .any) : step c s r n = r.tok ((c :: s).take n) :: lex ((c :: s).drop n) := by
  cases r with
  | ws => exact absurd rfl h1
  | comment => exact absurd rfl h2
  | qmark => exact absurd rfl h3
  | any => exact absurd rfl h4
  | _ => rfl

theorem lex_chosen {c : UInt8} {s : Str} {r : Rule} {n : Nat} (h : Chosen Rule.all pattern (c :: s) r n) :
    lex (c :: s) = step c s r n := by
  rw [lex_step, best_of h]

theorem any_one {s : Str} {n : Nat} (h : Chosen Rule.all pattern s .any n) : n = 1 := by
  obtain ⟨u, v, _, hl, _, hm, _, _⟩ := h.matches
  obtain ⟨d, rfl, _⟩ := cls_iff.1 hm
  exact hl.symm

theorem scan_unique {s : Str} {l : List Tok} (h : Scan s l) : l = lex s := by
  induction h with
  | nil => rfl
  | @skip s r n l hc hr _ ih =>
    cases s with
    | nil => exact (chosen_nil hc).elim
    | cons c s =>
      rw [lex_chosen hc, ih]
      rcases hr with rfl | rfl <;> rfl
  | @tok s r n t l hc hv _ ih =>
    cases s with
    | nil => exact (chosen_nil hc).elim
    | cons c s =>
      obtain ⟨e, h1, h2, h3, h4⟩ := value_tok hv
      rw [lex_chosen hc, ih, step_tok h1 h2 h3 h4, e]
  | @qstr s v rest n l hc hq _ ih =>
    cases s with
    | nil => exact (chosen_nil hc).elim
    | cons c s =>
      rw [lex_chosen hc, ih]
      show _ = afterQ (lexQ ((c :: s).drop n) [])
      rw [← qscan_unique hq]; rfl
  | @qbad s n c hc hq =>
    cases s with
    | nil => exact (chosen_nil hc).elim
    | cons x s =>
      rw [lex_chosen hc]
      show _ = afterQ (lexQ ((x :: s).drop n) [])
      rw [← qscan_unique hq]; rfl
  | @qeof s n hc hq =>
    cases s with
    | nil => exact (chosen_nil hc).elim
    | cons x s =>
      rw [lex_chosen hc]
      show _ = afterQ (lexQ ((x :: s).drop n) [])
      rw [← qscan_unique hq]; rfl
  | @any s n c l hc hh h0 h1 _ ih =>
    cases s with
    | nil => cases hh
    | cons x s =>
      cases hh
      have hn := any_one hc
      subst hn
      rw [lex_chosen hc, ih]
      show _ = if endsInput c then [] else .char c :: lex s
      rw [if_neg]
      · rfl
      · unfold endsInput
        simp only [Bool.or_eq_true, beq_iff_eq, decide_eq_true_eq, not_or]
        exact ⟨h0, UInt8.not_le.2 h1⟩
  | @ends s n c hc hh h0 =>
    cases s with
    | nil => cases hh
    | cons x s =>
      cases hh
      rw [lex_chosen hc]
      show _ = if endsInput c then [] else .char c :: lex s
      rw [if_pos]
      unfold endsInput
      simpa using h0

end Cowl.Re
