import Verif.FuncFaultView
import Verif.FuncFaultSpec
/-! # Lemmas: lines of tokens -/
namespace Cowl.Func

/-! ## Matches of rules -/

theorem word_newline {r : Rule} (hr : r.word = true) {s : Str} {x : UInt8} (h : x ∈ s.take (r.len s)) : x ≠ 10 := by
  have hp : isPnDot 10 = false := by decide
  have ha : isAlnum 10 = false := by decide
  cases r with
  | kw k =>
    rintro rfl
    simp only [Rule.len, textLen] at h
    split at h
    · rename_i h'
      rw [List.isPrefixOf_iff_prefix] at h'
      rw [← List.prefix_iff_eq_take.1 h'] at h
      have := List.all_eq_true.1 (kw_name k k.mem_all) _ h
      rw [hp] at this
      cases this
    · simp at h
  | nat =>
    rintro rfl
    have := mem_take_takeWhile h
    cases this
  | pnameNs =>
    rintro rfl
    rcases ns_word h with h | h
    · rw [hp] at h; cases h
    · cases h
  | pnameLn =>
    rintro rfl
    simp only [Rule.len, pnameLnLen] at h
    split at h
    · simp at h
    · rw [List.take_add, List.mem_append] at h
      rcases h with h | h
      · rcases ns_word h with h | h
        · rw [hp] at h; cases h
        · cases h
      · rw [local_word h] at hp
        cases hp
  | blank =>
    rintro rfl
    match s, h with
    | [], h => simp at h
    | [c], h =>
      have h0 : Rule.len [c] .blank = 0 := by simp only [Rule.len]; unfold blankLen; split <;> first | rfl | (rename_i e; cases e)
      rw [h0] at h
      simp at h
    | c :: d :: s, h =>
      simp only [Rule.len] at h
      rw [blankLen_cons] at h
      split at h
      · rename_i hc
        obtain ⟨rfl, rfl⟩ := hc
        split at h
        · simp at h
        · rw [List.take_succ_cons, List.take_succ_cons, List.mem_cons, List.mem_cons] at h
          rcases h with h | h | h
          · cases h
          · cases h
          · rw [local_word h] at hp
            cases hp
      · simp at h
  | lang =>
    rintro rfl
    cases s with
    | nil => simp at h
    | cons c s =>
      simp only [Rule.len] at h
      rw [langLen_cons] at h
      split at h
      · rename_i hc
        subst hc
        split at h
        · simp at h
        · rw [Nat.add_assoc, Nat.add_comm 1, List.take_succ_cons, List.mem_cons] at h
          rcases h with h | h
          · cases h
          · rw [List.take_add, List.mem_append] at h
            rcases h with h | h
            · have := mem_take_takeWhile h
              cases this
            · rcases tail_word _ h with h | h
              · rw [ha] at h; cases h
              · cases h
      · simp at h
  | _ => cases hr

theorem textLen_newline {w s : Str} {x : UInt8} (hw : (10 : UInt8) ∉ w) (h : x ∈ s.take (textLen w s)) : x ≠ 10 := by
  unfold textLen at h
  split at h
  · rename_i h'
    rw [List.isPrefixOf_iff_prefix] at h'
    rw [← List.prefix_iff_eq_take.1 h'] at h
    exact fun e => hw (e ▸ h)
  · simp at h

/-- Only white space has newlines. -/
theorem rule_newline {r : Rule} (hr : r ≠ .ws) {s : Str} {x : UInt8} (h : x ∈ s.take (r.len s)) : x ≠ 10 := by
  cases r with
  | ws => exact absurd rfl hr
  | kw k => exact word_newline (r := .kw k) rfl h
  | nat => exact word_newline (r := .nat) rfl h
  | pnameNs => exact word_newline (r := .pnameNs) rfl h
  | pnameLn => exact word_newline (r := .pnameLn) rfl h
  | blank => exact word_newline (r := .blank) rfl h
  | lang => exact word_newline (r := .lang) rfl h
  | qmark | dcaret | lpar | rpar | equals => exact textLen_newline (by decide) h
  | iriRef =>
    cases s with
    | nil => simp at h
    | cons c s =>
      simp only [Rule.len] at h
      rw [iriRefLen_cons] at h
      split at h
      · rename_i hc
        subst hc
        split at h
        · rename_i h'
          rw [List.take_succ_cons, List.mem_cons, List.take_add_one, List.mem_append] at h
          rcases h with rfl | h | h
          · decide
          · rintro rfl
            have := mem_take_takeWhile h
            cases this
          · rw [← List.head?_drop, h'] at h
            have : x = 62 := by simpa using h
            rw [this]; decide
        · simp at h
      · simp at h
  | comment =>
    cases s with
    | nil => simp at h
    | cons c s =>
      rw [commentLen_cons] at h
      split at h
      · rename_i hc
        subst hc
        rw [List.take_succ_cons, List.mem_cons] at h
        rcases h with rfl | h
        · decide
        · have := mem_take_takeWhile h
          simpa using this
      · simp at h
  | any =>
    cases s with
    | nil => simp at h
    | cons c s =>
      simp only [Rule.len] at h
      split at h
      · simp at h
      · rename_i hc
        rw [List.take_succ_cons, List.take_zero, List.mem_singleton] at h
        rw [h]; exact hc

theorem newlines_append (a b : Str) : newlines (a ++ b) = newlines a + newlines b := List.count_append

theorem newlines_zero {w : Str} (h : ∀ x ∈ w, x ≠ 10) : newlines w = 0 := List.count_eq_zero.2 fun hm => h 10 hm rfl

theorem rule_newlines {r : Rule} (hr : r ≠ .ws) (s : Str) : newlines (s.take (r.len s)) = 0 := newlines_zero fun _ h => rule_newline hr h

/-- A newline after some text ends every match but white space. -/
theorem best_newline {c : UInt8} {t : Str} (u : Str) : (best (c :: t ++ 10 :: u)).2 ≤ (c :: t).length ∨ (best (c :: t ++ 10 :: u)).1 = .ws := by
  by_cases hw : (best (c :: t ++ 10 :: u)).1 = .ws
  · exact .inr hw
  · refine .inl (Nat.le_of_not_lt fun hl => ?_)
    have e : (best (c :: t ++ 10 :: u)).2 = (best (c :: t ++ 10 :: u)).1.len (c :: t ++ 10 :: u) := best_len c (t ++ 10 :: u)
    rw [e] at hl
    refine rule_newline hw (s := c :: t ++ 10 :: u) (x := 10) ?_ rfl
    refine mem_take_le (n := (c :: t).length + 1) ?_ hl
    rw [List.take_append, List.mem_append]
    refine .inr ?_
    simp

/-! ## Quoted strings -/

theorem Quotes.newlines {v b : Str} (h : Quotes v b) : newlines v = newlines b := by
  induction h with
  | nil => rfl
  | plain _ _ _ ih => simp only [Func.newlines, List.count_cons] at ih ⊢; rw [ih]
  | escape hc _ ih =>
    simp only [Func.newlines, List.count_cons] at ih ⊢
    rw [ih]
    simp

theorem lexQ_close (s acc : Str) : lexQ (34 :: s) acc = .done acc s := by rw [lexQ.eq_def]; rfl

theorem lexQ_plain {c : UInt8} (h1 : c ≠ 34) (h2 : c ≠ 92) (s acc : Str) : lexQ (c :: s) acc = lexQ s (acc ++ [c]) := by
  rw [lexQ.eq_def]; dsimp only; rw [if_neg h1, if_neg h2]

theorem lexQ_esc {c : UInt8} (h : c = 34 ∨ c = 92) (s acc : Str) : lexQ (92 :: c :: s) acc = lexQ s (acc ++ [c]) := by
  rw [lexQ.eq_def]; dsimp only; rw [if_neg (by decide), if_pos rfl, if_pos h]

theorem lexQ_bad {c : UInt8} (h : ¬ (c = 34 ∨ c = 92)) (s acc : Str) : lexQ (92 :: c :: s) acc = .bad 92 := by
  rw [lexQ.eq_def]; dsimp only; rw [if_neg (by decide), if_pos rfl, if_neg h]

theorem lexQLine_end (s : Str) (l : Nat) : lexQLine (34 :: s) l = l := by rw [lexQLine.eq_def]; rfl

theorem lexQLine_plain {c : UInt8} (h1 : c ≠ 34) (h2 : c ≠ 92) (s : Str) (l : Nat) : lexQLine (c :: s) l = lexQLine s (l + newlines [c]) := by
  rw [lexQLine.eq_def]; dsimp only; rw [if_neg h1, if_neg h2]

theorem lexQLine_esc {c : UInt8} (h : c = 34 ∨ c = 92) (s : Str) (l : Nat) : lexQLine (92 :: c :: s) l = lexQLine s l := by
  rw [lexQLine.eq_def]; dsimp only; rw [if_neg (by decide), if_pos rfl, if_pos h]

theorem lexQLine_bad {c : UInt8} (h : ¬ (c = 34 ∨ c = 92)) (s : Str) (l : Nat) : lexQLine (92 :: c :: s) l = l := by
  rw [lexQLine.eq_def]; dsimp only; rw [if_neg (by decide), if_pos rfl, if_neg h]

theorem Quotes.scan {v b : Str} (h : Quotes v b) : ∀ (acc x : Str), lexQ (b ++ x) acc = lexQ x (acc ++ v) := by
  induction h with
  | nil => intro acc x; rw [List.nil_append, List.append_nil]
  | plain h1 h2 _ ih => intro acc x; rw [List.cons_append, lexQ_plain h1 h2, ih]; simp
  | escape hc _ ih => intro acc x; rw [List.cons_append, List.cons_append, lexQ_esc hc, ih]; simp

theorem Quotes.line {v b : Str} (h : Quotes v b) : ∀ (l : Nat) (x : Str), lexQLine (b ++ x) l = lexQLine x (l + Func.newlines b) := by
  induction h with
  | nil => intro l x; rfl
  | @plain c v b h1 h2 _ ih =>
    intro l x
    rw [List.cons_append, lexQLine_plain h1 h2, ih]
    congr 1
    rw [show c :: b = [c] ++ b from rfl, newlines_append]
    omega
  | @escape c v b hc _ ih =>
    intro l x
    rw [List.cons_append, List.cons_append, lexQLine_esc hc, ih]
    congr 1
    have : Func.newlines [92, c] = 0 := by rcases hc with rfl | rfl <;> rfl
    rw [show 92 :: c :: b = [92, c] ++ b from rfl, newlines_append, this]
    omega

/-- What the scanner of strings finds. -/
theorem lexQ_cases : ∀ (s acc : Str), ∃ v b x, s = b ++ x ∧ Quotes v b ∧
    ((∃ y, x = 34 :: y ∧ lexQ s acc = .done (acc ++ v) y) ∨
     (∃ y, x = 92 :: y ∧ lexQ s acc = .bad 92 ∧ ∀ l, lexQLine x l = l) ∨ x = [] ∧ lexQ s acc = .eof)
  | [], acc => ⟨[], [], [], rfl, .nil, .inr (.inr ⟨rfl, rfl⟩)⟩
  | c :: s, acc => by
    by_cases h1 : c = 34
    · subst h1
      exact ⟨[], [], 34 :: s, rfl, .nil, .inl ⟨s, rfl, by rw [lexQ_close, List.append_nil]⟩⟩
    · by_cases h2 : c = 92
      · subst h2
        cases s with
        | nil => exact ⟨[], [], [92], rfl, .nil, .inr (.inl ⟨[], rfl, by rw [lexQ.eq_def]; rfl, fun _ => by rw [lexQLine.eq_def]; rfl⟩)⟩
        | cons d s =>
          by_cases hd : d = 34 ∨ d = 92
          · obtain ⟨v, b, x, e, hq, h⟩ := lexQ_cases s (acc ++ [d])
            refine ⟨d :: v, 92 :: d :: b, x, by rw [e]; rfl, .escape hd hq, ?_⟩
            rw [lexQ_esc hd]
            rcases h with ⟨y, e1, e2⟩ | h | h
            · exact .inl ⟨y, e1, by rw [e2]; simp⟩
            · exact .inr (.inl h)
            · exact .inr (.inr h)
          · exact ⟨[], [], 92 :: d :: s, rfl, .nil, .inr (.inl ⟨_, rfl, lexQ_bad hd .., fun l => lexQLine_bad hd ..⟩)⟩
      · obtain ⟨v, b, x, e, hq, h⟩ := lexQ_cases s (acc ++ [c])
        refine ⟨c :: v, c :: b, x, by rw [e]; rfl, .plain h1 h2 hq, ?_⟩
        rw [lexQ_plain h1 h2]
        rcases h with ⟨y, e1, e2⟩ | h | h
        · exact .inl ⟨y, e1, by rw [e2]; simp⟩
        · exact .inr (.inl h)
        · exact .inr (.inr h)

/-! ## The scanner with lines -/

theorem lexLN_fst : ∀ (n l : Nat) (s : Str), (lexLN n l s).1.map (·.1) = lexN n s
  | 0, _, _ => rfl
  | _ + 1, _, [] => rfl
  | n + 1, l, c :: s => by
    rw [lexLN, lexN]
    dsimp only
    cases (best (c :: s)).1 with
    | qmark =>
      dsimp only
      cases lexQ ((c :: s).drop (best (c :: s)).2) [] with
      | done v rest => dsimp only; rw [List.map_cons, lexLN_fst]
      | bad _ => rfl
      | eof => rfl
    | any =>
      dsimp only
      split
      · rfl
      · rw [List.map_cons, lexLN_fst]
    | ws => exact lexLN_fst ..
    | comment => exact lexLN_fst ..
    | _ => dsimp only; rw [List.map_cons, lexLN_fst]

theorem lexLN_fuel : ∀ (n m l : Nat) (s : Str), s.length ≤ n → s.length ≤ m → lexLN n l s = lexLN m l s
  | 0, 0, _, _, _, _ => rfl
  | 0, m + 1, _, [], _, _ => rfl
  | n + 1, 0, _, [], _, _ => rfl
  | n + 1, m + 1, _, [], _, _ => rfl
  | 0, _, _, _ :: _, h, _ => by simp at h
  | _ + 1, 0, _, _ :: _, _, h => by simp at h
  | n + 1, m + 1, l, c :: s, h1, h2 => by
    have hp := best_pos c s
    have hd : ((c :: s).drop (best (c :: s)).2).length ≤ n ∧
        ((c :: s).drop (best (c :: s)).2).length ≤ m := by
      simp only [List.length_drop, List.length_cons] at *; omega
    have hq : ∀ v rest, lexQ ((c :: s).drop (best (c :: s)).2) [] = .done v rest →
        ∀ l, lexLN n l rest = lexLN m l rest := fun v rest h l => by
      have := lexQ_length h
      exact lexLN_fuel n m l rest (by omega) (by omega)
    have e := fun l => lexLN_fuel n m l _ hd.1 hd.2
    have e' := fun l => lexLN_fuel n m l s (by simp at h1; omega) (by simp at h2; omega)
    rw [lexLN, lexLN]
    cases (best (c :: s)).1 <;> dsimp only <;> try rw [e]
    · cases hl : lexQ ((c :: s).drop (best (c :: s)).2) [] with
      | done v rest => dsimp only; rw [hq v rest hl]
      | bad c => rfl
      | eof => rfl
    · rw [e']

/-- The scanner from a line on. -/
def lexFrom (l : Nat) (s : Str) : List (Tok × Nat) × Nat := lexLN s.length l s

theorem lexFrom_of {n l : Nat} {s : Str} (h : s.length ≤ n) : lexLN n l s = lexFrom l s := lexLN_fuel _ _ _ _ h (Nat.le_refl _)

theorem lexFrom_fst (l : Nat) (s : Str) : (lexFrom l s).1.map (·.1) = lex s := lexLN_fst ..

variable {c : UInt8} {s : Str} {l k : Nat}

theorem lexFrom_gap {r : Rule} (hr : r = .ws ∨ r = .comment) (h : best (c :: s) = (r, k)) :
    lexFrom l (c :: s) = lexFrom (l + newlines ((c :: s).take k)) ((c :: s).drop k) := by
  have hp := best_pos c s
  rw [h] at hp
  rw [lexFrom, List.length_cons, lexLN]
  simp only [h]
  rcases hr with rfl | rfl <;> exact lexFrom_of (drop_cons_le hp)

theorem lexFrom_tok {r : Rule} (h : best (c :: s) = (r, k)) (hr : r.plain = true) :
    lexFrom l (c :: s) = ((r.tok ((c :: s).take k), l + newlines ((c :: s).take k)) :: (lexFrom (l + newlines ((c :: s).take k)) ((c :: s).drop k)).1,
      (lexFrom (l + newlines ((c :: s).take k)) ((c :: s).drop k)).2) := by
  have hp := best_pos c s
  rw [h] at hp
  rw [lexFrom, List.length_cons, lexLN]
  simp only [h]
  rw [← lexFrom_of (drop_cons_le hp)]
  cases r <;> first | rfl | cases hr

theorem lexFrom_any (h : best (c :: s) = (.any, k)) : lexFrom l (c :: s) =
    if endsInput c then ([], l + newlines ((c :: s).take k)) else
      ((.char c, l + newlines ((c :: s).take k)) :: (lexFrom (l + newlines ((c :: s).take k)) s).1, (lexFrom (l + newlines ((c :: s).take k)) s).2) := by
  rw [lexFrom, List.length_cons, lexLN]
  simp only [h]
  rfl

theorem best_quote (s : Str) : best (34 :: s) = (.qmark, 1) := by
  have : Rule.len (34 :: s) .qmark = 1 := by simp [Rule.len, textLen]
  rw [best_solo (r := .qmark) rfl (by rw [this]; omega), this]

theorem lexFrom_quote : lexFrom l (34 :: s) =
    match lexQ s [] with
    | .done v rest => ((.qstr v, lexQLine s l) :: (lexFrom (lexQLine s l) rest).1, (lexFrom (lexQLine s l) rest).2)
    | .bad c => ([(.char c, lexQLine s l)], lexQLine s l)
    | .eof => ([], lexQLine s l) := by
  rw [lexFrom, List.length_cons, lexLN]
  simp only [best_quote]
  show (match lexQ s [] with
    | .done v rest => ((Tok.qstr v, lexQLine s (l + 0)) :: (lexLN s.length (lexQLine s (l + 0)) rest).1, (lexLN s.length (lexQLine s (l + 0)) rest).2)
    | .bad c => ([(.char c, lexQLine s (l + 0))], lexQLine s (l + 0))
    | .eof => ([], lexQLine s (l + 0))) = _
  rw [Nat.add_zero]
  cases h : lexQ s [] with
  | done v rest =>
    dsimp only
    rw [lexFrom_of (Nat.le_of_lt (lexQ_length h))]
  | bad _ => rfl
  | eof => rfl

end Cowl.Func
