import Verif.FuncLex
import Verif.UintTextProps
/-! # Lemmas on the lexer of the functional syntax -/
namespace Cowl.Func

/-! ## Longest match -/

theorem better_stay {s : Str} {b : Rule × Nat} {r : Rule} (h : r.len s ≤ b.2) : better s b r = b := by
  unfold better; rw [if_neg (by omega)]

theorem better_le (s : Str) (b : Rule × Nat) (r : Rule) : b.2 ≤ (better s b r).2 ∧ r.len s ≤ (better s b r).2 := by
  unfold better; split <;> constructor <;> first | (dsimp only; omega) | omega

theorem foldl_better_le (s : Str) : ∀ (l : List Rule) (b : Rule × Nat),
    b.2 ≤ (l.foldl (better s) b).2 ∧ ∀ r ∈ l, r.len s ≤ (l.foldl (better s) b).2
  | [], b => ⟨Nat.le_refl _, fun _ h => by cases h⟩
  | r :: l, b => by
    obtain ⟨h1, h2⟩ := foldl_better_le s l (better s b r)
    obtain ⟨h3, h4⟩ := better_le s b r
    refine ⟨Nat.le_trans h3 h1, fun x hx => ?_⟩
    rcases List.mem_cons.1 hx with e | e
    · rw [e]; exact Nat.le_trans h4 h1
    · exact h2 x e

/-- All rules but the last one. -/
def Rule.core : List Rule :=
  .ws :: Kw.all.map .kw ++
    [.nat, .iriRef, .pnameNs, .pnameLn, .blank, .lang, .qmark, .dcaret, .lpar, .rpar,
     .equals, .comment]

theorem all_eq : Rule.all = Rule.core ++ [.any] := rfl

theorem Kw.mem_all (k : Kw) : k ∈ Kw.all := by cases k <;> decide

theorem Rule.mem_core {r : Rule} (h : r ≠ .any) : r ∈ Rule.core := by
  cases r with
  | kw k =>
    have : Rule.kw k ∈ Kw.all.map Rule.kw := List.mem_map.2 ⟨k, k.mem_all, rfl⟩
    simp [Rule.core, this]
  | any => exact absurd rfl h
  | _ => simp [Rule.core]

theorem foldl_core {s : Str} {r : Rule} : ∀ (l : List Rule) (b : Rule × Nat),
    (∀ r' ∈ l, r' ≠ r → r'.len s < r.len s) →
    (b.2 < r.len s ∨ b = (r, r.len s)) → (r ∈ l ∨ b = (r, r.len s)) →
    l.foldl (better s) b = (r, r.len s)
  | [], b, _, _, h3 => by
    rcases h3 with h | h
    · cases h
    · exact h
  | x :: l, b, h1, h2, h3 => by
    rw [List.foldl_cons]
    have hx : better s b x = (r, r.len s) ∨ ((better s b x).2 < r.len s ∧ x ≠ r) := by
      by_cases hxr : x = r
      · left
        rcases h2 with h | h
        · unfold better; rw [hxr, if_pos h]
        · rw [h]; exact better_stay (by rw [hxr]; exact Nat.le_refl _)
      · have hlt := h1 x (by simp) hxr
        rcases h2 with h | h
        · right
          refine ⟨?_, hxr⟩
          unfold better; split
          · exact hlt
          · exact h
        · left; rw [h]; exact better_stay (Nat.le_of_lt hlt)
    apply foldl_core l _ fun r' hr => h1 r' (by simp [hr])
    · rcases hx with h | h
      · exact Or.inr h
      · exact Or.inl h.1
    · rcases hx with h | h
      · exact Or.inr h
      · rcases h3 with h3 | h3
        · rcases List.mem_cons.1 h3 with e | e
          · exact absurd e.symm h.2
          · exact Or.inl e
        · rw [h3] at h
          have := (better_le s (r, r.len s) x).1
          dsimp only at this
          omega

theorem any_len_le (s : Str) : Rule.len s .any ≤ 1 := by
  cases s with
  | nil => exact Nat.zero_le _
  | cons c s => simp only [Rule.len]; split <;> omega

theorem best_eq {s : Str} {r : Rule} (hne : r ≠ .any) (hpos : 0 < r.len s)
    (h : ∀ r', r' ≠ r → r' ≠ .any → r'.len s < r.len s) : best s = (r, r.len s) := by
  rw [best, all_eq, List.foldl_append]
  rw [foldl_core (r := r) Rule.core _ (fun r' hr hx => h r' hx ?_) (Or.inl hpos)
    (Or.inl (Rule.mem_core hne))]
  · rw [List.foldl_cons, List.foldl_nil]
    apply better_stay
    have := any_len_le s
    dsimp only
    omega
  · rintro rfl
    have : ∀ x ∈ Rule.core, x ≠ Rule.any := by decide
    exact this _ hr rfl

theorem best_pos (c : UInt8) (s : Str) : 0 < (best (c :: s)).2 := by
  have h := (foldl_better_le (c :: s) Rule.all (.any, 0)).2
  by_cases hc : c = 10
  · have h1 := h .ws (by simp [Rule.all])
    have : 0 < Rule.len (c :: s) .ws := by subst hc; simp [Rule.len, isWs]
    exact Nat.lt_of_lt_of_le this h1
  · have h1 := h .any (by simp [Rule.all])
    have : 0 < Rule.len (c :: s) .any := by simp [Rule.len, hc]
    exact Nat.lt_of_lt_of_le this h1

/-! ## First characters -/

/-- Characters a match of a rule can begin with. -/
def Rule.first (c : UInt8) : Rule → Bool
  | .ws => isWs c
  | .kw _ => decide (65 ≤ c) && decide (c ≤ 90)
  | .nat => isDig c
  | .iriRef => c == 60
  | .pnameNs | .pnameLn => isBase c || c == 58
  | .blank => c == 95
  | .lang => c == 64
  | .qmark => c == 34
  | .dcaret => c == 94
  | .lpar => c == 40
  | .rpar => c == 41
  | .equals => c == 61
  | .comment => c == 35
  | .any => true

theorem textLen_pos {w s : Str} (h : 0 < textLen w s) : w <+: s := by
  unfold textLen at h
  split at h
  · rename_i h1; exact List.isPrefixOf_iff_prefix.1 h1
  · omega

theorem textLen_head {x c : UInt8} {w s : Str} (h : 0 < textLen (x :: w) (c :: s)) : c = x := by
  obtain ⟨t, ht⟩ := textLen_pos h
  rw [List.cons_append] at ht
  exact (List.cons.inj ht).1.symm

theorem Kw.text_first (k : Kw) : ∃ x w, k.text = x :: w ∧ 65 ≤ x ∧ x ≤ 90 := by
  cases k <;> exact ⟨_, _, rfl, by decide, by decide⟩

theorem pnameNs_first {c : UInt8} {s : Str} (h : 0 < pnameNsLen (c :: s)) : isBase c || c == 58 := by
  unfold pnameNsLen at h
  dsimp only at h
  by_cases hc : isPnDot c
  · rw [List.takeWhile_cons_of_pos hc] at h
    split at h
    · rename_i h1
      have := h1.2
      simp only [prefixOk, Bool.and_eq_true] at this
      simp [this.1]
    · omega
  · rw [List.takeWhile_cons_of_neg hc] at h
    split at h
    · rename_i h1
      have := h1.1
      simp at this
      simp [this]
    · omega

theorem len_first {r : Rule} {c : UInt8} {s : Str} (h : 0 < r.len (c :: s)) : r.first c = true := by
  cases r with
  | ws =>
    by_cases hc : isWs c
    · exact hc
    · simp [Rule.len, List.takeWhile_cons_of_neg hc] at h
  | kw k =>
    obtain ⟨x, w, e, h1, h2⟩ := k.text_first
    simp only [Rule.len, e] at h
    rw [textLen_head h]
    simp [Rule.first, h1, h2]
  | nat =>
    by_cases hc : isDig c
    · exact hc
    · simp [Rule.len, List.takeWhile_cons_of_neg hc] at h
  | iriRef =>
    simp only [Rule.len, iriRefLen] at h
    split at h
    · rename_i h1; rw [(List.cons.inj h1).1]; rfl
    · omega
  | pnameNs => exact pnameNs_first h
  | pnameLn =>
    simp only [Rule.len, pnameLnLen] at h
    split at h
    · omega
    · apply pnameNs_first (s := s); omega
  | blank =>
    simp only [Rule.len, blankLen] at h
    split at h
    · rename_i h1; rw [(List.cons.inj h1).1]; rfl
    · omega
  | lang =>
    simp only [Rule.len, langLen] at h
    split at h
    · rename_i h1; rw [(List.cons.inj h1).1]; rfl
    · omega
  | qmark => simp only [Rule.len] at h; rw [textLen_head h]; rfl
  | dcaret => simp only [Rule.len] at h; rw [textLen_head h]; rfl
  | lpar => simp only [Rule.len] at h; rw [textLen_head h]; rfl
  | rpar => simp only [Rule.len] at h; rw [textLen_head h]; rfl
  | equals => simp only [Rule.len] at h; rw [textLen_head h]; rfl
  | comment =>
    simp only [Rule.len] at h
    split at h
    · rename_i h1; rw [(List.cons.inj h1).1]; rfl
    · omega
  | any => rfl

/-- Rules up to the keyword they recognise. -/
def Rule.shape : Rule → Rule
  | .kw _ => .kw .class_
  | r => r

/-- One rule of each shape but the last. -/
def Rule.shapes : List Rule :=
  [.ws, .kw .class_, .nat, .iriRef, .pnameNs, .pnameLn, .blank, .lang, .qmark, .dcaret, .lpar,
   .rpar, .equals, .comment]

/-- Rules whose first character is theirs alone. -/
def Rule.solo : Rule → Bool
  | .kw _ | .pnameNs | .pnameLn | .any => false
  | _ => true

theorem first_disjoint : ∀ n < 256, ∀ r ∈ Rule.shapes, ∀ r' ∈ Rule.shapes,
    r.solo = true → r.first (UInt8.ofNat n) = true → r'.first (UInt8.ofNat n) = true → r' = r := by
  decide +kernel

theorem Rule.shape_mem {r : Rule} (h : r ≠ .any) : r.shape ∈ Rule.shapes := by
  cases r with
  | kw k => simp [Rule.shape, Rule.shapes]
  | any => exact absurd rfl h
  | _ => decide

theorem solo_only {r r' : Rule} {c : UInt8} (hs : r.solo = true) (h : r.first c = true)
    (h' : r'.first c = true) (hany : r' ≠ .any) : r' = r := by
  have hr : r ≠ .any := by rintro rfl; cases hs
  have e : UInt8.ofNat c.toNat = c := UInt8.ofNat_toNat
  have := first_disjoint c.toNat c.toNat_lt r.shape (Rule.shape_mem hr) r'.shape (Rule.shape_mem hany)
  rw [e] at this
  have k1 : r.shape = r := by cases r <;> first | rfl | cases hs
  rw [k1] at this
  have k2 := this hs h (by cases r' <;> exact h')
  cases r' <;> first | exact k2 | (rw [← k2] at hs; cases hs)

theorem best_solo {r : Rule} {c : UInt8} {s : Str} (hs : r.solo = true) (h : 0 < r.len (c :: s)) :
    best (c :: s) = (r, r.len (c :: s)) := by
  have hr : r ≠ .any := by rintro rfl; cases hs
  refine best_eq hr h fun r' hne hany => ?_
  rcases Nat.eq_zero_or_pos (r'.len (c :: s)) with h0 | h0
  · omega
  · exact absurd (solo_only hs (len_first h) (len_first h0) hany) hne

/-! ## Unfolding the scanner -/

theorem lexQ_length {v rest : Str} : ∀ {s acc : Str}, lexQ s acc = .done v rest → rest.length < s.length
  | [], _, h => by simp [lexQ] at h
  | c :: [], acc, h => by
    rw [lexQ] at h
    split at h
    · cases h; simp
    · split at h
      · cases h
      · simp [lexQ] at h
  | c :: d :: s, acc, h => by
    rw [lexQ] at h
    split at h
    · cases h; simp
    · split at h
      · split at h
        · have := lexQ_length h; simp; omega
        · cases h
      · have := lexQ_length h; simp at this ⊢; omega

theorem lexN_fuel : ∀ (n m : Nat) (s : Str), s.length ≤ n → s.length ≤ m → lexN n s = lexN m s
  | 0, 0, _, _, _ => rfl
  | 0, m + 1, [], _, _ => rfl
  | n + 1, 0, [], _, _ => rfl
  | n + 1, m + 1, [], _, _ => rfl
  | 0, _, _ :: _, h, _ => by simp at h
  | _ + 1, 0, _ :: _, _, h => by simp at h
  | n + 1, m + 1, c :: s, h1, h2 => by
    have hp := best_pos c s
    have hd : ((c :: s).drop (best (c :: s)).2).length ≤ n ∧
        ((c :: s).drop (best (c :: s)).2).length ≤ m := by
      simp only [List.length_drop, List.length_cons] at *; omega
    have hq : ∀ v rest, lexQ ((c :: s).drop (best (c :: s)).2) [] = .done v rest →
        lexN n rest = lexN m rest := fun v rest h => by
      have := lexQ_length h
      exact lexN_fuel n m rest (by omega) (by omega)
    have e := lexN_fuel n m _ hd.1 hd.2
    have e' := lexN_fuel n m s (by simp at h1; omega) (by simp at h2; omega)
    rw [lexN, lexN]
    cases (best (c :: s)).1 <;> dsimp only <;> try rw [e]
    · cases hl : lexQ ((c :: s).drop (best (c :: s)).2) [] with
      | done v rest => dsimp only; rw [hq v rest hl]
      | bad c => rfl
      | eof => rfl
    · rw [e']

theorem lexN_lex {n : Nat} {s : Str} (h : s.length ≤ n) : lexN n s = lex s :=
  lexN_fuel _ _ _ h (Nat.le_refl _)

theorem lex_nil : lex [] = [] := rfl

theorem drop_cons_le {c : UInt8} {s : Str} {l : Nat} (h : 0 < l) : ((c :: s).drop l).length ≤ s.length := by
  simp only [List.length_drop, List.length_cons]; omega

theorem lex_ws {c : UInt8} {s : Str} {l : Nat} (h : best (c :: s) = (.ws, l)) :
    lex (c :: s) = lex ((c :: s).drop l) := by
  have hp := best_pos c s
  rw [h] at hp
  rw [lex, List.length_cons, lexN]
  simp only [h]
  exact lexN_lex (drop_cons_le hp)

/-- The rules that give a token of their own. -/
def Rule.plain : Rule → Bool
  | .ws | .comment | .qmark | .any => false
  | _ => true

theorem lex_tok {c : UInt8} {s : Str} {r : Rule} {l : Nat} (h : best (c :: s) = (r, l))
    (hr : r.plain = true) : lex (c :: s) = r.tok ((c :: s).take l) :: lex ((c :: s).drop l) := by
  have hp := best_pos c s
  rw [h] at hp
  rw [lex, List.length_cons, lexN]
  simp only [h]
  rw [← lexN_lex (drop_cons_le hp)]
  cases r <;> first | rfl | cases hr

theorem lex_quote {s v rest : Str} (h : lexQ s [] = .done v rest) :
    lex (34 :: s) = .qstr v :: lex rest := by
  have hb : best (34 :: s) = (.qmark, 1) := by
    have : Rule.len (34 :: s) .qmark = 1 := by simp [Rule.len, textLen]
    rw [best_solo (r := .qmark) rfl (by rw [this]; omega), this]
  rw [lex, List.length_cons, lexN]
  simp only [hb, List.drop_succ_cons, List.drop_zero, h]
  rw [lexN_lex (Nat.le_of_lt (lexQ_length h))]

/-! ## Punctuation and white space -/

theorem lex_lpar (s : Str) : lex (40 :: s) = .lpar :: lex s := by
  have h : Rule.len (40 :: s) .lpar = 1 := by simp [Rule.len, textLen]
  rw [lex_tok (best_solo (r := .lpar) rfl (by rw [h]; omega)) rfl, h]; rfl

theorem lex_rpar (s : Str) : lex (41 :: s) = .rpar :: lex s := by
  have h : Rule.len (41 :: s) .rpar = 1 := by simp [Rule.len, textLen]
  rw [lex_tok (best_solo (r := .rpar) rfl (by rw [h]; omega)) rfl, h]; rfl

theorem lex_equals (s : Str) : lex (61 :: s) = .equals :: lex s := by
  have h : Rule.len (61 :: s) .equals = 1 := by simp [Rule.len, textLen]
  rw [lex_tok (best_solo (r := .equals) rfl (by rw [h]; omega)) rfl, h]; rfl

theorem lex_dcaret (s : Str) : lex (94 :: 94 :: s) = .dcaret :: lex s := by
  have h : Rule.len (94 :: 94 :: s) .dcaret = 2 := by simp [Rule.len, textLen]
  rw [lex_tok (best_solo (r := .dcaret) rfl (by rw [h]; omega)) rfl, h]; rfl

theorem drop_takeWhile (p : UInt8 → Bool) : ∀ s : Str, s.drop (s.takeWhile p).length = s.dropWhile p
  | [] => rfl
  | c :: s => by
    by_cases h : p c
    · rw [List.takeWhile_cons_of_pos h, List.dropWhile_cons_of_pos h]
      simpa using drop_takeWhile p s
    · rw [List.takeWhile_cons_of_neg h, List.dropWhile_cons_of_neg h]; rfl

theorem lex_dropWs (s : Str) : lex s = lex (s.dropWhile isWs) := by
  cases s with
  | nil => rfl
  | cons c s =>
    by_cases h : isWs c
    · have hp : 0 < Rule.len (c :: s) .ws := by simp [Rule.len, List.takeWhile_cons_of_pos h]
      rw [lex_ws (best_solo (r := .ws) rfl hp)]
      simp only [Rule.len]
      rw [drop_takeWhile]
    · rw [List.dropWhile_cons_of_neg h]

theorem lex_white {c : UInt8} (h : isWs c = true) (s : Str) : lex (c :: s) = lex s := by
  rw [lex_dropWs (c :: s), List.dropWhile_cons_of_pos h, ← lex_dropWs]

theorem lex_space (s : Str) : lex (32 :: s) = lex s := lex_white rfl s
theorem lex_newline (s : Str) : lex (10 :: s) = lex s := lex_white rfl s

/-! ## Keywords -/

theorem prefix_before {w k : Str} {c : UInt8} {s : Str} (hw : c ∉ w) :
    w <+: k ++ c :: s → w <+: k := by
  induction w generalizing k with
  | nil => exact fun _ => List.nil_prefix
  | cons x w ih =>
    intro h
    cases k with
    | nil =>
      obtain ⟨t, ht⟩ := h
      simp at ht
      exact absurd (by rw [ht.1]; simp) hw
    | cons y k =>
      rw [List.cons_append, List.cons_prefix_cons] at h
      rw [List.cons_prefix_cons]
      exact ⟨h.1, ih (fun hc => hw (by simp [hc])) h.2⟩

theorem kw_no_paren : ∀ k ∈ Kw.all, (40 : UInt8) ∉ k.text := by decide +kernel
theorem kw_distinct : ∀ k ∈ Kw.all, ∀ k' ∈ Kw.all, k'.text.isPrefixOf k.text = true → k' ≠ k →
    k'.text.length < k.text.length := by decide +kernel
theorem kw_name : ∀ k ∈ Kw.all, k.text.all isPnDot = true := by decide +kernel

theorem takeWhile_stop {p : UInt8 → Bool} {w : Str} {c : UInt8} {s : Str} (hw : ∀ x ∈ w, p x = true)
    (hc : p c = false) : (w ++ c :: s).takeWhile p = w := by
  rw [List.takeWhile_append_of_pos hw, List.takeWhile_cons_of_neg (by simp [hc])]; simp

theorem drop_left (w s : Str) : (w ++ s).drop w.length = s := by simp

theorem take_left (w s : Str) : (w ++ s).take w.length = w := by simp

theorem lex_kw (k : Kw) (s : Str) : lex (k.text ++ 40 :: s) = .kw k :: .lpar :: lex s := by
  have hl : Rule.len (k.text ++ 40 :: s) (.kw k) = k.text.length := by
    simp [Rule.len, textLen]
  have hpn : pnameNsLen (k.text ++ 40 :: s) = 0 := by
    have h := kw_name k k.mem_all
    rw [List.all_eq_true] at h
    unfold pnameNsLen
    rw [takeWhile_stop h (by decide)]
    dsimp only
    rw [drop_left, if_neg (by simp)]
  obtain ⟨x, w, e, h1, h2⟩ := k.text_first
  have hpos : 0 < k.text.length := by rw [e]; simp
  have hb : best (k.text ++ 40 :: s) = (.kw k, k.text.length) := by
    rw [← hl]
    refine best_eq (by simp) (by omega) fun r' hne hany => ?_
    rw [hl]
    rcases Nat.eq_zero_or_pos (r'.len (k.text ++ 40 :: s)) with h0 | h0
    · omega
    · cases r' with
      | kw k' =>
        simp only [Rule.len] at h0 ⊢
        have hp := prefix_before (kw_no_paren k' k'.mem_all) (textLen_pos h0)
        have := kw_distinct k k.mem_all k' k'.mem_all (List.isPrefixOf_iff_prefix.2 hp)
          (fun e => hne (by rw [e]))
        unfold textLen at h0 ⊢
        split at h0
        · rename_i h3; rw [if_pos h3]; exact this
        · omega
      | pnameNs => simp only [Rule.len] at h0; omega
      | pnameLn => simp only [Rule.len, pnameLnLen, hpn] at h0; simp at h0
      | any => exact absurd rfl hany
      | _ =>
        rw [e, List.cons_append] at h0
        have h3 := len_first h0
        have h4 : Rule.first x (.kw .class_) = true := by simp [Rule.first, h1, h2]
        exact absurd (solo_only rfl h3 h4 (by simp)) (by simp)
  rw [e, List.cons_append] at hb ⊢
  rw [lex_tok hb rfl, ← List.cons_append, take_left, drop_left, lex_lpar]
  rfl

/-! ## IRI references -/

theorem iriRefLen_eq {w s : Str} (hw : ∀ c ∈ w, isIriChar c = true) :
    iriRefLen (60 :: (w ++ 62 :: s)) = w.length + 2 := by
  simp only [iriRefLen]
  rw [takeWhile_stop hw (by decide), drop_left]
  simp

theorem lex_iriRef {w : Str} (hw : ∀ c ∈ w, isIriChar c = true) (s : Str) :
    lex (60 :: (w ++ 62 :: s)) = .iriRef w :: lex s := by
  have h : Rule.len (60 :: (w ++ 62 :: s)) .iriRef = w.length + 2 := iriRefLen_eq hw
  rw [lex_tok (best_solo (r := .iriRef) rfl (by rw [h]; omega)) rfl, h]
  have e : 60 :: (w ++ 62 :: s) = (60 :: (w ++ [62])) ++ s := by simp
  have hl : (60 :: (w ++ [62])).length = w.length + 2 := by simp
  rw [e, ← hl, take_left, drop_left]
  simp [Rule.tok]

/-! ## Names -/

/-- What can follow a name, a number or a language tag in written text. -/
def Delim (s : Str) : Prop := ∃ c t, s = c :: t ∧ (c = 32 ∨ c = 41 ∨ c = 10)

theorem Delim.space (s : Str) : Delim (32 :: s) := ⟨_, _, rfl, Or.inl rfl⟩
theorem Delim.rpar (s : Str) : Delim (41 :: s) := ⟨_, _, rfl, Or.inr (Or.inl rfl)⟩
theorem Delim.newline (s : Str) : Delim (10 :: s) := ⟨_, _, rfl, Or.inr (Or.inr rfl)⟩

theorem Delim.stop {s : Str} (h : Delim s) {p : UInt8 → Bool} (h1 : p 32 = false) (h2 : p 41 = false)
    (h3 : p 10 = false) {w : Str} (hw : ∀ x ∈ w, p x = true) : (w ++ s).takeWhile p = w := by
  obtain ⟨c, t, rfl, hc⟩ := h
  apply takeWhile_stop hw
  rcases hc with rfl | rfl | rfl <;> assumption

/-- A name the lexer takes as a local part. -/
def LocalName (w : Str) : Prop :=
  (∃ c t, w = c :: t ∧ (isU c || isDig c) = true) ∧ (∀ c ∈ w, isPnDot c = true) ∧ w.getLast? ≠ some 46

/-- A name the lexer takes as a prefix. -/
def PrefixName (p : Str) : Prop :=
  (∀ c ∈ p, isPnDot c = true) ∧ prefixOk p = true

theorem trimDots_id {w : Str} (h : w.getLast? ≠ some 46) : trimDots w = w := by
  unfold trimDots
  cases hr : w.reverse with
  | nil => simp at hr; subst hr; rfl
  | cons x t =>
    have : w.getLast? = some x := by rw [← List.head?_reverse, hr]; rfl
    rw [List.dropWhile_cons_of_neg, ← hr, List.reverse_reverse]
    intro hx
    apply h
    rw [this]; simpa using hx

theorem pnLocalLen_eq {w s : Str} (hw : LocalName w) (hs : Delim s) : pnLocalLen (w ++ s) = w.length := by
  obtain ⟨⟨c, t, e, hc⟩, ha, hl⟩ := hw
  have h1 := hs.stop (p := isPnDot) rfl rfl rfl ha
  subst e
  rw [List.cons_append] at h1 ⊢
  simp only [pnLocalLen, hc, if_true, h1, trimDots_id hl]

theorem pnameNsLen_eq {p s : Str} (hp : PrefixName p) : pnameNsLen (p ++ 58 :: s) = p.length + 1 := by
  unfold pnameNsLen
  rw [takeWhile_stop hp.1 (by decide)]
  dsimp only
  rw [drop_left, if_pos ⟨rfl, hp.2⟩]

theorem prefix_first {p s : Str} (hp : PrefixName p) : ∃ c t, p ++ 58 :: s = c :: t ∧
    (isBase c || c == 58) = true := by
  cases p with
  | nil => exact ⟨_, _, rfl, rfl⟩
  | cons c t =>
    have := hp.2
    simp only [prefixOk, Bool.and_eq_true] at this
    exact ⟨c, t ++ 58 :: s, rfl, by rw [this.1]; rfl⟩

theorem kw_no_colon : ∀ k ∈ Kw.all, (58 : UInt8) ∉ k.text := by decide +kernel

/-- A rule other than the two for prefixed names is shorter than the prefix and colon. -/
theorem pname_others {p s : Str} (hp : PrefixName p) {r : Rule} (h1 : r ≠ .pnameNs)
    (h2 : r ≠ .pnameLn) (h3 : r ≠ .any) : r.len (p ++ 58 :: s) < p.length + 1 := by
  rcases Nat.eq_zero_or_pos (r.len (p ++ 58 :: s)) with h0 | h0
  · omega
  · cases r with
    | kw k =>
      simp only [Rule.len] at h0 ⊢
      have := (prefix_before (kw_no_colon k k.mem_all) (textLen_pos h0)).length_le
      unfold textLen; split <;> omega
    | pnameNs => exact absurd rfl h1
    | pnameLn => exact absurd rfl h2
    | any => exact absurd rfl h3
    | _ =>
      obtain ⟨c, t, e, hc⟩ := prefix_first (s := s) hp
      rw [e] at h0
      exact absurd (solo_only rfl (len_first h0) (r' := .pnameNs) hc (by simp)) (by simp)

theorem lex_pnameNs {p s : Str} (hp : PrefixName p) (h0 : pnLocalLen s = 0) :
    lex (p ++ 58 :: s) = .pnameNs p :: lex s := by
  have hl : Rule.len (p ++ 58 :: s) .pnameNs = p.length + 1 := pnameNsLen_eq hp
  have e1 : p ++ 58 :: s = (p ++ [58]) ++ s := by simp
  have e2 : (p ++ [58]).length = p.length + 1 := by simp
  have hb : best (p ++ 58 :: s) = (.pnameNs, p.length + 1) := by
    rw [← hl]
    refine best_eq (by simp) (by omega) fun r' hne hany => ?_
    rw [hl]
    by_cases hr : r' = .pnameLn
    · subst hr
      simp only [Rule.len, pnameLnLen, pnameNsLen_eq hp]
      rw [e1, ← e2, drop_left, h0]
      simp
    · exact pname_others hp hne hr hany
  obtain ⟨c, t, e, hc⟩ := prefix_first (s := s) hp
  rw [e] at hb ⊢
  rw [lex_tok hb rfl, ← e, e1, ← e2, take_left, drop_left]
  simp [Rule.tok]

theorem lex_pnameLn {p w s : Str} (hp : PrefixName p) (hw : LocalName w) (hs : Delim s) :
    lex (p ++ 58 :: (w ++ s)) = .pnameLn (p ++ 58 :: w) :: lex s := by
  have hpos : 0 < w.length := by obtain ⟨⟨c, t, e, _⟩, _⟩ := hw; rw [e]; simp
  have e1 : p ++ 58 :: (w ++ s) = (p ++ [58]) ++ (w ++ s) := by simp
  have e2 : (p ++ [58]).length = p.length + 1 := by simp
  have hl : Rule.len (p ++ 58 :: (w ++ s)) .pnameLn = p.length + 1 + w.length := by
    simp only [Rule.len, pnameLnLen, pnameNsLen_eq hp]
    rw [e1, ← e2, drop_left, pnLocalLen_eq hw hs, if_neg (by omega)]
  have hb : best (p ++ 58 :: (w ++ s)) = (.pnameLn, p.length + 1 + w.length) := by
    rw [← hl]
    refine best_eq (by simp) (by omega) fun r' hne hany => ?_
    rw [hl]
    by_cases hr : r' = .pnameNs
    · subst hr
      have : Rule.len (p ++ 58 :: (w ++ s)) .pnameNs = p.length + 1 := pnameNsLen_eq hp
      omega
    · have := pname_others (s := w ++ s) hp hr hne hany
      omega
  obtain ⟨c, t, e, hc⟩ := prefix_first (s := w ++ s) hp
  have e3 : p ++ 58 :: (w ++ s) = (p ++ 58 :: w) ++ s := by simp
  have e4 : (p ++ 58 :: w).length = p.length + 1 + w.length := by simp; omega
  rw [e] at hb ⊢
  rw [lex_tok hb rfl, ← e, e3, ← e4, take_left, drop_left]
  rfl

theorem lex_blank {w s : Str} (hw : LocalName w) (hs : Delim s) :
    lex (95 :: 58 :: (w ++ s)) = .blank w :: lex s := by
  have hpos : 0 < w.length := by obtain ⟨⟨c, t, e, _⟩, _⟩ := hw; rw [e]; simp
  have h : Rule.len (95 :: 58 :: (w ++ s)) .blank = w.length + 2 := by
    simp only [Rule.len, blankLen, pnLocalLen_eq hw hs]
    rw [if_neg (by omega)]
  rw [lex_tok (best_solo (r := .blank) rfl (by rw [h]; omega)) rfl, h]
  have e : 95 :: 58 :: (w ++ s) = (95 :: 58 :: w) ++ s := by simp
  have hl : (95 :: 58 :: w).length = w.length + 2 := by simp
  rw [e, ← hl, take_left, drop_left]
  simp [Rule.tok]

/-! ## Numbers -/

theorem isDig_iff (c : UInt8) : isDig c = true ↔ IsDigit c := by
  simp only [isDig, Bool.and_eq_true, decide_eq_true_eq, UInt8.le_iff_toNat_le, IsDigit]
  exact Iff.rfl

theorem lex_nat (n : UInt32) {s : Str} (hs : Delim s) : lex (uintToStr n ++ s) = .nat n :: lex s := by
  obtain ⟨hne, hd, _⟩ := C28_write n
  have hd' : ∀ c ∈ uintToStr n, isDig c = true := fun c hc => (isDig_iff c).2 (hd c hc)
  have hl : Rule.len (uintToStr n ++ s) .nat = (uintToStr n).length := by
    simp only [Rule.len]; rw [hs.stop rfl rfl rfl hd']
  have hrt := C28_round_trip n
  generalize uintToStr n = w at *
  cases w with
  | nil => exact absurd rfl hne
  | cons c t =>
    rw [List.cons_append] at hl ⊢
    rw [lex_tok (best_solo (r := .nat) rfl (by rw [hl]; simp)) rfl, hl, ← List.cons_append,
      take_left, drop_left, Rule.tok, hrt]

/-! ## Language tags -/

/-- Groups of a language tag after the first. -/
inductive LangTail : Str → Prop where
  | nil : LangTail []
  | cons {a t : Str} (h : a ≠ []) (ha : ∀ c ∈ a, isAlnum c = true) (ht : LangTail t) :
      LangTail (45 :: (a ++ t))

/-- Language tags the lexer recognises. -/
def LangTag (l : Str) : Prop :=
  ∃ a t, l = a ++ t ∧ a ≠ [] ∧ (∀ c ∈ a, isAlpha c = true) ∧ LangTail t

theorem LangTail.stop {t s : Str} (h : LangTail t) (hs : Delim s) {p : UInt8 → Bool} (h1 : p 32 = false)
    (h2 : p 41 = false) (h3 : p 10 = false) (h4 : p 45 = false) {w : Str} (hw : ∀ x ∈ w, p x = true) :
    (w ++ (t ++ s)).takeWhile p = w := by
  cases h with
  | nil => exact hs.stop h1 h2 h3 hw
  | cons => exact takeWhile_stop hw h4

theorem langTailLen_eq {t s : Str} (h : LangTail t) (hs : Delim s) : ∀ n, t.length ≤ n →
    langTailLen n (t ++ s) = t.length := by
  induction h with
  | nil =>
    intro n _
    obtain ⟨c, u, rfl, hc⟩ := hs
    cases n with
    | zero => rfl
    | succ n => rcases hc with rfl | rfl | rfl <;> rfl
  | @cons a t hne ha ht ih =>
    intro n hn
    cases n with
    | zero => simp at hn
    | succ n =>
      have hpos : 0 < a.length := List.length_pos_iff.2 hne
      rw [List.cons_append, langTailLen, List.append_assoc,
        ht.stop hs rfl rfl rfl rfl ha, drop_left]
      rw [if_neg (by omega), ih n (by simp at hn; omega)]
      simp; omega

theorem lex_lang {l s : Str} (hl : LangTag l) (hs : Delim s) : lex (64 :: (l ++ s)) = .lang l :: lex s := by
  obtain ⟨a, t, rfl, hne, ha, ht⟩ := hl
  have hpos : 0 < a.length := List.length_pos_iff.2 hne
  have h : Rule.len (64 :: (a ++ t ++ s)) .lang = (a ++ t).length + 1 := by
    simp only [Rule.len, langLen]
    rw [List.append_assoc, ht.stop hs rfl rfl rfl rfl ha, drop_left, if_neg (by omega),
      langTailLen_eq ht hs _ (by simp; omega)]
    simp; omega
  rw [lex_tok (best_solo (r := .lang) rfl (by rw [h]; omega)) rfl, h]
  have e : 64 :: (a ++ t ++ s) = (64 :: (a ++ t)) ++ s := by simp
  have hl : (64 :: (a ++ t)).length = (a ++ t).length + 1 := by simp
  rw [e, ← hl, take_left, drop_left]
  simp [Rule.tok]

end Cowl.Func
