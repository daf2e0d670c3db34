import Verif.FuncLexLemmas
/-! # Lemmas: the tokens of a text that was cut short -/
namespace Cowl.Func

theorem head?_app {α : Type} {a b : List α} (h : a ≠ []) : (a ++ b).head? = a.head? := by
  cases a with
  | nil => exact absurd rfl h
  | cons _ _ => rfl

/-! ## Longest matches -/

theorem takeWhile_cases (p : UInt8 → Bool) : ∀ (t u : Str),
    ((∀ x ∈ t, p x = true) ∧ (t ++ u).takeWhile p = t ++ u.takeWhile p ∧ t.takeWhile p = t) ∨
    ((t ++ u).takeWhile p = t.takeWhile p ∧ (t.takeWhile p).length < t.length)
  | [], _ => Or.inl ⟨nofun, rfl, rfl⟩
  | c :: t, u => by
    by_cases hc : p c = true
    · rw [List.cons_append, List.takeWhile_cons_of_pos hc, List.takeWhile_cons_of_pos hc]
      rcases takeWhile_cases p t u with ⟨h1, h2, h3⟩ | ⟨h1, h2⟩
      · refine Or.inl ⟨fun x hx => ?_, by rw [h2]; rfl, by rw [h3]⟩
        rcases List.mem_cons.1 hx with rfl | hx
        · exact hc
        · exact h1 x hx
      · exact Or.inr ⟨by rw [h1], by simpa using h2⟩
    · rw [List.cons_append, List.takeWhile_cons_of_neg hc, List.takeWhile_cons_of_neg hc]
      exact Or.inr ⟨rfl, by simp⟩

/-- What follows the match of a pattern does not matter, unless it makes the match longer
than the text that it follows. -/
def Cuts (f : Str → Nat) : Prop := ∀ t u, f (t ++ u) = f t ∨ t.length < f (t ++ u)

theorem cuts_takeWhile (p : UInt8 → Bool) : Cuts fun s => (s.takeWhile p).length := fun t u => by
  dsimp only
  rcases takeWhile_cases p t u with ⟨-, h2, h3⟩ | ⟨h1, -⟩
  · rw [h2, h3, List.length_append]
    omega
  · rw [h1]; exact Or.inl rfl

theorem cuts_text (w : Str) : Cuts (textLen w) := fun t u => by
  unfold textLen
  by_cases h : w.isPrefixOf t = true
  · have : w.isPrefixOf (t ++ u) = true := by
      rw [List.isPrefixOf_iff_prefix] at h ⊢
      exact h.trans (List.prefix_append _ _)
    rw [if_pos h, if_pos this]
    exact Or.inl rfl
  · rw [if_neg h]
    by_cases h' : w.isPrefixOf (t ++ u) = true
    · rw [if_pos h']
      refine Or.inr (Nat.lt_of_not_le fun hl => h ?_)
      rw [List.isPrefixOf_iff_prefix] at h' ⊢
      exact List.prefix_of_prefix_length_le h' (List.prefix_append _ _) hl
    · rw [if_neg h']
      exact Or.inl rfl

theorem trimDots_append (t w : Str) : trimDots (t ++ w) = trimDots t ∨ t.length < (trimDots (t ++ w)).length := by
  unfold trimDots
  rw [List.reverse_append, List.dropWhile_append]
  cases h : List.dropWhile (fun x => x == 46) w.reverse with
  | nil => exact Or.inl rfl
  | cons c l =>
    refine Or.inr ?_
    simp

theorem trimDots_len (t : Str) : (trimDots t).length ≤ t.length := by
  unfold trimDots
  have := (List.dropWhile_sublist (fun x => x == 46) (l := t.reverse)).length_le
  simpa using this

theorem cuts_local : Cuts pnLocalLen := fun t u => by
  cases t with
  | nil =>
    rcases Nat.eq_zero_or_pos (pnLocalLen ([] ++ u)) with h | h
    · exact Or.inl h
    · exact Or.inr h
  | cons c t =>
    show (if isU c || isDig c then (trimDots ((c :: t ++ u).takeWhile isPnDot)).length else 0) =
      (if isU c || isDig c then (trimDots ((c :: t).takeWhile isPnDot)).length else 0) ∨
      _ < (if isU c || isDig c then (trimDots ((c :: t ++ u).takeWhile isPnDot)).length else 0)
    split
    · rcases takeWhile_cases isPnDot (c :: t) u with ⟨-, h2, h3⟩ | ⟨h1, -⟩
      · rw [h2, h3]
        rcases trimDots_append (c :: t) (u.takeWhile isPnDot) with h | h
        · rw [h]; exact Or.inl rfl
        · exact Or.inr h
      · rw [h1]; exact Or.inl rfl
    · exact Or.inl rfl

theorem cuts_ns (t u : Str) : pnameNsLen (t ++ u) = pnameNsLen t ∨ t.length < pnameNsLen (t ++ u) ∧ pnameNsLen t = 0 := by
  unfold pnameNsLen
  dsimp only
  rcases takeWhile_cases isPnDot t u with ⟨-, h2, h3⟩ | ⟨h1, h2⟩
  · rw [h2, h3]
    have h0 : ¬ ((t.drop t.length).head? = some 58 ∧ prefixOk t = true) := by simp
    rw [if_neg h0, List.length_append]
    split
    · exact Or.inr ⟨by omega, rfl⟩
    · exact Or.inl rfl
  · have hd : ((t ++ u).drop (t.takeWhile isPnDot).length).head? = (t.drop (t.takeWhile isPnDot).length).head? := by
      rw [List.drop_append_of_le_length (by omega), head?_app]
      intro e
      rw [List.drop_eq_nil_iff] at e
      omega
    rw [h1, hd]
    exact Or.inl rfl

theorem ns_len (t : Str) : pnameNsLen t ≤ t.length := by
  unfold pnameNsLen
  dsimp only
  split
  · rename_i h
    have hl : (t.takeWhile isPnDot).length < t.length := by
      apply Nat.lt_of_not_le
      intro hl
      have := List.drop_eq_nil_iff.2 hl
      rw [this] at h
      exact nomatch h.1
    omega
  · omega

theorem cuts_ln : Cuts pnameLnLen := fun t u => by
  unfold pnameLnLen
  dsimp only
  rcases cuts_ns t u with h | ⟨h, h0⟩
  · rw [h]
    by_cases hn : pnameNsLen t = 0
    · simp [hn]
    · have hl := ns_len t
      rw [List.drop_append_of_le_length hl]
      rcases cuts_local (t.drop (pnameNsLen t)) u with h' | h'
      · rw [h']; exact Or.inl rfl
      · refine Or.inr ?_
        rw [if_neg (by omega)]
        simp only [List.length_drop] at h'
        omega
  · rw [if_pos (c := pnameNsLen t = 0 ∨ _) (Or.inl h0)]
    split
    · exact Or.inl rfl
    · exact Or.inr (by omega)

theorem iriRefLen_cons (c : UInt8) (t : Str) : iriRefLen (c :: t) =
    if c = 60 then (if (t.drop (t.takeWhile isIriChar).length).head? = some 62 then (t.takeWhile isIriChar).length + 2 else 0) else 0 := by
  by_cases h : c = 60
  · subst h; rw [if_pos rfl]; rfl
  · rw [if_neg h]
    unfold iriRefLen
    split
    · rename_i e; exact absurd (List.cons.inj e).1 h
    · rfl

/-- Nothing precedes: any length will do. -/
theorem cuts_nil {f : Str → Nat} (u : Str) (h : f [] = 0) : f ([] ++ u) = f [] ∨ ([] : Str).length < f ([] ++ u) := by
  rw [h]
  simp
  omega

theorem cuts_iri : Cuts iriRefLen := fun t u => by
  cases t with
  | nil => exact cuts_nil u rfl
  | cons c t =>
    rw [List.cons_append, iriRefLen_cons, iriRefLen_cons]
    split
    · rcases takeWhile_cases isIriChar t u with ⟨-, h2, h3⟩ | ⟨h1, h2⟩
      · rw [h2, h3]
        have h0 : ¬ (t.drop t.length).head? = some 62 := by simp
        rw [if_neg h0]
        split
        · refine Or.inr ?_
          simp
          omega
        · exact Or.inl rfl
      · have hd : ((t ++ u).drop (t.takeWhile isIriChar).length).head? = (t.drop (t.takeWhile isIriChar).length).head? := by
          rw [List.drop_append_of_le_length (by omega), head?_app]
          intro e
          rw [List.drop_eq_nil_iff] at e
          omega
        rw [h1, hd]
        exact Or.inl rfl
    · exact Or.inl rfl

theorem blankLen_cons (c d : UInt8) (t : Str) : blankLen (c :: d :: t) =
    if c = 95 ∧ d = 58 then (if pnLocalLen t = 0 then 0 else pnLocalLen t + 2) else 0 := by
  by_cases h : c = 95 ∧ d = 58
  · obtain ⟨rfl, rfl⟩ := h; rw [if_pos ⟨rfl, rfl⟩]; rfl
  · rw [if_neg h]
    unfold blankLen
    split
    · rename_i e
      obtain ⟨e1, e2⟩ := List.cons.inj e
      exact absurd ⟨e1, (List.cons.inj e2).1⟩ h
    · rfl

theorem cuts_blank : Cuts blankLen := fun t u => by
  match t with
  | [] => exact cuts_nil u rfl
  | [c] =>
    have h0 : blankLen [c] = 0 := by unfold blankLen; split <;> first | rfl | (rename_i e; cases e)
    rw [h0]
    cases u with
    | nil => exact Or.inl h0
    | cons d u =>
      show blankLen (c :: d :: u) = 0 ∨ 1 < blankLen (c :: d :: u)
      rw [blankLen_cons]
      split
      · split
        · exact Or.inl rfl
        · exact Or.inr (by omega)
      · exact Or.inl rfl
  | c :: d :: t =>
    rw [List.cons_append, List.cons_append, blankLen_cons, blankLen_cons]
    split
    · rcases cuts_local t u with h | h
      · rw [h]; exact Or.inl rfl
      · refine Or.inr ?_
        rw [if_neg (by omega)]
        simp
        omega
    · exact Or.inl rfl

theorem langTail_cons (n : Nat) (c : UInt8) (t : Str) : langTailLen (n + 1) (c :: t) =
    if c = 45 then (if (t.takeWhile isAlnum).length = 0 then 0 else
      1 + (t.takeWhile isAlnum).length + langTailLen n (t.drop (t.takeWhile isAlnum).length)) else 0 := by
  by_cases h : c = 45
  · subst h; rw [if_pos rfl]; rfl
  · rw [if_neg h]
    unfold langTailLen
    split
    · rename_i e; exact absurd (List.cons.inj e).1 h
    · rfl

theorem langTail_nil (n : Nat) : langTailLen n [] = 0 := by cases n <;> rfl

theorem cuts_tail : ∀ (n n' : Nat) (t u : Str), t.length ≤ n → (t ++ u).length ≤ n' →
    langTailLen n' (t ++ u) = langTailLen n t ∨ t.length < langTailLen n' (t ++ u)
  | n, n', [], u, _, _ => by rw [langTail_nil]; simp; omega
  | 0, _, c :: t, u, h, _ => by simp at h
  | n + 1, 0, c :: t, u, _, h => by simp at h
  | n + 1, n' + 1, c :: t, u, h, h' => by
    rw [List.cons_append, langTail_cons, langTail_cons]
    split
    · rcases takeWhile_cases isAlnum t u with ⟨-, h2, h3⟩ | ⟨h1, h2⟩
      · rw [h2, h3]
        cases hu : u.takeWhile isAlnum with
        | nil =>
          rw [List.append_nil, List.drop_length, langTail_nil, List.drop_left]
          split
          · exact Or.inl rfl
          · simp only [List.length_cons]
            omega
        | cons d w =>
          refine Or.inr ?_
          rw [if_neg (by simp)]
          simp
          omega
      · rw [h1]
        split
        · exact Or.inl rfl
        · rw [List.drop_append_of_le_length (by omega)]
          simp only [List.length_cons, List.length_append] at h h'
          rcases cuts_tail n n' (t.drop (t.takeWhile isAlnum).length) u (by simp; omega) (by simp; omega) with e | e
          · rw [e]; exact Or.inl rfl
          · refine Or.inr ?_
            simp only [List.length_drop, List.length_cons] at e ⊢
            omega
    · exact Or.inl rfl

theorem langLen_cons (c : UInt8) (t : Str) : langLen (c :: t) =
    if c = 64 then (if (t.takeWhile isAlpha).length = 0 then 0 else
      1 + (t.takeWhile isAlpha).length + langTailLen t.length (t.drop (t.takeWhile isAlpha).length)) else 0 := by
  by_cases h : c = 64
  · subst h; rw [if_pos rfl]; rfl
  · rw [if_neg h]
    unfold langLen
    split
    · rename_i e; exact absurd (List.cons.inj e).1 h
    · rfl

theorem cuts_lang : Cuts langLen := fun t u => by
  cases t with
  | nil => exact cuts_nil u rfl
  | cons c t =>
    rw [List.cons_append, langLen_cons, langLen_cons]
    split
    · rcases takeWhile_cases isAlpha t u with ⟨-, h2, h3⟩ | ⟨h1, h2⟩
      · rw [h2, h3]
        cases hu : u.takeWhile isAlpha with
        | nil =>
          rw [List.append_nil, List.drop_length, langTail_nil, List.drop_left]
          split
          · exact Or.inl rfl
          · simp only [List.length_cons]
            omega
        | cons d w =>
          refine Or.inr ?_
          rw [if_neg (by simp)]
          simp
          omega
      · rw [h1]
        split
        · exact Or.inl rfl
        · rw [List.drop_append_of_le_length (by omega)]
          rcases cuts_tail t.length (t ++ u).length (t.drop (t.takeWhile isAlpha).length) u (by simp) (by simp) with e | e
          · rw [e]; exact Or.inl rfl
          · refine Or.inr ?_
            simp only [List.length_drop, List.length_cons] at e ⊢
            omega
    · exact Or.inl rfl

theorem commentLen_cons (c : UInt8) (t : Str) : Rule.len (c :: t) .comment =
    if c = 35 then (t.takeWhile (· != 10)).length + 1 else 0 := by
  by_cases h : c = 35
  · subst h; rw [if_pos rfl]; rfl
  · rw [if_neg h]
    simp only [Rule.len]
    split
    · rename_i e; exact absurd (List.cons.inj e).1 h
    · rfl

theorem cuts_rule (r : Rule) : Cuts fun s => r.len s := by
  cases r with
  | ws => exact cuts_takeWhile _
  | kw k => exact cuts_text _
  | nat => exact cuts_takeWhile _
  | iriRef => exact cuts_iri
  | pnameNs => exact fun t u => (cuts_ns t u).imp id And.left
  | pnameLn => exact cuts_ln
  | blank => exact cuts_blank
  | lang => exact cuts_lang
  | qmark => exact cuts_text _
  | dcaret => exact cuts_text _
  | lpar => exact cuts_text _
  | rpar => exact cuts_text _
  | equals => exact cuts_text _
  | comment =>
    intro t u
    cases t with
    | nil => exact cuts_nil (f := fun s => Rule.len s .comment) u rfl
    | cons c t =>
      show Rule.len (c :: (t ++ u)) .comment = Rule.len (c :: t) .comment ∨ t.length + 1 < Rule.len (c :: (t ++ u)) .comment
      rw [commentLen_cons, commentLen_cons]
      split
      · rcases cuts_takeWhile (· != 10) t u with h | h
        · exact Or.inl (congrArg (· + 1) h)
        · exact Or.inr (Nat.succ_lt_succ h)
      · exact Or.inl rfl
  | any =>
    intro t u
    cases t with
    | nil => exact cuts_nil (f := fun s => Rule.len s .any) u rfl
    | cons c t => exact Or.inl rfl

theorem foldl_better_congr {s s' : Str} : ∀ (l : List Rule) (b : Rule × Nat), (∀ r ∈ l, r.len s' = r.len s) →
    l.foldl (better s') b = l.foldl (better s) b
  | [], _, _ => rfl
  | r :: l, b, h => by
    have e : better s' b r = better s b r := by unfold better; rw [h r List.mem_cons_self]
    rw [List.foldl_cons, List.foldl_cons, e]
    exact foldl_better_congr l _ fun r hr => h r (List.mem_cons_of_mem _ hr)

/-- A match within the text is the same for the text alone. -/
theorem best_cut {t u : Str} (h : (best (t ++ u)).2 ≤ t.length) : best t = best (t ++ u) := by
  refine (foldl_better_congr Rule.all (.any, 0) fun r hr => ?_).symm
  have := (foldl_better_le (t ++ u) Rule.all (.any, 0)).2 r hr
  rcases cuts_rule r t u with e | e
  · exact e
  · have e : t.length < r.len (t ++ u) := e
    have h : (Rule.all.foldl (better (t ++ u)) (.any, 0)).2 ≤ t.length := h
    omega

theorem foldl_better_len (s : Str) : ∀ (l : List Rule) (b : Rule × Nat), b.2 = 0 ∨ b.2 = b.1.len s →
    (l.foldl (better s) b).2 = 0 ∨ (l.foldl (better s) b).2 = (l.foldl (better s) b).1.len s
  | [], _, h => h
  | r :: l, b, h => by
    rw [List.foldl_cons]
    refine foldl_better_len s l _ ?_
    unfold better
    split
    · exact Or.inr rfl
    · exact h

theorem best_len (c : UInt8) (s : Str) : (best (c :: s)).2 = (best (c :: s)).1.len (c :: s) := by
  rcases foldl_better_len (c :: s) Rule.all (.any, 0) (Or.inl rfl) with h | h
  · have := best_pos c s
    have h : (best (c :: s)).2 = 0 := h
    omega
  · exact h

/-! ## Characters of matches -/

theorem take_takeWhile (p : UInt8 → Bool) (s : Str) : s.take (s.takeWhile p).length = s.takeWhile p := by
  conv => lhs; arg 2; rw [← List.takeWhile_append_dropWhile (p := p) (l := s)]
  rw [List.take_left]

theorem mem_take_takeWhile {p : UInt8 → Bool} {s : Str} {x : UInt8} (h : x ∈ s.take (s.takeWhile p).length) : p x = true := by
  rw [take_takeWhile] at h
  exact List.all_eq_true.1 List.all_takeWhile x h

theorem mem_take_le {s : Str} {x : UInt8} {n k : Nat} (h : x ∈ s.take n) (hk : n ≤ k) : x ∈ s.take k :=
  (List.take_prefix_take_left hk).subset h

/-- Rules whose matches have no parenthesis to close. -/
def Rule.word : Rule → Bool
  | .kw _ | .nat | .pnameNs | .pnameLn | .blank | .lang => true
  | _ => false

theorem local_word {s : Str} {x : UInt8} (h : x ∈ s.take (pnLocalLen s)) : isPnDot x = true := by
  unfold pnLocalLen at h
  split at h
  · simp at h
  · split at h
    · refine mem_take_takeWhile (mem_take_le h ?_)
      exact trimDots_len _
    · simp at h

theorem ns_word {s : Str} {x : UInt8} (h : x ∈ s.take (pnameNsLen s)) : isPnDot x = true ∨ x = 58 := by
  unfold pnameNsLen at h
  dsimp only at h
  split at h
  · rename_i h'
    rw [List.take_add_one, List.mem_append] at h
    rcases h with h | h
    · exact Or.inl (mem_take_takeWhile h)
    · rw [← List.head?_drop, h'.1] at h
      exact Or.inr (by simpa using h)
  · simp at h

theorem tail_word : ∀ (n : Nat) {s : Str} {x : UInt8}, x ∈ s.take (langTailLen n s) → isAlnum x = true ∨ x = 45
  | 0, _, _, h => by simp [langTailLen] at h
  | n + 1, [], _, h => by simp at h
  | n + 1, c :: s, x, h => by
    rw [langTail_cons] at h
    split at h
    · rename_i hc
      split at h
      · simp at h
      · rw [Nat.add_assoc, Nat.add_comm 1, List.take_succ_cons, List.mem_cons] at h
        rcases h with rfl | h
        · exact Or.inr hc
        · rw [List.take_add, List.mem_append] at h
          rcases h with h | h
          · exact Or.inl (mem_take_takeWhile h)
          · exact tail_word n h
    · simp at h

theorem word_chars {r : Rule} (hr : r.word = true) {s : Str} {x : UInt8} (h : x ∈ s.take (r.len s)) : x ≠ 41 := by
  have hp : isPnDot 41 = false := by decide
  have ha : isAlnum 41 = false := by decide
  cases r with
  | kw k =>
    rintro rfl
    simp only [Rule.len, textLen] at h
    split at h
    · rename_i h'
      rw [List.isPrefixOf_iff_prefix] at h'
      rw [← List.prefix_iff_eq_take.1 h'] at h
      have := List.all_eq_true.1 (kw_name k k.mem_all) _ h
      rw [hp] at this
      cases this
    · simp at h
  | nat =>
    rintro rfl
    have := mem_take_takeWhile h
    cases this
  | pnameNs =>
    rintro rfl
    rcases ns_word h with h | h
    · rw [hp] at h; cases h
    · cases h
  | pnameLn =>
    rintro rfl
    simp only [Rule.len, pnameLnLen] at h
    split at h
    · simp at h
    · rw [List.take_add, List.mem_append] at h
      rcases h with h | h
      · rcases ns_word h with h | h
        · rw [hp] at h; cases h
        · cases h
      · rw [local_word h] at hp
        cases hp
  | blank =>
    rintro rfl
    match s, h with
    | [], h => simp at h
    | [c], h =>
      have h0 : Rule.len [c] .blank = 0 := by simp only [Rule.len]; unfold blankLen; split <;> first | rfl | (rename_i e; cases e)
      rw [h0] at h
      simp at h
    | c :: d :: s, h =>
      simp only [Rule.len] at h
      rw [blankLen_cons] at h
      split at h
      · rename_i hc
        obtain ⟨rfl, rfl⟩ := hc
        split at h
        · simp at h
        · rw [List.take_succ_cons, List.take_succ_cons, List.mem_cons, List.mem_cons] at h
          rcases h with h | h | h
          · cases h
          · cases h
          · rw [local_word h] at hp
            cases hp
      · simp at h
  | lang =>
    rintro rfl
    cases s with
    | nil => simp at h
    | cons c s =>
      simp only [Rule.len] at h
      rw [langLen_cons] at h
      split at h
      · rename_i hc
        subst hc
        split at h
        · simp at h
        · rw [Nat.add_assoc, Nat.add_comm 1, List.take_succ_cons, List.mem_cons] at h
          rcases h with h | h
          · cases h
          · rw [List.take_add, List.mem_append] at h
            rcases h with h | h
            · have := mem_take_takeWhile h
              cases this
            · rcases tail_word _ h with h | h
              · rw [ha] at h; cases h
              · cases h
      · simp at h
  | _ => cases hr

/-! ## Tokens of a text that was cut -/

theorem lexQ_suffix {v rest : Str} : ∀ {s acc : Str}, lexQ s acc = .done v rest → rest <:+ s
  | [], _, h => by simp [lexQ] at h
  | c :: [], acc, h => by
    rw [lexQ] at h
    split at h
    · cases h; exact List.suffix_cons _ _
    · split at h
      · cases h
      · simp [lexQ] at h
  | c :: d :: s, acc, h => by
    rw [lexQ] at h
    split at h
    · cases h; exact List.suffix_cons _ _
    · split at h
      · split at h
        · exact (lexQ_suffix h).trans ((List.suffix_cons _ _).trans (List.suffix_cons _ _))
        · cases h
      · exact (lexQ_suffix h).trans (List.suffix_cons _ _)

theorem lexN_rpar : ∀ (n : Nat) (s : Str), (41 : UInt8) ∉ s → Tok.rpar ∉ lexN n s
  | 0, _, _ => by simp [lexN]
  | _ + 1, [], _ => by simp [lexN]
  | n + 1, c :: s, h => by
    have hd : ∀ k, (41 : UInt8) ∉ (c :: s).drop k := fun k hk => h ((List.drop_sublist _ _).subset hk)
    have hl := best_len c s
    have hp := best_pos c s
    rw [lexN]
    cases hb : (best (c :: s)).1 with
    | qmark =>
      dsimp only
      cases hq : lexQ ((c :: s).drop (best (c :: s)).2) [] with
      | done v rest =>
        have : (41 : UInt8) ∉ rest := fun hr => hd _ ((lexQ_suffix hq).subset hr)
        simpa using lexN_rpar n rest this
      | bad _ => simp
      | eof => simp
    | ws => exact lexN_rpar n _ (hd _)
    | comment => exact lexN_rpar n _ (hd _)
    | any =>
      dsimp only
      split
      · simp
      · simpa using lexN_rpar n s fun hs => h (List.mem_cons_of_mem _ hs)
    | rpar =>
      rw [hb] at hl
      have := textLen_head (w := []) (by show 0 < textLen [41] (c :: s); show 0 < Rule.len (c :: s) .rpar; omega)
      exact absurd (this ▸ List.mem_cons_self) h
    | _ => simpa [Rule.tok] using lexN_rpar n _ (hd _)

theorem lex_rpar_mem {s : Str} (h : (41 : UInt8) ∉ s) : Tok.rpar ∉ lex s := lexN_rpar _ s h

theorem lex_comment {c : UInt8} {s : Str} {l : Nat} (h : best (c :: s) = (.comment, l)) :
    lex (c :: s) = lex ((c :: s).drop l) := by
  have hp := best_pos c s
  rw [h] at hp
  rw [lex, List.length_cons, lexN]
  simp only [h]
  exact lexN_lex (drop_cons_le hp)

theorem lex_any {c : UInt8} {s : Str} {l : Nat} (h : best (c :: s) = (.any, l)) :
    lex (c :: s) = if endsInput c then [] else .char c :: lex s := by
  rw [lex, List.length_cons, lexN]
  simp only [h]
  rfl

theorem lex_qmark {c : UInt8} {s : Str} {l : Nat} (h : best (c :: s) = (.qmark, l)) :
    lex (c :: s) = match lexQ ((c :: s).drop l) [] with
      | .done v rest => .qstr v :: lex rest
      | .bad c => [.char c]
      | .eof => [] := by
  have hp := best_pos c s
  rw [h] at hp
  rw [lex, List.length_cons, lexN]
  simp only [h]
  cases hq : lexQ ((c :: s).drop l) [] with
  | done v rest =>
    have h1 := lexQ_length hq
    have h2 := drop_cons_le (s := s) (c := c) hp
    dsimp only at h2 ⊢
    rw [lexN_lex (by omega)]
  | bad _ => rfl
  | eof => rfl

/-- Tokens after which no construct can end: there is no parenthesis to close it, or something
comes first that the grammar does not know. -/
def Dead (X : List Tok) : Prop := Tok.rpar ∉ X ∨ ∃ c X', X = .char c :: X'

theorem lexQ_append {v rest : Str} (u : Str) : ∀ {s acc : Str}, lexQ s acc = .done v rest → lexQ (s ++ u) acc = .done v (rest ++ u)
  | [], _, h => by simp [lexQ] at h
  | c :: [], acc, h => by
    rw [lexQ] at h
    split at h
    · rename_i hc; cases h; rw [List.cons_append, lexQ.eq_def]; dsimp only; rw [if_pos hc]
    · split at h
      · cases h
      · simp [lexQ] at h
  | c :: d :: s, acc, h => by
    rw [lexQ] at h
    rw [List.cons_append, List.cons_append, lexQ.eq_def]
    dsimp only
    split at h
    · rename_i hc; cases h; rw [if_pos hc]; rfl
    · rename_i hc
      rw [if_neg hc]
      split at h
      · rename_i hc'
        rw [if_pos hc']
        split at h
        · rename_i hd
          rw [if_pos hd]
          exact lexQ_append u h
        · cases h
      · rename_i hc'
        rw [if_neg hc']
        exact lexQ_append u h

theorem best_any {c : UInt8} {s : Str} (hc : c ≠ 10) (h : ∀ r : Rule, r ≠ .any → r.len (c :: s) = 0) : best (c :: s) = (.any, 1) := by
  have h1 := best_len c s
  have h2 := best_pos c s
  have h3 : (best (c :: s)).1 = .any := by
    by_cases e : (best (c :: s)).1 = .any
    · exact e
    · rw [h _ e] at h1; omega
  rw [h3] at h1
  have h4 : Rule.len (c :: s) .any = 1 := by simp [Rule.len, hc]
  rw [h4] at h1
  exact Prod.ext h3 h1

theorem takeWhile_all {p : UInt8 → Bool} : ∀ {t : Str}, (∀ x ∈ t, p x = true) → t.takeWhile p = t
  | [], _ => rfl
  | c :: t, h => by
    rw [List.takeWhile_cons_of_pos (h c List.mem_cons_self), takeWhile_all fun x hx => h x (List.mem_cons_of_mem _ hx)]

theorem dropWhile_all {p : UInt8 → Bool} : ∀ {t : Str}, (∀ x ∈ t, p x = true) → t.dropWhile p = []
  | [], _ => rfl
  | c :: t, h => by
    rw [List.dropWhile_cons_of_pos (h c List.mem_cons_self)]
    exact dropWhile_all fun x hx => h x (List.mem_cons_of_mem _ hx)

theorem one_char {d c : UInt8} (t u : Str) : ¬ (c :: t).length < textLen [d] (c :: t ++ u) := by
  unfold textLen
  split <;> simp

/-- A match that is longer than the text: what the text alone gives is of no use. -/
theorem dead_cut {c : UInt8} {t u : Str} (h : (c :: t).length < (best (c :: t ++ u)).2) : Dead (lex (c :: t)) := by
  have hl := best_len c (t ++ u)
  have hl : (best (c :: t ++ u)).2 = (best (c :: t ++ u)).1.len (c :: t ++ u) := hl
  generalize hr : (best (c :: t ++ u)).1 = r at hl
  rw [hl] at h
  have hpre : ∀ x ∈ c :: t, x ∈ (c :: t ++ u).take (r.len (c :: t ++ u)) := fun x hx => by
    have h1 : (c :: t ++ u).take (c :: t).length = c :: t := List.take_left
    have h2 : x ∈ (c :: t ++ u).take (c :: t).length := by rw [h1]; exact hx
    exact mem_take_le h2 (Nat.le_of_lt h)
  by_cases hw : r.word = true
  · exact Or.inl (lex_rpar_mem fun hx => word_chars hw (hpre _ hx) rfl)
  · cases r with
    | ws =>
      have ha : ∀ x ∈ c :: t, isWs x = true := fun x hx => mem_take_takeWhile (hpre x hx)
      refine Or.inl ?_
      have : (c :: t).dropWhile isWs = [] := dropWhile_all ha
      rw [lex_dropWs, this, lex_nil]
      simp
    | comment =>
      have h' : (c :: t).length < Rule.len (c :: (t ++ u)) .comment := h
      rw [commentLen_cons] at h'
      split at h'
      · rename_i hc
        subst hc
        refine Or.inl ?_
        have ht : ∀ x ∈ t, (x != 10) = true := fun x hx => by
          have h1 : (t ++ u).take t.length = t := List.take_left
          have h2 : t.length ≤ ((t ++ u).takeWhile (· != 10)).length := by simp at h' ⊢; omega
          have h3 : x ∈ (t ++ u).take t.length := by rw [h1]; exact hx
          exact mem_take_takeWhile (p := (· != 10)) (mem_take_le h3 h2)
        have hlen : Rule.len (35 :: t) .comment = t.length + 1 := by
          rw [commentLen_cons, if_pos rfl]
          have : t.takeWhile (· != 10) = t := by
            rcases takeWhile_cases (· != 10) t [] with ⟨-, -, h⟩ | ⟨-, h⟩
            · exact h
            · exact absurd h (by rw [takeWhile_all ht]; omega)
          rw [this]
        rw [lex_comment (best_solo (r := .comment) rfl (by rw [hlen]; omega)), hlen]
        simp [lex_nil]
      · omega
    | iriRef =>
      have h' : (c :: t).length < iriRefLen (c :: (t ++ u)) := h
      rw [iriRefLen_cons] at h'
      split at h'
      · rename_i hc
        subst hc
        split at h'
        · refine Or.inr ⟨60, lex t, ?_⟩
          have h2 : t.length ≤ ((t ++ u).takeWhile isIriChar).length := by simp at h'; omega
          have ht : ∀ x ∈ t, isIriChar x = true := fun x hx => by
            have h1 : (t ++ u).take t.length = t := List.take_left
            exact mem_take_takeWhile (mem_take_le (h1.symm ▸ hx) h2)
          have h0 : iriRefLen (60 :: t) = 0 := by
            rw [iriRefLen_cons, if_pos rfl, takeWhile_all ht, if_neg (by simp)]
          have hb : best (60 :: t) = (.any, 1) := best_any (by decide) fun r hr => by
            rcases Nat.eq_zero_or_pos (r.len (60 :: t)) with e | e
            · exact e
            · have := solo_only (r := .iriRef) rfl rfl (len_first e) hr
              subst this
              exact h0
          rw [lex_any hb]
          rfl
        · omega
      · omega
    | dcaret =>
      refine Or.inl (lex_rpar_mem fun hx => ?_)
      have := hpre _ hx
      simp only [Rule.len, textLen] at this
      split at this
      · rename_i h'
        rw [List.isPrefixOf_iff_prefix] at h'
        rw [← List.prefix_iff_eq_take.1 h'] at this
        exact absurd this (by decide)
      · simp at this
    | any =>
      have := any_len_le (c :: t ++ u)
      have h : t.length + 1 < Rule.len (c :: t ++ u) .any := h
      omega
    | qmark => exact absurd h (one_char _ _)
    | lpar => exact absurd h (one_char _ _)
    | rpar => exact absurd h (one_char _ _)
    | equals => exact absurd h (one_char _ _)
    | _ => exact absurd rfl hw

/-- The tokens of a text and those of its beginning: they agree up to some point, after which the
beginning has nothing that could end a construct. -/
theorem lex_cut : ∀ (n : Nat) (t u : Str), t.length ≤ n →
    ∃ P X Y, lex t = P ++ X ∧ lex (t ++ u) = P ++ Y ∧ Dead X
  | _, [], u, _ => ⟨[], [], lex u, rfl, rfl, Or.inl (by simp)⟩
  | 0, _ :: _, _, h => by simp at h
  | n + 1, c :: t, u, h => by
    by_cases hb : (best (c :: t ++ u)).2 ≤ (c :: t).length
    · have e := best_cut hb
      have hp := best_pos c t
      have hn : ∀ k, 0 < k → ((c :: t).drop k).length ≤ n := fun k hk => by
        simp only [List.length_drop, List.length_cons] at h ⊢; omega
      generalize hr : best (c :: t ++ u) = b at e hb
      obtain ⟨r, l⟩ := b
      rw [e] at hp
      have hd : (c :: t ++ u).drop l = (c :: t).drop l ++ u := List.drop_append_of_le_length hb
      obtain ⟨P, X, Y, h1, h2, h3⟩ := lex_cut n ((c :: t).drop l) u (hn l hp)
      by_cases hpl : r.plain = true
      · have ht : (c :: t ++ u).take l = (c :: t).take l := List.take_append_of_le_length hb
        refine ⟨r.tok ((c :: t).take l) :: P, X, Y, ?_, ?_, h3⟩
        · rw [lex_tok e hpl, h1]; rfl
        · have := lex_tok (s := t ++ u) hr hpl
          rw [show c :: t ++ u = c :: (t ++ u) from rfl] at hd ht
          rw [hd, ht] at this
          exact this.trans (by rw [h2]; rfl)
      · cases r with
        | ws =>
          refine ⟨P, X, Y, (lex_ws e).trans h1, ?_, h3⟩
          have := lex_ws (s := t ++ u) hr
          exact this.trans ((congrArg lex hd).trans h2)
        | comment =>
          refine ⟨P, X, Y, (lex_comment e).trans h1, ?_, h3⟩
          have := lex_comment (s := t ++ u) hr
          exact this.trans ((congrArg lex hd).trans h2)
        | any =>
          have e1 := lex_any e
          have e2 := lex_any (s := t ++ u) hr
          by_cases hc : endsInput c = true
          · rw [if_pos hc] at e1 e2
            exact ⟨[], [], [], e1, e2, Or.inl (by simp)⟩
          · rw [if_neg hc] at e1 e2
            exact ⟨[], _, _, e1, e2, Or.inr ⟨c, _, rfl⟩⟩
        | qmark =>
          have e1 := lex_qmark e
          have e2 := (lex_qmark (s := t ++ u) hr)
          rw [show c :: (t ++ u) = c :: t ++ u from rfl, hd] at e2
          cases hq : lexQ ((c :: t).drop l) [] with
          | done v rest =>
            rw [hq] at e1
            rw [lexQ_append u hq] at e2
            have := lexQ_length hq
            obtain ⟨P, X, Y, h1, h2, h3⟩ := lex_cut n rest u (by have := hn l hp; omega)
            exact ⟨.qstr v :: P, X, Y, e1.trans (congrArg (Tok.qstr v :: ·) h1), e2.trans (congrArg (Tok.qstr v :: ·) h2), h3⟩
          | bad d =>
            rw [hq] at e1
            exact ⟨[], _, _, e1, rfl, Or.inr ⟨d, _, rfl⟩⟩
          | eof =>
            rw [hq] at e1
            exact ⟨[], _, _, e1, rfl, Or.inl (by simp)⟩
        | _ => exact absurd rfl hpl
    · exact ⟨[], _, _, rfl, rfl, dead_cut (Nat.lt_of_not_le hb)⟩

end Cowl.Func
