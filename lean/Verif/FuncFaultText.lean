import Verif.FuncFaultScan
/-! # Where in its text a document is rejected -/
namespace Cowl.Func
open Cowl.Prefix

/-! ## The text of the first tokens -/

theorem lex_of_from {s t : Str} {k : Nat} (h : ∀ l, lexFrom l s = lexFrom (l + k) t) : lex s = lex t := by
  rw [← lexFrom_fst 0 s, h, lexFrom_fst]

theorem scan_at : ∀ (k : Nat) (s : Str), k ≤ (lex s).length → NoChar ((lex s).take k) → ∃ pre post, s = pre ++ post ∧
    (∀ l, (lexFrom l s).1.drop k = (lexFrom (l + newlines pre) post).1 ∧ (lexFrom l s).2 = (lexFrom (l + newlines pre) post).2) ∧
    ∀ p, p <+: post → ∀ c, lex (pre ++ (p ++ 10 :: c)) = (lex s).take k ++ lex (p ++ 10 :: c)
  | 0, s, _, _ => ⟨[], s, rfl, fun _ => ⟨rfl, rfl⟩, fun _ _ _ => by simp⟩
  | k + 1, s, hk, hn => by
    obtain ⟨g, rest, e, hs, hl, hx⟩ := next_at s.length s (Nat.le_refl _)
    have hlex := lex_of_from hl
    have hnil : lex rest = [] → False := fun h => by rw [hlex, h] at hk; simp at hk
    cases hx with
    | none => exact (hnil rfl).elim
    | stop _ h => exact (hnil (by rw [← lexFrom_fst 0, h]; rfl)).elim
    | unended _ h => exact (hnil (by rw [← lexFrom_fst 0, h]; rfl)).elim
    | @char c w post _ _ h _ =>
      refine (hn c ?_).elim
      have h0 := h 0
      rw [hlex, ← lexFrom_fst 0]
      cases hf : (lexFrom 0 (w ++ post)).1 with
      | nil => rw [hf] at h0; cases h0
      | cons y ys =>
        rw [hf] at h0
        cases h0
        simp
    | @tok t w post _ _ _ h1 h2 =>
      have hlex' : lex s = t :: lex post := by
        rw [hlex, ← lexFrom_fst 0, h1, List.map_cons, lexFrom_fst]
      rw [hlex'] at hk hn
      obtain ⟨pre, post', e', hl', hc'⟩ := scan_at k post (by simpa using hk) (fun c hc => hn c (by simp [hc]))
      subst e'
      refine ⟨g ++ (w ++ pre), post', by rw [e]; simp, fun l => ?_, fun p hp c => ?_⟩
      · have := hl' (l + newlines g + newlines w)
        rw [hl, h1, List.drop_succ_cons, newlines_append, newlines_append]
        have e2 : l + (newlines g + (newlines w + newlines pre)) = l + newlines g + newlines w + newlines pre := by omega
        rw [e2]
        exact this
      · obtain ⟨u, rfl⟩ := hp
        have e1 := hs (w ++ (pre ++ p)) ⟨u, by simp⟩ c
        have e2 := h2 (pre ++ p) ⟨u, by simp⟩ c
        have e3 := hc' p ⟨u, rfl⟩ c
        simp only [List.append_assoc] at e1 e2 e3 ⊢
        rw [e1, e2, e3, hlex', List.take_succ_cons, List.cons_append]

/-! ## Text that completes a document -/

/-- Text of the tokens that `St.meet` uses. -/
def Tok.text : Tok → Str
  | .kw k => k.text
  | .nat _ => [48]
  | .iriRef s => 60 :: s ++ [62]
  | .pnameNs s => s ++ [58]
  | .qstr _ => [34, 34]
  | .lpar => [40]
  | .rpar => [41]
  | .equals => [61]
  | _ => []

/-- These tokens. -/
def Tok.easy (t : Tok) : Prop := ∀ c, lex (t.text ++ 10 :: c) = t :: lex c

theorem easy_of {t : Tok} {w : Str} {x : UInt8} {r : Rule} (hw : t.text = x :: w) (hb : best (x :: w ++ [10]) = (r, (x :: w).length)) (hr : r.plain = true)
    (ht : r.tok (x :: w) = t) : t.easy := fun c => by
  have hne : r ≠ .ws := by rintro rfl; cases hr
  have := best_swap (p := []) (z := c) (by simp) hne hb (List.nil_prefix)
  have this : best (x :: (w ++ 10 :: c)) = (r, (x :: w).length) := this
  rw [hw, List.cons_append, lex_tok this hr]
  rw [show (x :: (w ++ 10 :: c)).take (x :: w).length = x :: w from List.take_left (l₁ := x :: w),
    show (x :: (w ++ 10 :: c)).drop (x :: w).length = 10 :: c from List.drop_left (l₁ := x :: w), lex_newline, ht]

theorem easy_qstr : (Tok.qstr []).easy := fun c => by
  show lex (34 :: 34 :: 10 :: c) = _
  rw [lex_quote (lexQ_close _ _), lex_newline]

/-- The tokens that `St.meet` uses. -/
def easyToks : List Tok := [.qstr [], .lpar, .rpar, .equals, .nat 0, .iriRef [97], .kw .class_, .kw .ontology, .pnameNs []]

theorem easy_toks : ∀ t ∈ easyToks, t.easy := by
  intro t ht
  simp only [easyToks, List.mem_cons, List.not_mem_nil, or_false] at ht
  rcases ht with rfl | rfl | rfl | rfl | rfl | rfl | rfl | rfl | rfl
  · exact easy_qstr
  · exact easy_of (r := .lpar) rfl (by decide +kernel) rfl rfl
  · exact easy_of (r := .rpar) rfl (by decide +kernel) rfl rfl
  · exact easy_of (r := .equals) rfl (by decide +kernel) rfl rfl
  · exact easy_of (r := .nat) rfl (by decide +kernel) rfl (by decide +kernel)
  · exact easy_of (r := .iriRef) rfl (by decide +kernel) rfl rfl
  · exact easy_of (r := .kw .class_) (x := 67) (w := ascii "lass") (by decide +kernel) (by decide +kernel) rfl rfl
  · exact easy_of (r := .kw .ontology) (x := 79) (w := ascii "ntology") (by decide +kernel) (by decide +kernel) rfl rfl
  · exact easy_of (r := .pnameNs) rfl (by decide +kernel) rfl rfl

theorem catEnd_easy (k : Cat) : catEnd k ⊆ easyToks := by
  intro t ht
  have : ∀ t ∈ catEnd k, t ∈ easyToks := by cases k <;> first | decide | (show ∀ t ∈ [someIri], t ∈ easyToks; decide)
  exact this t ht

theorem meet_easy (s : Sym) : ∀ t ∈ s.meet, t ∈ easyToks := by
  cases s with
  | cat c => exact fun t ht => catEnd_easy c ht
  | many c k =>
    intro t ht
    rcases List.mem_append.1 ht with h | h
    · obtain ⟨l, hl, hm⟩ := List.mem_flatten.1 h
      rw [List.eq_of_mem_replicate hl] at hm
      exact catEnd_easy c hm
    · rw [List.mem_singleton.1 h]; decide
  | annots => exact fun t ht => (by cases ht)
  | litTail => exact fun t ht => (by cases ht)
  | dtIri => show ∀ t ∈ [someIri], t ∈ easyToks; decide
  | declEnd => show ∀ t ∈ [Tok.rpar], t ∈ easyToks; decide
  | opt => show ∀ t ∈ [Tok.rpar], t ∈ easyToks; decide
  | ns => show ∀ t ∈ [Tok.iriRef [97], .rpar], t ∈ easyToks; decide
  | _ => decide

theorem St.meet_easy (s : St) : ∀ t ∈ s.meet, t ∈ easyToks := by
  intro t ht
  rcases List.mem_append.1 ht with h | h
  · obtain ⟨l, hl, hm⟩ := List.mem_flatten.1 h
    obtain ⟨y, -, rfl⟩ := List.mem_map.1 hl
    exact Func.meet_easy y t hm
  · have : ∀ p : Phase, ∀ t ∈ p.meet, t ∈ easyToks := by intro p; cases p <;> decide
    exact this _ t h

/-- Text of some tokens, one in each line. -/
def lines (ts : List Tok) : Str := ts.flatMap fun t => t.text ++ [10]

theorem lex_lines : ∀ {ts : List Tok}, (∀ t ∈ ts, t ∈ easyToks) → lex (lines ts) = ts
  | [], _ => rfl
  | t :: ts, h => by
    have : lines (t :: ts) = t.text ++ 10 :: lines ts := by simp [lines]
    rw [this, easy_toks t (h t (by simp)), lex_lines (fun u hu => h u (by simp [hu]))]

/-! ## Names that cannot be resolved -/

variable {m : PMap} {a : Nat} {ph : Phase} {st : List Sym} {t : Tok} {w : Why}

/-- A token that is rejected, though an IRI could follow. -/
def Why.fits (w : Why) (t : Tok) : Prop := (∃ n, w = .unresolved n ∧ t = .pnameLn n) ∨ w = .noIri ∧ t = .iriRef []

theorem iriAct_name (h : iriAct m t = .bad w) (hw : w ≠ .syntax) : w.fits t := by
  unfold iriAct at h
  split at h
  · split at h
    · cases h
    · rename_i he
      cases h
      rename_i s _
      have : s = [] := by
        cases s with
        | nil => rfl
        | cons c s => cases he
      subst this
      exact .inr ⟨rfl, rfl⟩
  · split at h
    · cases h
    · cases h; exact .inl ⟨_, rfl, rfl⟩
  · cases h; exact absurd rfl hw

theorem kwAct_syntax {k : Cat} {x : Kw} (h : kwAct k x = .bad w) : w = .syntax := by
  unfold kwAct at h
  split at h
  · split at h
    · cases h
    · cases h; rfl
  · cases h; rfl

theorem expAct_name {k : Cat} (h : expAct m k t = .bad w) (hw : w ≠ .syntax) : w.fits t := by
  unfold expAct at h
  split at h
  · exact absurd (kwAct_syntax h) hw
  · exact iriAct_name h hw

theorem andThen_bad {A : Act} {l : List Sym} (h : A.andThen l = .bad w) : A = .bad w := by
  cases A <;> first | exact h | cases h

theorem catAct_name {k : Cat} (h : catAct m k t = .bad w) (hw : w ≠ .syntax) : w.fits t ∧ ∃ l, catAct m k someIri = .shift l := by
  cases k with
  | iri => exact ⟨iriAct_name h hw, _, rfl⟩
  | ent _ => exact ⟨iriAct_name h hw, _, rfl⟩
  | ope => exact ⟨expAct_name h hw, _, rfl⟩
  | dr => exact ⟨expAct_name h hw, _, rfl⟩
  | ce => exact ⟨expAct_name h hw, _, rfl⟩
  | facet => exact ⟨iriAct_name (andThen_bad h) hw, _, rfl⟩
  | ind =>
    refine ⟨?_, _, rfl⟩
    cases t <;> first | (cases h; done) | exact iriAct_name (m := m) h hw
  | annotVal =>
    refine ⟨?_, _, rfl⟩
    cases t <;> first | (cases h; done) | exact iriAct_name (m := m) h hw
  | annotSubj =>
    refine ⟨?_, _, rfl⟩
    cases t <;> first | (cases h; done) | exact iriAct_name (m := m) h hw
  | subOpe =>
    refine ⟨?_, _, rfl⟩
    cases t with
    | kw x => cases x <;> first | (cases h; done) | exact expAct_name (m := m) (k := .ope) h hw
    | _ => exact expAct_name (m := m) (k := .ope) h hw
  | lit => cases t <;> first | (cases h; exact absurd rfl hw) | (cases h; done)
  | entity =>
    cases t with
    | kw x =>
      have h : (if (entKw x).isSome then Act.shift [.lpar, .cat .iri, .rpar] else .bad .syntax) = .bad w := h
      split at h <;> cases h
      exact absurd rfl hw
    | _ => cases h; exact absurd rfl hw
  | annotation =>
    cases t with
    | kw x => exact absurd (kwAct_syntax (k := .annotation) h) hw
    | _ => cases h; exact absurd rfl hw
  | ax =>
    cases t with
    | kw x => exact absurd (kwAct_syntax (k := .ax) h) hw
    | _ => cases h; exact absurd rfl hw

theorem symAct_name {s : Sym} (h : symAct m s t = .bad w) (hw : w ≠ .syntax) : w.fits t ∧ ∃ l, symAct m s someIri = .shift l := by
  cases s with
  | lpar | rpar | equals =>
    unfold symAct at h
    dsimp only at h
    split at h <;> cases h
    exact absurd rfl hw
  | card | prefix_ | ns _ => cases t <;> first | (cases h; exact absurd rfl hw) | (cases h; done)
  | declEnd _ _ =>
    unfold symAct at h
    dsimp only at h
    split at h <;> cases h
    exact absurd rfl hw
  | cat k => exact catAct_name (k := k) h hw
  | many k n =>
    have h : (if t = .rpar then (if n = 0 then Act.shift [] else .bad .syntax) else (catAct m k t).andThen [.many k (n - 1)]) = .bad w := h
    split at h
    · split at h <;> cases h
      exact absurd rfl hw
    · obtain ⟨h1, l, hl⟩ := catAct_name (andThen_bad h) hw
      exact ⟨h1, l ++ [.many k (n - 1)], by
        show (if someIri = .rpar then (if n = 0 then Act.shift [] else .bad .syntax) else (catAct m k someIri).andThen [.many k (n - 1)]) = _
        rw [if_neg (by decide), hl]; rfl⟩
  | opt k =>
    have h : (if t = .rpar then Act.shift [] else (catAct m k t).andThen [.rpar]) = .bad w := h
    split at h
    · cases h
    · obtain ⟨h1, l, hl⟩ := catAct_name (andThen_bad h) hw
      exact ⟨h1, l ++ [.rpar], by
        show (if someIri = .rpar then Act.shift [] else (catAct m k someIri).andThen [.rpar]) = _
        rw [if_neg (by decide), hl]; rfl⟩
  | annots =>
    have h : (if t = .kw .annotation then (catAct m .annotation t).andThen [.annots] else .skip) = .bad w := h
    split at h
    · rename_i ht
      subst ht
      exact absurd (kwAct_syntax (k := .annotation) (x := .annotation) (andThen_bad (A := catAct m .annotation (.kw .annotation)) h)) hw
    · cases h
  | litTail v =>
    exfalso
    have k0 : ∀ (x : LitRes), (match x with | .ub => Act.ub | .lit _ _ => .skip) ≠ .bad w := fun x e => by cases x <;> cases e
    have k1 : ∀ (x : LitRes), (match x with | .ub => Act.ub | .lit _ _ => .shift []) ≠ .bad w := fun x e => by cases x <;> cases e
    cases t <;> first | (cases h; done) | exact k1 _ h | exact k0 _ h
  | dtIri v =>
    have h : (match readIri m t with
      | some i => match literal v (.dt i) with | .ub => Act.ub | .lit _ _ => .shift []
      | none => iriAct m t) = .bad w := h
    cases hi : readIri m t with
    | some i => rw [hi] at h; dsimp only at h; split at h <;> cases h
    | none =>
      rw [hi] at h
      exact ⟨iriAct_name h hw, [], rfl⟩

theorem andThen_skip {k : Cat} {l : List Sym} : (catAct m k t).andThen l ≠ .skip := fun e => by
  rcases catAct_cases m k t with ⟨l', h⟩ | ⟨w, h⟩ <;> rw [h] at e <;> cases e

theorem symAct_skip {s : Sym} (h : symAct m s t = .skip) (ht : w.fits t) : symAct m s someIri = .skip := by
  have ht : (∃ n, t = .pnameLn n) ∨ t = .iriRef [] := ht.imp (fun ⟨n, _, h⟩ => ⟨n, h⟩) And.right
  cases s with
  | annots => rfl
  | litTail v => rcases ht with ⟨n, rfl⟩ | rfl <;> exact h
  | lpar | rpar | equals | declEnd _ _ =>
    unfold symAct at h
    dsimp only at h
    split at h <;> cases h
  | card | prefix_ | ns _ => rcases ht with ⟨n, rfl⟩ | rfl <;> cases h
  | cat k =>
    have h : catAct m k t = .skip := h
    rcases catAct_cases m k t with ⟨l', h'⟩ | ⟨w, h'⟩ <;> rw [h'] at h <;> cases h
  | many k n =>
    have h : (if t = .rpar then (if n = 0 then Act.shift [] else .bad .syntax) else (catAct m k t).andThen [.many k (n - 1)]) = .skip := h
    split at h
    · split at h <;> cases h
    · exact absurd h andThen_skip
  | opt k =>
    have h : (if t = .rpar then Act.shift [] else (catAct m k t).andThen [.rpar]) = .skip := h
    split at h
    · cases h
    · exact absurd h andThen_skip
  | dtIri v =>
    have h : (match readIri m t with
      | some i => match literal v (.dt i) with | .ub => Act.ub | .lit _ _ => .shift []
      | none => iriAct m t) = .skip := h
    cases hi : readIri m t with
    | some i => rw [hi] at h; dsimp only at h; split at h <;> cases h
    | none =>
      rw [hi] at h
      have h : iriAct m t = .skip := h
      rcases iriAct_cases m t with h' | ⟨w, h'⟩ <;> rw [h'] at h <;> cases h

theorem apply_bad {A : Act} (h : A.apply m a st ph = .bad w) (hw : w ≠ .syntax) : A = .bad w := by
  cases A <;> cases h
  · exact absurd rfl hw
  · rfl

theorem axiomsPhase_syntax (h : axiomsPhase m a t = .bad w) : w = .syntax := by
  by_cases hw : w = .syntax
  · exact hw
  · unfold axiomsPhase at h
    split at h
    · cases h
    · obtain ⟨-, l, hl⟩ := catAct_name (apply_bad h hw) hw
      cases hl

theorem headerPhase_syntax (h : headerPhase m a t = .bad w) : w = .syntax := by
  by_cases hw : w = .syntax
  · exact hw
  · unfold headerPhase at h
    split at h
    · cases h
    · split at h
      · obtain ⟨-, l, hl⟩ := catAct_name (apply_bad h hw) hw
        cases hl
      · exact axiomsPhase_syntax h

theorem phaseAct_name (h : phaseAct m a t ph = .bad w) (hw : w ≠ .syntax) : w.fits t ∧ ∃ s, phaseAct m a someIri ph = .go s := by
  cases ph with
  | prefixes =>
    unfold phaseAct at h
    dsimp only at h
    split at h
    · cases h
    · split at h <;> cases h
      exact absurd rfl hw
  | id =>
    have h : (if t.beginsIri then (iriAct m t).apply m a [] .id2 else headerPhase m a t) = .bad w := h
    split at h
    · exact ⟨iriAct_name (apply_bad h hw) hw, _, rfl⟩
    · exact absurd (headerPhase_syntax h) hw
  | id2 =>
    have h : (if t.beginsIri then (iriAct m t).apply m a [] .header else headerPhase m a t) = .bad w := h
    split at h
    · exact ⟨iriAct_name (apply_bad h hw) hw, _, rfl⟩
    · exact absurd (headerPhase_syntax h) hw
  | header => exact absurd (headerPhase_syntax h) hw
  | axioms => exact absurd (axiomsPhase_syntax h) hw
  | done => cases h; exact absurd rfl hw

theorem feed_name : ∀ {st : List Sym}, feed m a ph t st = .bad w → w ≠ .syntax → w.fits t ∧ ∃ s, feed m a ph someIri st = .go s
  | [], h, hw => phaseAct_name h hw
  | x :: st, h, hw => by
    by_cases hk : symAct m x t = .skip
    · rw [feed, hk] at h
      dsimp only at h
      obtain ⟨h1, s, h2⟩ := feed_name h hw
      refine ⟨h1, s, ?_⟩
      rw [feed, symAct_skip hk h1]
      exact h2
    · have h' : (symAct m x t).apply m a st ph = .bad w := by
        rw [feed] at h
        split at h
        · rename_i e; exact absurd e hk
        · exact h
      obtain ⟨h1, l, h2⟩ := symAct_name (apply_bad h' hw) hw
      exact ⟨h1, _, by rw [feed, h2]; rfl⟩

end Cowl.Func
