import Verif.FuncFaultText
/-! # Where a document is rejected, and what is said about it -/
namespace Cowl.Func
open Prefix

variable {m : PMap} {a : Nat} {ph : Phase} {st : List Sym} {t : Tok} {w : Why}

/-! ## Names where no name can be -/

/-- A name, or the empty IRI. -/
def Tok.nameLike (t : Tok) : Prop := (∃ n, t = .pnameLn n) ∨ t = .iriRef []

theorem iriAct_not (h : iriAct m t = .bad .syntax) (ht : t.nameLike) : False := by
  rcases ht with ⟨n, rfl⟩ | rfl
  · unfold iriAct at h; dsimp only at h; split at h <;> cases h
  · cases h

theorem catAct_not {k : Cat} (h : catAct m k t = .bad .syntax) (ht : t.nameLike) : catAct m k someIri = .bad .syntax := by
  have hi : ∀ k, expAct m k t = iriAct m t := fun k => by rcases ht with ⟨n, rfl⟩ | rfl <;> rfl
  cases k with
  | iri => exact (iriAct_not (m := m) h ht).elim
  | ent _ => exact (iriAct_not (m := m) h ht).elim
  | ope => exact (iriAct_not (m := m) ((hi .ope).symm.trans h) ht).elim
  | dr => exact (iriAct_not (m := m) ((hi .dr).symm.trans h) ht).elim
  | ce => exact (iriAct_not (m := m) ((hi .ce).symm.trans h) ht).elim
  | facet => exact (iriAct_not (m := m) (andThen_bad h) ht).elim
  | ind => exact (iriAct_not (m := m) (by rcases ht with ⟨n, rfl⟩ | rfl <;> exact h) ht).elim
  | annotVal => exact (iriAct_not (m := m) (by rcases ht with ⟨n, rfl⟩ | rfl <;> exact h) ht).elim
  | annotSubj => exact (iriAct_not (m := m) (by rcases ht with ⟨n, rfl⟩ | rfl <;> exact h) ht).elim
  | subOpe => exact (iriAct_not (m := m) (by rcases ht with ⟨n, rfl⟩ | rfl <;> exact h) ht).elim
  | lit => rfl
  | entity => rfl
  | annotation => rfl
  | ax => rfl

theorem symAct_not {s : Sym} (h : symAct m s t = .bad .syntax) (ht : t.nameLike) :
    symAct m s someIri = .bad .syntax ∨ ∃ l, symAct m s (.iriRef []) = .shift l := by
  have hr : t ≠ .rpar := by rcases ht with ⟨n, rfl⟩ | rfl <;> exact fun h => by cases h
  cases s with
  | lpar | rpar | equals | card | prefix_ => exact .inl rfl
  | declEnd _ _ => exact .inl rfl
  | ns p => exact .inr ⟨_, rfl⟩
  | cat k => exact .inl (catAct_not (k := k) h ht)
  | many k n =>
    have h : (if t = .rpar then (if n = 0 then Act.shift [] else .bad .syntax) else (catAct m k t).andThen [.many k (n - 1)]) = .bad .syntax := h
    rw [if_neg hr] at h
    have := catAct_not (andThen_bad h) ht
    refine .inl ?_
    show (if someIri = .rpar then (if n = 0 then Act.shift [] else .bad .syntax) else (catAct m k someIri).andThen [.many k (n - 1)]) = _
    rw [if_neg (by decide), this]; rfl
  | opt k =>
    have h : (if t = .rpar then Act.shift [] else (catAct m k t).andThen [.rpar]) = .bad .syntax := h
    rw [if_neg hr] at h
    have := catAct_not (andThen_bad h) ht
    refine .inl ?_
    show (if someIri = .rpar then Act.shift [] else (catAct m k someIri).andThen [.rpar]) = _
    rw [if_neg (by decide), this]; rfl
  | annots =>
    exfalso
    rcases ht with ⟨n, rfl⟩ | rfl <;> cases h
  | litTail v =>
    exfalso
    have k0 : ∀ (x : LitRes), (match x with | .ub => Act.ub | .lit _ _ => .skip) ≠ .bad .syntax := fun x e => by cases x <;> cases e
    rcases ht with ⟨n, rfl⟩ | rfl <;> exact k0 (literal v .none) h
  | dtIri v =>
    have h : (match readIri m t with
      | some i => match literal v (.dt i) with | .ub => Act.ub | .lit _ _ => .shift []
      | none => iriAct m t) = .bad .syntax := h
    cases hi : readIri m t with
    | some i => rw [hi] at h; dsimp only at h; split at h <;> cases h
    | none =>
      rw [hi] at h
      exact (iriAct_not h ht).elim

theorem nameLike_fits (ht : t.nameLike) : ∃ w : Why, w.fits t := by
  rcases ht with ⟨n, rfl⟩ | rfl
  · exact ⟨.unresolved n, .inl ⟨n, rfl, rfl⟩⟩
  · exact ⟨.noIri, .inr ⟨rfl, rfl⟩⟩

theorem symAct_skip_empty {s : Sym} (h : symAct m s t = .skip) (ht : t.nameLike) : symAct m s (.iriRef []) = .skip := by
  obtain ⟨w, hw⟩ := nameLike_fits ht
  have h' := symAct_skip h hw
  cases s with
  | annots => rfl
  | litTail v => exact h'
  | lpar | rpar | equals | card | prefix_ => cases h'
  | declEnd _ _ => cases h'
  | ns _ => cases h'
  | cat k =>
    have h : catAct m k t = .skip := h
    rcases catAct_cases m k t with ⟨l', h'⟩ | ⟨w, h'⟩ <;> rw [h'] at h <;> cases h
  | many k n =>
    have h : (if someIri = .rpar then (if n = 0 then Act.shift [] else .bad .syntax) else (catAct m k someIri).andThen [.many k (n - 1)]) = .skip := h'
    rw [if_neg (by decide)] at h
    exact absurd h andThen_skip
  | opt k =>
    have h : (if someIri = .rpar then Act.shift [] else (catAct m k someIri).andThen [.rpar]) = .skip := h'
    rw [if_neg (by decide)] at h
    exact absurd h andThen_skip
  | dtIri v =>
    have e : symAct m (.dtIri v) someIri = .shift [] := rfl
    rw [e] at h'
    cases h'

theorem feed_not : ∀ {st : List Sym}, feed m a ph t st = .bad .syntax → t.nameLike →
    (∃ w, feed m a ph someIri st = .bad w) ∨ ∃ s, feed m a ph (.iriRef []) st = .go s
  | [], h, ht => by
    refine .inl ?_
    cases ph with
    | id | id2 =>
      exfalso
      have hb : t.beginsIri = true := by rcases ht with ⟨n, rfl⟩ | rfl <;> rfl
      have h : (if t.beginsIri then (iriAct m t).apply m a [] _ else headerPhase m a t) = .bad .syntax := h
      rw [if_pos hb] at h
      cases hA : iriAct m t with
      | bad w => rw [hA] at h; cases h; exact iriAct_not hA ht
      | _ => rcases iriAct_cases m t with h' | ⟨w, h'⟩ <;> rw [hA] at h' <;> cases h' <;> rw [hA] at h <;> cases h
    | _ => exact ⟨_, rfl⟩
  | x :: st, h, ht => by
    obtain ⟨w, hw⟩ := nameLike_fits ht
    by_cases hk : symAct m x t = .skip
    · rw [feed, hk] at h
      dsimp only at h
      rcases feed_not h ht with ⟨w', h'⟩ | ⟨s, h'⟩
      · exact .inl ⟨w', by rw [feed, symAct_skip hk hw]; exact h'⟩
      · exact .inr ⟨s, by rw [feed, symAct_skip_empty hk ht]; exact h'⟩
    · have h' : (symAct m x t).apply m a st ph = .bad .syntax := by
        rw [feed] at h
        split at h
        · rename_i e; exact absurd e hk
        · exact h
      have h2 : symAct m x t = .bad .syntax := by
        cases hA : symAct m x t with
        | bad w => rw [hA] at h'; cases h'; rfl
        | skip => exact absurd hA hk
        | _ => rw [hA] at h'; cases h'
      rcases symAct_not h2 ht with h3 | ⟨l, h3⟩
      · exact .inl ⟨.syntax, by rw [feed, h3]; rfl⟩
      · exact .inr ⟨_, by rw [feed, h3]; rfl⟩

/-! ## Characters -/

theorem catAct_char (k : Cat) (c : UInt8) : catAct m k (.char c) = .bad .syntax := by
  cases k <;> rfl

theorem feed_char (c : UInt8) : ∀ (st : List Sym) (s : St), feed m a ph (.char c) st ≠ .go s
  | [], s, h => by cases ph <;> cases h
  | x :: st, s, h => by
    have key : (∃ w, symAct m x (.char c) = .bad w) ∨ symAct m x (.char c) = .skip ∨ symAct m x (.char c) = .ub := by
      cases x with
      | lpar | rpar | equals | card | prefix_ => exact .inl ⟨_, rfl⟩
      | declEnd _ _ => exact .inl ⟨_, rfl⟩
      | ns _ => exact .inl ⟨_, rfl⟩
      | dtIri _ => exact .inl ⟨_, rfl⟩
      | annots => exact .inr (.inl rfl)
      | cat k => exact .inl ⟨_, catAct_char k c⟩
      | many k n =>
        refine .inl ⟨.syntax, ?_⟩
        show (if Tok.char c = .rpar then (if n = 0 then Act.shift [] else .bad .syntax) else (catAct m k (.char c)).andThen [.many k (n - 1)]) = _
        rw [if_neg (fun h => by cases h), catAct_char]; rfl
      | opt k =>
        refine .inl ⟨.syntax, ?_⟩
        show (if Tok.char c = .rpar then Act.shift [] else (catAct m k (.char c)).andThen [.rpar]) = _
        rw [if_neg (fun h => by cases h), catAct_char]; rfl
      | litTail v =>
        have : symAct m (.litTail v) (.char c) = match literal v .none with | .ub => .ub | .lit _ _ => .skip := rfl
        rw [this]
        cases literal v .none
        · exact .inr (.inl rfl)
        · exact .inr (.inr rfl)
    rw [feed] at h
    rcases key with ⟨w, k⟩ | k | k <;> rw [k] at h
    · cases h
    · exact feed_char c st s h
    · cases h

theorem steps_noChar : ∀ {q : List Tok} {s s' : St}, steps s q = some s' → NoChar q
  | [], _, _, _ => .nil
  | t :: q, s, s', h => by
    rw [steps] at h
    cases hf : feed s.m s.addr s.phase t s.stack with
    | go s1 =>
      rw [hf] at h
      intro c hc
      rcases List.mem_cons.1 hc with rfl | hc
      · exact feed_char c _ _ hf
      · exact steps_noChar h c hc
    | bad w => rw [hf] at h; cases h
    | ub => rw [hf] at h; cases h

/-! ## The place -/

theorem accepted_run (text : Str) : Accepted m a text ↔ run (St.init m a) (lex text) = .ok := funcRead_run m a text

/-- The tokens before the one that is rejected, and their text. -/
theorem locate {text : Str} {q rest : List Tok} {s : St} (e : lex text = q ++ rest) (hq : steps (St.init m a) q = some s) :
    ∃ seen tail, text = seen ++ tail ∧ Next tail ∧
      (∀ p, p <+: tail → ∀ c, lex (seen ++ (p ++ 10 :: c)) = q ++ lex (p ++ 10 :: c)) ∧
      (lexL text).1.drop q.length = (lexFrom (1 + newlines seen) tail).1 ∧ (lexL text).2 = (lexFrom (1 + newlines seen) tail).2 ∧
      lex tail = rest := by
  have ht : (lex text).take q.length = q := by rw [e, List.take_left]
  obtain ⟨pre, post, e1, h1, h2⟩ := scan_at q.length text (by rw [e]; simp) (by rw [ht]; exact steps_noChar hq)
  obtain ⟨g, tail, e2, hs, hl, hn⟩ := next_at post.length post (Nat.le_refl _)
  subst e2
  rw [ht] at h2
  have e3 : 1 + newlines (pre ++ g) = 1 + newlines pre + newlines g := by rw [newlines_append]; omega
  have k1 : (lexL text).1.drop q.length = (lexFrom (1 + newlines (pre ++ g)) tail).1 := by
    rw [e3, ← hl]; exact (h1 1).1
  refine ⟨pre ++ g, tail, by rw [e1]; simp, hn, fun p hp c => ?_, k1, ?_, ?_⟩
  · obtain ⟨u, rfl⟩ := hp
    have := h2 (g ++ p) ⟨u, by simp⟩ c
    simp only [List.append_assoc] at this ⊢
    rw [this, hs p ⟨u, rfl⟩ c]
  · rw [e3, ← hl]; exact (h1 1).2
  · rw [← lexFrom_fst (1 + newlines (pre ++ g)), ← k1, List.map_drop]
    rw [show (lexL text).1.map (·.1) = lex text from lexFrom_fst 1 text, e, List.drop_left]

theorem lex_iri_a (s : Str) : lex (60 :: 97 :: 62 :: s) = someIri :: lex s := lex_iriRef (w := [97]) (by decide) s

theorem lex_iri_empty (s : Str) : lex (60 :: 62 :: s) = .iriRef [] :: lex s := lex_iriRef (w := []) (by simp) s

/-- What can be added to text whose tokens are known. -/
theorem viable_of {seen : Str} {q : List Tok} {s s1 : St} {ts : List Tok} {x : Str} (hq : steps (St.init m a) q = some s) (hg : Good s)
    (hx : ∀ c, lex (seen ++ x ++ c) = q ++ ts ++ lex c) (hs : steps s ts = some s1) : Viable m a (seen ++ x) := by
  have hg1 := steps_good hg hs
  refine ⟨lines s1.meet, (accepted_run _).2 ?_⟩
  rw [hx, lex_lines s1.meet_easy, List.append_assoc, run_steps _ hq, run_steps _ hs]
  exact run_end hg1

theorem steps_one {s s1 : St} (h : feed s.m s.addr s.phase t s.stack = .go s1) : steps s [t] = some s1 := by
  rw [steps, h]; rfl

theorem run_one {s : St} {rest : List Tok} (h : run s (t :: rest) = .bad (t :: rest) w) (hs : ∀ s1, feed s.m s.addr s.phase t s.stack ≠ .go s1) :
    feed s.m s.addr s.phase t s.stack = .bad w := by
  rw [run] at h
  cases hf : feed s.m s.addr s.phase t s.stack with
  | go s1 => exact absurd hf (hs s1)
  | bad w' => rw [hf] at h; cases h; rfl
  | ub => rw [hf] at h; cases h

theorem run_shorter : ∀ {ts : List Tok} {s : St} {rest : List Tok} {w : Why}, run s ts = .bad rest w → rest.length ≤ ts.length
  | ts, s, rest, w, h => by
    obtain ⟨q, s', e, -, -⟩ := run_bad_split h
    rw [e]; simp

theorem feed_of_run {s : St} {rest : List Tok} (h : run s (t :: rest) = .bad (t :: rest) w) : feed s.m s.addr s.phase t s.stack = .bad w := by
  refine run_one h fun s1 hf => ?_
  rw [run, hf] at h
  have := run_shorter h
  simp at this
  omega

theorem says_of {seen : Str} {q rest : List Tok} {s : St} {e : LastErr.Err} (hq : steps (St.init m a) q = some s) (hg : Good s)
    (hseen : ∀ c, lex (seen ++ 10 :: c) = q ++ lex c) (hr : run s (t :: rest) = .bad (t :: rest) w)
    (h1 : e.code = w.code) (h2 : e.msg = w.msg) : Says m a seen e t := by
  have hf := feed_of_run hr
  have takes : ∀ s1, feed s.m s.addr s.phase someIri s.stack = .go s1 → TakesIri m a seen := fun s1 h =>
    viable_of (ts := [someIri]) hq hg (fun c => by
      have : seen ++ ascii "\n<a>" ++ c = seen ++ 10 :: (60 :: 97 :: 62 :: c) := by rw [List.append_assoc]; rfl
      rw [this, hseen, lex_iri_a]; simp) (steps_one h)
  by_cases hw : w = .syntax
  · subst hw
    by_cases ht : t.nameLike
    · refine .name h1 h2 ht ?_
      rcases feed_not hf ht with ⟨w', h⟩ | ⟨s1, h⟩
      · refine .inl fun ⟨c, hc⟩ => ?_
        have hc := (accepted_run _).1 hc
        have e1 : seen ++ ascii "\n<a>" ++ c = seen ++ 10 :: (60 :: 97 :: 62 :: c) := by rw [List.append_assoc]; rfl
        rw [e1, hseen, lex_iri_a, run_steps _ hq, run, h] at hc
        cases hc
      · exact .inr (viable_of (ts := [.iriRef []]) hq hg (fun c => by
          have : seen ++ ascii "\n<>" ++ c = seen ++ 10 :: (60 :: 62 :: c) := by rw [List.append_assoc]; rfl
          rw [this, hseen, lex_iri_empty]; simp) (steps_one h))
    · exact .other h1 h2 (fun n e => ht (.inl ⟨n, e⟩)) fun e => ht (.inr e)
  · obtain ⟨hfit, s1, hgo⟩ := feed_name hf hw
    rcases hfit with ⟨n, rfl, rfl⟩ | ⟨rfl, rfl⟩
    · exact .unresolved h1 h2 (takes s1 hgo)
    · exact .empty h1 h2 (takes s1 hgo)

theorem docError_none {text : Str} (h : Accepted m a text) : docError m a text = none := by
  unfold docError
  rw [(accepted_run text).1 h]

theorem docError_silent {text : Str} (h : docError m a text = none) : Accepted m a text ∨ run (St.init m a) (lex text) = .ub := by
  unfold docError at h
  cases hr : run (St.init m a) (lex text) with
  | ok => exact .inl ((accepted_run text).2 hr)
  | ub => exact .inr rfl
  | bad rest w => rw [hr] at h; cases h

theorem docError_fault {text : Str} {e : LastErr.Err} (h : docError m a text = some e) :
    ∃ first last, Fault m a text e first last ∧ e.line = UInt32.ofNat (1 + newlines last) ∧ e.byte = 0 ∧ e.col = 0 := by
  unfold docError at h
  cases hr : run (St.init m a) (lex text) with
  | ok => rw [hr] at h; cases h
  | ub => rw [hr] at h; cases h
  | bad rest w =>
    rw [hr] at h
    dsimp only at h
    have he := (Option.some.inj h).symm
    have hna : ¬ Accepted m a text := fun hc => by rw [accepted_run, hr] at hc; cases hc
    obtain ⟨q, s, eq, hq, hb⟩ := run_bad_split hr
    have hg := steps_good (init_good m a) hq
    obtain ⟨seen, tail, rfl, hn, hl, hd1, hd2, htail⟩ := locate eq hq
    have hlen : (lexL (seen ++ tail)).1.length - rest.length = q.length := by
      have : ((lexL (seen ++ tail)).1.map (·.1)).length = (q ++ rest).length := by
        rw [show (lexL (seen ++ tail)).1.map (·.1) = lex (seen ++ tail) from lexFrom_fst 1 _, eq]
      simp at this
      omega
    have hat : (lexL (seen ++ tail)).1[(lexL (seen ++ tail)).1.length - rest.length]? = (lexFrom (1 + newlines seen) tail).1.head? := by
      rw [hlen, ← hd1, List.head?_drop]
    rw [hat, hd2] at he
    have hseen : ∀ c, lex (seen ++ 10 :: c) = q ++ lex c := fun c => by
      have := hl [] List.nil_prefix c
      rwa [List.nil_append, lex_newline] at this
    have viable : Viable m a seen := by
      refine ⟨10 :: lines s.meet, (accepted_run _).2 ?_⟩
      rw [hseen, lex_lines s.meet_easy, run_steps _ hq]
      exact run_end hg
    have hend : rest = [] → w = .syntax := fun hr0 => by
      subst hr0
      rw [run] at hb
      split at hb <;> cases hb
      rfl
    cases hn with
    | none =>
      have hw := hend htail.symm
      subst hw
      have hv : (lexFrom (1 + newlines seen) []).1.head? = none := rfl
      rw [hv] at he
      refine ⟨_, _, .ended ?_ hna (by rw [he]; rfl) (by rw [he]; rfl), ?_, by rw [he], by rw [he]⟩
      · rw [List.append_nil]; exact viable
      · rw [he, List.append_nil]; rfl
    | @tok t w' post hsp hne hnc h1 h2 =>
      have hrest : rest = t :: lex post := by
        rw [← htail, ← lexFrom_fst 0, h1, List.map_cons, lexFrom_fst]
      subst hrest
      rw [h1] at he
      refine ⟨_, _, .word (List.append_assoc ..).symm hne hsp viable (fun c hc => ?_)
        (says_of hq hg hseen hb (by rw [he]) (by rw [he])), ?_, by rw [he], by rw [he]⟩
      · have hc := (accepted_run _).1 hc
        have k := hl w' ⟨post, rfl⟩ c
        have k2 := h2 [] List.nil_prefix c
        rw [List.nil_append] at k2
        rw [List.append_assoc, k, k2, run_steps _ hq, run_bad_more hb] at hc
        cases hc
      · rw [he, newlines_append]
        show UInt32.ofNat (1 + newlines seen + newlines w') = _
        rw [Nat.add_assoc]
    | @char c w' post hsp hne h1 h2 =>
      have hrest : ∃ r, rest = .char c :: r := by
        have h0 := h1 0
        rw [← htail, ← lexFrom_fst 0]
        cases hf : (lexFrom 0 (w' ++ post)).1 with
        | nil => rw [hf] at h0; cases h0
        | cons y ys => rw [hf] at h0; cases h0; exact ⟨_, rfl⟩
      obtain ⟨r, rfl⟩ := hrest
      rw [h1] at he
      refine ⟨_, _, .word (List.append_assoc ..).symm hne hsp viable (fun x hx => ?_)
        (says_of hq hg hseen hb (by rw [he]) (by rw [he])), ?_, by rw [he], by rw [he]⟩
      · have hx := (accepted_run _).1 hx
        have k := hl w' ⟨post, rfl⟩ x
        have k2 := h2 x
        cases hf : lex (w' ++ 10 :: x) with
        | nil => rw [hf] at k2; cases k2
        | cons y ys =>
          rw [hf] at k2
          cases k2
          rw [List.append_assoc, k, hf, run_steps _ hq, run_bad_more hb] at hx
          cases hx
      · rw [he, newlines_append]
        show UInt32.ofNat (1 + newlines seen + newlines w') = _
        rw [Nat.add_assoc]
    | @stop c post hc h1 =>
      have hw := hend (by rw [← htail, ← lexFrom_fst 0, h1]; rfl)
      subst hw
      rw [h1] at he
      have hc' : c = 0 ∨ 128 ≤ c := by simpa [endsInput] using hc
      exact ⟨_, _, .stopped rfl hc' viable hna (by rw [he]; rfl) (by rw [he]; rfl), by rw [he]; rfl, by rw [he], by rw [he]⟩
    | @unended v b hqs h1 =>
      have hw := hend (by rw [← htail, ← lexFrom_fst 0, h1]; rfl)
      subst hw
      rw [h1] at he
      refine ⟨_, _, .unended rfl hqs viable hna (by rw [he]; rfl) (by rw [he]; rfl), ?_, by rw [he], by rw [he]⟩
      rw [he, newlines_append]
      show UInt32.ofNat (1 + newlines seen + newlines b) = _
      rw [show 34 :: b = [34] ++ b from rfl, newlines_append, show newlines [34] = 0 from rfl, Nat.zero_add, Nat.add_assoc]

end Cowl.Func
