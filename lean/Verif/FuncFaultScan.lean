import Verif.FuncFaultLex
import Verif.FuncCutParse
/-! # The next token of a text, and its line -/
namespace Cowl.Func

/-! ## Tokens and their text -/

theorem take_textLen {w s : Str} (h : 0 < textLen w s) : s.take (textLen w s) = w := by
  obtain ⟨u, rfl⟩ := textLen_pos h
  unfold textLen at h ⊢
  split at h
  · rename_i hw; rw [if_pos hw, List.take_left]
  · omega

theorem take_takeWhile_one {p : UInt8 → Bool} {s : Str} {x : UInt8} (h : (s.drop (s.takeWhile p).length).head? = some x) :
    s.take ((s.takeWhile p).length + 1) = s.takeWhile p ++ [x] := by
  rw [List.take_add_one, take_takeWhile]
  congr 1
  rw [List.head?_drop] at h
  rw [h]; rfl

theorem ns_split {s : Str} (h : 0 < pnameNsLen s) : ∃ p, s.take (pnameNsLen s) = p ++ [58] := by
  unfold pnameNsLen at h ⊢
  dsimp only at h ⊢
  split at h
  · rename_i h'; rw [if_pos h', take_takeWhile_one h'.1]; exact ⟨_, rfl⟩
  · omega

theorem rule_spells {r : Rule} (hr : r.plain = true) {s : Str} (h : 0 < r.len s) :
    Spells (r.tok (s.take (r.len s))) (s.take (r.len s)) := by
  have hno : 10 ∉ s.take (r.len s) := fun h => rule_newline (by rintro rfl; cases hr) h rfl
  cases r with
  | ws | comment | qmark | any => cases hr
  | kw k => rw [show s.take (Rule.len s (.kw k)) = k.text from take_textLen h]; exact .kw k
  | dcaret => rw [show s.take (Rule.len s .dcaret) = [94, 94] from take_textLen h]; exact .dcaret
  | lpar => rw [show s.take (Rule.len s .lpar) = [40] from take_textLen h]; exact .lpar
  | rpar => rw [show s.take (Rule.len s .rpar) = [41] from take_textLen h]; exact .rpar
  | equals => rw [show s.take (Rule.len s .equals) = [61] from take_textLen h]; exact .equals
  | nat =>
    rw [show s.take (Rule.len s .nat) = s.takeWhile isDig from take_takeWhile isDig s]
    refine .nat (fun e => ?_) fun x hx => ?_
    · have : Rule.len s .nat = (s.takeWhile isDig).length := rfl
      rw [e] at this
      rw [this] at h
      exact absurd h (by simp)
    · have : isDig x = true := List.all_eq_true.1 List.all_takeWhile x hx
      simpa [isDig] using this
  | iriRef =>
    cases s with
    | nil => exact absurd h (by simp [Rule.len, iriRefLen])
    | cons c t =>
      have e : Rule.len (c :: t) .iriRef = iriRefLen (c :: t) := rfl
      rw [e, iriRefLen_cons] at h
      rw [e, iriRefLen_cons]
      split at h
      · rename_i hc
        split at h
        · rename_i h'
          subst hc
          rw [e, iriRefLen_cons, if_pos rfl, if_pos h', List.take_succ_cons, take_takeWhile_one h'] at hno
          rw [if_pos rfl, if_pos h', List.take_succ_cons, take_takeWhile_one h']
          have : Rule.tok (60 :: (t.takeWhile isIriChar ++ [62])) .iriRef = .iriRef (t.takeWhile isIriChar) := by
            simp [Rule.tok]
          rw [this]
          exact .iriRef fun h => hno (by simp [h])
        · omega
      · omega
  | pnameNs =>
    obtain ⟨p, hp⟩ := ns_split (s := s) h
    have hp : s.take (Rule.len s .pnameNs) = p ++ [58] := hp
    rw [hp] at hno ⊢
    have : Rule.tok (p ++ [58]) .pnameNs = .pnameNs p := by simp [Rule.tok]
    rw [this]
    exact .pnameNs fun h => hno (by simp [h])
  | pnameLn =>
    have h : 0 < pnameLnLen s := h
    have e : Rule.len s .pnameLn = pnameLnLen s := rfl
    rw [e] at hno ⊢
    have k : pnameLnLen s = if pnameNsLen s = 0 ∨ pnLocalLen (s.drop (pnameNsLen s)) = 0 then 0 else
      pnameNsLen s + pnLocalLen (s.drop (pnameNsLen s)) := rfl
    rw [k] at h hno ⊢
    split at h
    · omega
    · rename_i h'
      rw [if_neg h'] at hno ⊢
      obtain ⟨p, hp⟩ := ns_split (s := s) (by omega)
      rw [List.take_add, hp, List.append_assoc] at hno ⊢
      refine .pnameLn (fun e => ?_) fun h => hno (by
        rcases List.mem_append.1 h with h | h
        · exact List.mem_append.2 (.inl h)
        · exact List.mem_append.2 (.inr (List.mem_append.2 (.inr h))))
      have hl : pnLocalLen (s.drop (pnameNsLen s)) ≠ 0 := fun x => h' (.inr x)
      generalize s.drop (pnameNsLen s) = u at *
      cases u with
      | nil => exact hl rfl
      | cons c u => simp [hl] at e
  | blank =>
    match s with
    | [] => exact absurd h (by simp [Rule.len, blankLen])
    | [c] => exact absurd h (by simp [Rule.len, blankLen])
    | c :: d :: t =>
      have e : Rule.len (c :: d :: t) .blank = blankLen (c :: d :: t) := rfl
      rw [e, blankLen_cons] at h
      rw [e, blankLen_cons]
      split at h
      · rename_i hc
        split at h
        · omega
        · rename_i h'
          obtain ⟨rfl, rfl⟩ := hc
          rw [e, blankLen_cons, if_pos ⟨rfl, rfl⟩, if_neg h'] at hno
          rw [if_pos ⟨rfl, rfl⟩, if_neg h']
          exact .blank (s := t.take (pnLocalLen t)) fun h => hno (by simp [h])
      · omega
  | lang =>
    cases s with
    | nil => exact absurd h (by simp [Rule.len, langLen])
    | cons c t =>
      have e : Rule.len (c :: t) .lang = langLen (c :: t) := rfl
      have hc : c = 64 := by
        rw [e, langLen_cons] at h
        split at h
        · assumption
        · omega
      subst hc
      obtain ⟨n, hn⟩ : ∃ n, Rule.len (64 :: t) .lang = n + 1 := ⟨Rule.len (64 :: t) .lang - 1, by omega⟩
      rw [hn] at hno ⊢
      exact .lang (s := t.take n) fun h => hno (by simp [h])

theorem plain_noChar {r : Rule} (hr : r.plain = true) (w : Str) (c : UInt8) : r.tok w ≠ .char c := by
  cases r <;> first | (intro h; cases h; done) | cases hr

theorem textLen_le (w s : Str) : textLen w s ≤ s.length := by
  rcases Nat.eq_zero_or_pos (textLen w s) with h | h
  · omega
  · have h1 := (textLen_pos h).length_le
    unfold textLen
    split <;> omega

theorem takeWhile_le (p : UInt8 → Bool) (s : Str) : (s.takeWhile p).length ≤ s.length := (List.takeWhile_prefix p).length_le

theorem local_le (s : Str) : pnLocalLen s ≤ s.length := by
  cases s with
  | nil => simp [pnLocalLen]
  | cons c s =>
    unfold pnLocalLen
    dsimp only
    split
    · exact Nat.le_trans (trimDots_len _) (takeWhile_le ..)
    · omega

theorem tail_le : ∀ (n : Nat) (s : Str), langTailLen n s ≤ s.length
  | 0, _ => by simp [langTailLen]
  | _ + 1, [] => by simp [langTailLen]
  | n + 1, c :: s => by
    rw [langTail_cons]
    have h1 := takeWhile_le isAlnum s
    have h2 := tail_le n (s.drop (s.takeWhile isAlnum).length)
    rw [List.length_drop] at h2
    rw [List.length_cons]
    repeat' split
    all_goals omega

theorem rule_le (r : Rule) (s : Str) : r.len s ≤ s.length := by
  cases r with
  | ws => exact takeWhile_le ..
  | kw k => exact textLen_le ..
  | nat => exact takeWhile_le ..
  | iriRef =>
    cases s with
    | nil => simp [Rule.len, iriRefLen]
    | cons c t =>
      show iriRefLen (c :: t) ≤ _
      rw [iriRefLen_cons, List.length_cons]
      split
      · split
        · rename_i h
          have : (t.takeWhile isIriChar).length < t.length := Nat.lt_of_not_le fun hle => by
            rw [List.drop_eq_nil_of_le hle] at h; cases h
          omega
        · omega
      · omega
  | pnameNs => exact ns_len s
  | pnameLn =>
    show (if pnameNsLen s = 0 ∨ pnLocalLen (s.drop (pnameNsLen s)) = 0 then 0 else pnameNsLen s + pnLocalLen (s.drop (pnameNsLen s))) ≤ _
    have h1 := ns_len s
    have h2 := local_le (s.drop (pnameNsLen s))
    rw [List.length_drop] at h2
    split <;> omega
  | blank =>
    match s with
    | [] => simp [Rule.len, blankLen]
    | [c] => simp [Rule.len, blankLen]
    | c :: d :: t =>
      show blankLen (c :: d :: t) ≤ _
      rw [blankLen_cons]
      have := local_le t
      simp only [List.length_cons]
      repeat' split
      all_goals omega
  | lang =>
    cases s with
    | nil => simp [Rule.len, langLen]
    | cons c t =>
      show langLen (c :: t) ≤ _
      rw [langLen_cons, List.length_cons]
      have h1 := takeWhile_le isAlpha t
      have h2 := tail_le t.length (t.drop (t.takeWhile isAlpha).length)
      rw [List.length_drop] at h2
      repeat' split
      all_goals omega
  | qmark => exact textLen_le ..
  | dcaret => exact textLen_le ..
  | lpar => exact textLen_le ..
  | rpar => exact textLen_le ..
  | equals => exact textLen_le ..
  | comment =>
    cases s with
    | nil => simp [Rule.len]
    | cons c t =>
      rw [commentLen_cons, List.length_cons]
      have := takeWhile_le (· != 10) t
      split <;> omega
  | any =>
    cases s with
    | nil => simp [Rule.len]
    | cons c t =>
      show (if c = 10 then 0 else 1) ≤ _
      rw [List.length_cons]
      split <;> omega

/-! ## Matches before a newline -/

/-- What is matched is not changed when the text is cut after it and a newline follows. -/
theorem best_swap {x y p z : Str} {r : Rule} (hx : x ≠ []) (hr : r ≠ .ws) (h : best (x ++ y) = (r, x.length)) (hp : p <+: y) :
    best (x ++ (p ++ 10 :: z)) = (r, x.length) := by
  obtain ⟨u, rfl⟩ := hp
  have e : best (x ++ p) = (r, x.length) := by
    rw [← h, ← List.append_assoc]
    refine best_cut ?_
    rw [List.append_assoc, h]
    simp
  cases x with
  | nil => exact absurd rfl hx
  | cons c x =>
    rcases best_newline (c := c) (t := x ++ p) z with k | k
    · rw [← e]
      have := best_cut (t := c :: x ++ p) (u := 10 :: z) k
      rw [this, List.append_assoc]
    · exfalso
      have k1 : (best (c :: (x ++ p ++ 10 :: z))).1 = .ws := k
      have hw : isWs c = true := by
        have h1 := best_pos c (x ++ p ++ 10 :: z)
        rw [best_len, k1] at h1
        exact len_first h1
      have h2 : best (c :: (x ++ p)) = (.ws, Rule.len (c :: (x ++ p)) .ws) :=
        best_solo rfl (by simp [Rule.len, List.takeWhile_cons_of_pos hw])
      have : best (c :: (x ++ p)) = (r, (c :: x).length) := e
      rw [h2] at this
      exact hr (congrArg _root_.Prod.fst this).symm

theorem lex_whites : ∀ {g : Str} (_ : ∀ x ∈ g, isWs x = true) (x : Str), lex (g ++ x) = lex x
  | [], _, _ => rfl
  | c :: g, h, x => by
    rw [List.cons_append, lex_white (h c (by simp)), lex_whites (fun y hy => h y (by simp [hy]))]

/-! ## The next token -/

/-- Nothing but white space and comments. -/
def Skips (g rest : Str) : Prop := ∀ p, p <+: rest → ∀ c, lex (g ++ (p ++ 10 :: c)) = lex (p ++ 10 :: c)

/-- What begins a text. -/
inductive Next : Str → Prop where
  | none : Next []
  | tok {t : Tok} {w post : Str} : Spells t w → w ≠ [] → (∀ c, t ≠ .char c) →
      (∀ l, lexFrom l (w ++ post) = ((t, l + newlines w) :: (lexFrom (l + newlines w) post).1, (lexFrom (l + newlines w) post).2)) →
      (∀ p, p <+: post → ∀ c, lex (w ++ (p ++ 10 :: c)) = t :: lex (p ++ 10 :: c)) → Next (w ++ post)
  | char {c : UInt8} {w post : Str} : Spells (.char c) w → w ≠ [] →
      (∀ l, (lexFrom l (w ++ post)).1.head? = some (.char c, l + newlines w)) →
      (∀ x, (lex (w ++ 10 :: x)).head? = some (.char c)) → Next (w ++ post)
  | stop {c : UInt8} {post : Str} : endsInput c = true → (∀ l, lexFrom l (c :: post) = ([], l)) → Next (c :: post)
  | unended {v b : Str} : Quotes v b → (∀ l, lexFrom l (34 :: b) = ([], l + newlines b)) → Next (34 :: b)

theorem Skips.nil (rest : Str) : Skips [] rest := fun _ _ _ => rfl

theorem Skips.append {g h rest : Str} (h1 : Skips g (h ++ rest)) (h2 : Skips h rest) : Skips (g ++ h) rest := fun p hp c => by
  have := h1 (h ++ p) (by obtain ⟨u, rfl⟩ := hp; exact ⟨u, by simp⟩) c
  rw [List.append_assoc] at this
  rw [List.append_assoc, this, h2 p hp c]

theorem next_cons (c : UInt8) (s : Str) :
    (∃ g rest, c :: s = g ++ rest ∧ g ≠ [] ∧ Skips g rest ∧ ∀ l, lexFrom l (c :: s) = lexFrom (l + newlines g) rest) ∨ Next (c :: s) := by
  have hb : best (c :: s) = ((best (c :: s)).1, (best (c :: s)).1.len (c :: s)) := by rw [← best_len]
  have hpos := best_pos c s
  rw [best_len] at hpos
  generalize hr : (best (c :: s)).1 = r at hb hpos
  have hle : r.len (c :: s) ≤ (c :: s).length := by
    exact rule_le r _
  have hsplit : (c :: s).take (r.len (c :: s)) ++ (c :: s).drop (r.len (c :: s)) = c :: s := List.take_append_drop ..
  have hlen : ((c :: s).take (r.len (c :: s))).length = r.len (c :: s) := by rw [List.length_take]; omega
  have hne : (c :: s).take (r.len (c :: s)) ≠ [] := fun e => by rw [e] at hlen; simp at hlen; omega
  have hb' : best ((c :: s).take (r.len (c :: s)) ++ (c :: s).drop (r.len (c :: s))) = (r, ((c :: s).take (r.len (c :: s))).length) := by
    rw [hsplit, hlen]; exact hb
  have swap : r ≠ .ws → ∀ p, p <+: (c :: s).drop (r.len (c :: s)) → ∀ z,
      best ((c :: s).take (r.len (c :: s)) ++ (p ++ 10 :: z)) = (r, r.len (c :: s)) := fun hw p hp z => by
    have := best_swap (z := z) hne hw hb' hp
    rwa [hlen] at this
  generalize hk : r.len (c :: s) = k at *
  have nl : r ≠ .ws → newlines ((c :: s).take k) = 0 := fun hw => by rw [← hk]; exact rule_newlines hw _
  obtain ⟨x, hx⟩ : ∃ x, (c :: s).take k = c :: x := by
    cases k with
    | zero => omega
    | succ k => exact ⟨_, List.take_succ_cons⟩
  have dropk : ∀ y : Str, (c :: x ++ y).drop k = y := fun y => by
    rw [hx] at hlen
    rw [← hlen, List.drop_left]
  have takek : ∀ y : Str, (c :: x ++ y).take k = c :: x := fun y => by
    rw [hx] at hlen
    rw [← hlen, List.take_left]
  by_cases hws : r = .ws
  · subst hws
    refine .inl ⟨_, _, hsplit.symm, hne, fun p _ z => lex_whites (fun y hy => ?_) _, fun l => lexFrom_gap (.inl rfl) hb⟩
    rw [← hk] at hy
    exact mem_take_takeWhile (p := isWs) hy
  · have swap := swap hws
    by_cases hcm : r = .comment
    · subst hcm
      refine .inl ⟨_, _, hsplit.symm, hne, fun p hp z => ?_, fun l => lexFrom_gap (.inr rfl) hb⟩
      have := swap p hp z
      rw [hx, List.cons_append] at this
      rw [hx, List.cons_append, lex_comment this]
      exact congrArg lex (dropk _)
    · refine .inr ?_
      by_cases hpl : r.plain = true
      · have hsp : Spells (r.tok ((c :: s).take k)) ((c :: s).take k) := by
          rw [← hk]; exact rule_spells hpl (by omega)
        have := Next.tok (post := (c :: s).drop k) hsp hne (plain_noChar hpl _) (fun l => ?_) (fun p hp z => ?_)
        · rwa [hsplit] at this
        · rw [hsplit]; exact lexFrom_tok hb hpl
        · have := swap p hp z
          rw [hx, List.cons_append] at this
          rw [hx, List.cons_append, lex_tok this hpl]
          rw [show (c :: (x ++ (p ++ 10 :: z))).drop k = p ++ 10 :: z from dropk _,
            show (c :: (x ++ (p ++ 10 :: z))).take k = c :: x from takek _]
      · have hqa : r = .qmark ∨ r = .any := by
          cases r <;> first | exact absurd rfl hpl | exact absurd rfl hws | exact absurd rfl hcm | exact .inl rfl | exact .inr rfl
        rcases hqa with rfl | rfl
        · have hc : c = 34 := by
            have : 0 < textLen [34] (c :: s) := by
              have : textLen [34] (c :: s) = k := hk
              omega
            exact textLen_head this
          subst hc
          obtain ⟨v, b, y, e, hq, h⟩ := lexQ_cases s []
          have nl34 : ∀ b y : Str, newlines b = newlines (34 :: b ++ y) - newlines y := fun b y => by
            rw [newlines_append]
            rw [show 34 :: b = [34] ++ b from rfl, newlines_append]
            have : newlines [34] = 0 := rfl
            omega
          rcases h with ⟨y, rfl, hd⟩ | ⟨y, rfl, hd, hl⟩ | ⟨rfl, hd⟩
          · have e' : 34 :: s = (34 :: b ++ [34]) ++ y := by rw [e]; simp
            have hL : ∀ l, lexQLine s l = l + newlines (34 :: b ++ [34]) := fun l => by
              rw [e, hq.line, lexQLine_end]
              have := nl34 b [34]
              have k0 : newlines [34] = 0 := rfl
              rw [k0] at this
              omega
            rw [e']
            refine Next.tok (.qstr hq) (by simp) (fun _ h => by cases h) (fun l => ?_) (fun p hp z => ?_)
            · rw [← e', lexFrom_quote, hd]
              dsimp only
              rw [hL, List.nil_append]
            · have : 34 :: b ++ [34] ++ (p ++ 10 :: z) = 34 :: (b ++ 34 :: (p ++ 10 :: z)) := by simp
              rw [this]
              exact lex_quote (by rw [hq.scan, lexQ_close, List.nil_append])
          · have e' : 34 :: s = (34 :: b ++ [92]) ++ y := by rw [e]; simp
            have hL : ∀ l, lexQLine s l = l + newlines (34 :: b ++ [92]) := fun l => by
              rw [e, hq.line, hl]
              have := nl34 b [92]
              have k0 : newlines [92] = 0 := rfl
              rw [k0] at this
              omega
            rw [e']
            refine Next.char (.broken hq) (by simp) (fun l => ?_) fun z => ?_
            · rw [← e', lexFrom_quote, hd]
              dsimp only
              rw [hL]; rfl
            · have : 34 :: b ++ [92] ++ 10 :: z = 34 :: (b ++ 92 :: 10 :: z) := by simp
              rw [this, lex_qmark (best_quote _)]
              show (match lexQ (b ++ 92 :: 10 :: z) [] with
                | .done v rest => Tok.qstr v :: lex rest
                | .bad c => [.char c]
                | .eof => []).head? = _
              rw [hq.scan, lexQ_bad (by decide)]
              rfl
          · rw [List.append_nil] at e
            subst e
            refine Next.unended hq fun l => ?_
            rw [lexFrom_quote, hd]
            dsimp only
            have := hq.line l []
            rw [List.append_nil] at this
            rw [this]; rfl
        · have hk1 : k = 1 := by
            have hk : (if c = 10 then 0 else 1) = k := hk
            split at hk <;> omega
          have hc10 : c ≠ 10 := fun e => by
            have hk : (if c = 10 then 0 else 1) = k := hk
            rw [if_pos e] at hk
            omega
          subst hk1
          by_cases he : endsInput c = true
          · refine Next.stop he fun l => ?_
            rw [lexFrom_any hb, if_pos he, nl (by simp), Nat.add_zero]
          · have := Next.char (c := c) (w := [c]) (post := s) (.char hc10) (by simp) (fun l => ?_) (fun z => ?_)
            · exact this
            · rw [show [c] ++ s = c :: s from rfl, lexFrom_any hb, if_neg he]; rfl
            · have := swap [] (List.nil_prefix) z
              have : best (c :: 10 :: z) = (.any, 1) := this
              rw [show [c] ++ 10 :: z = c :: 10 :: z from rfl, lex_any this, if_neg he]; rfl

/-- White space and comments, and what follows. -/
theorem next_at : ∀ (n : Nat) (s : Str), s.length ≤ n →
    ∃ g rest, s = g ++ rest ∧ Skips g rest ∧ (∀ l, lexFrom l s = lexFrom (l + newlines g) rest) ∧ Next rest
  | _, [], _ => ⟨[], [], rfl, .nil _, fun _ => rfl, .none⟩
  | 0, _ :: _, h => by simp at h
  | n + 1, c :: s, h => by
    rcases next_cons c s with ⟨g, rest, e, hg, hs, hl⟩ | hn
    · have hlen : rest.length ≤ n := by
        have := congrArg List.length e
        have : 0 < g.length := List.length_pos_iff.2 hg
        simp at *
        omega
      obtain ⟨g', rest', e', hs', hl', hn⟩ := next_at n rest hlen
      subst e'
      refine ⟨g ++ g', rest', by rw [e, List.append_assoc], hs.append hs', fun l => ?_, hn⟩
      rw [hl, hl', newlines_append, Nat.add_assoc]
    · exact ⟨[], c :: s, rfl, .nil _, fun _ => rfl, hn⟩

end Cowl.Func
