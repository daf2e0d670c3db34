import Verif.FuncTextLemmas
/-!
# Lemmas: reading back what is written, by induction on constructs

`RT m c txt o`: the text `txt`, before anything that can follow a construct, is parsed
as nonterminal `c` with result `o`.
-/
namespace Cowl.Func
open Cowl.FuncSpec Cowl.Ast

/-- Tokens that continue a literal. -/
def Tok.isTail : Tok → Bool
  | .lang _ | .dcaret => true
  | _ => false

/-- What may follow a construct. -/
def Follow (rest : Str) : Prop := Delim rest ∧ ∀ t ∈ (lex rest).head?, t.isTail = false

/-- Tokens a construct can begin with. -/
def Tok.opens : Tok → Bool
  | .lang _ | .dcaret | .rpar => false
  | _ => true

theorem Tok.opens_tail {t : Tok} (h : t.opens = true) : t.isTail = false := by
  cases t <;> first | rfl | cases h

/-- As `RT`, for what can follow according to `F`. -/
structure RTF (F : Str → Prop) (m : Prefix.PMap) (c : Cat) (txt : Str) (o : Obj) : Prop where
  pos : 0 < txt.length
  run : ∀ rest, F rest → ∃ tk ts, lex (txt ++ rest) = tk :: ts ∧ tk.opens = true ∧
    (tk = .kw .annotation ↔ c = .annotation) ∧
    ∀ n, txt.length ≤ n → parseCat m n c (tk :: ts) = some (o, lex rest)

/-- See the module comment. -/
abbrev RT := RTF Follow

/-- Read back whatever follows. -/
abbrev RTC := RTF fun _ => True

theorem RTF.weak {m : Prefix.PMap} {c : Cat} {txt : Str} {o : Obj} (h : RTC m c txt o) : RT m c txt o :=
  ⟨h.pos, fun rest _ => h.run rest trivial⟩

theorem follow_rpar (rest : Str) : Follow (41 :: rest) := by
  refine ⟨.rpar rest, ?_⟩
  rw [lex_rpar]; rintro t ht; cases ht; rfl

/-! ## Separators -/

/-- What follows the first of several pieces. -/
def sep (ps : List Str) (rest : Str) : Str :=
  match ps with
  | [] => rest
  | p :: ps => 32 :: (joinSp (p :: ps) ++ rest)

theorem join_cons (t : Str) (ps : List Str) (rest : Str) : joinSp (t :: ps) ++ rest = t ++ sep ps rest := by
  cases ps with
  | nil => rfl
  | cons p ps => simp [joinSp, sep]

theorem lex_sep (ps : List Str) (rest : Str) : lex (sep ps rest) = lex (joinSp ps ++ rest) := by
  cases ps with
  | nil => rfl
  | cons p ps => rw [sep, lex_space]

theorem delim_sep {ps : List Str} {rest : Str} (h : Delim rest) : Delim (sep ps rest) := by
  cases ps with
  | nil => exact h
  | cons p ps => exact .space _

theorem follow_sep {ps : List Str} {rest : Str} (h : Delim rest)
    (h2 : ∀ t ∈ (lex (joinSp ps ++ rest)).head?, t.isTail = false) : Follow (sep ps rest) :=
  ⟨delim_sep h, by rw [lex_sep]; exact h2⟩

theorem join_le {t : Str} : ∀ {ps : List Str}, t ∈ ps → t.length ≤ (joinSp ps).length
  | p :: [], h => by rw [List.mem_singleton] at h; rw [h]; exact Nat.le_refl _
  | p :: q :: ps, h => by
    rw [joinSp, List.length_append, List.length_cons]
    rcases List.mem_cons.1 h with h | h
    · rw [h]; omega
    · have := join_le h; omega

theorem join_tail_le (t : Str) (ps : List Str) : (joinSp ps).length ≤ (joinSp (t :: ps)).length := by
  cases ps with
  | nil => simp [joinSp]
  | cons p ps => rw [joinSp.eq_3, List.length_append, List.length_cons]; omega

theorem count_le : ∀ {ps : List Str}, (∀ t ∈ ps, 0 < t.length) → ps.length ≤ (joinSp ps).length
  | [], _ => Nat.le_refl _
  | [p], h => h p (List.mem_singleton.2 rfl)
  | p :: q :: ps, h => by
    simp only [joinSp, List.length_append, List.length_cons]
    have := count_le (ps := q :: ps) fun t ht => h t (List.mem_cons_of_mem _ ht)
    rw [List.length_cons] at this
    have := h p (List.mem_cons_self ..)
    omega

/-! ## Lists -/

/-- Texts with the objects they stand for. -/
abbrev Items := List (Str × Obj)

def Items.texts (l : Items) : List Str := l.map Prod.fst
def Items.objs (l : Items) : List Obj := l.map Prod.snd

/-- All items are read back. -/
def AllRT (m : Prefix.PMap) (c : Cat) (l : Items) : Prop := ∀ it ∈ l, RT m c it.1 it.2

theorem AllRT.tail {m : Prefix.PMap} {c : Cat} {it : Str × Obj} {l : Items} (h : AllRT m c (it :: l)) :
    AllRT m c l := fun x hx => h x (List.mem_cons_of_mem _ hx)

theorem AllRT.head {m : Prefix.PMap} {c : Cat} {it : Str × Obj} {l : Items} (h : AllRT m c (it :: l)) :
    RT m c it.1 it.2 := h _ (List.mem_cons_self ..)

theorem AllRT.count {m : Prefix.PMap} {c : Cat} {l : Items} (h : AllRT m c l) :
    l.length ≤ (joinSp l.texts).length := by
  have := count_le (ps := l.texts) fun t ht => by
    obtain ⟨it, h1, rfl⟩ := List.mem_map.1 ht
    exact (h it h1).pos
  simpa [Items.texts] using this

/-- First token of a list with a closing parenthesis. -/
theorem AllRT.first {m : Prefix.PMap} {c : Cat} : ∀ {l : Items}, AllRT m c l → ∀ {rest : Str}, Follow rest →
    ∀ t ∈ (lex (joinSp l.texts ++ rest)).head?, t.isTail = false
  | [], _, rest, hr => hr.2
  | it :: l, h, rest, hr => by
    intro t ht
    rw [show Items.texts (it :: l) = it.1 :: Items.texts l from rfl, join_cons] at ht
    obtain ⟨tk, ts, e, h1, _⟩ := h.head.run _ (follow_sep hr.1 (AllRT.first h.tail hr))
    rw [e] at ht; cases ht
    exact Tok.opens_tail h1

theorem parseMany_cons {p : Parser} {c : Cat} {n : Nat} {tk : Tok} {ts : List Tok} (h : tk.opens = true)
    {o : Obj} {ts' : List Tok} (hp : p c (tk :: ts) = some (o, ts')) :
    parseMany p c (n + 1) (tk :: ts) =
      (parseMany p c n ts').bind fun r => some (o :: r.1, r.2) := by
  rw [parseMany]
  · simp only [hp, Option.bind_eq_bind, Option.bind_some]
  · intro ts e; cases e; cases h

theorem many_rt {m : Prefix.PMap} {c : Cat} {n : Nat} (rest : Str) : ∀ (l : Items), AllRT m c l → ∀ f,
    l.length < f → (∀ it ∈ l, it.1.length ≤ n) →
    parseMany (parseCat m n) c f (lex (joinSp l.texts ++ 41 :: rest)) =
      some (l.objs, .rpar :: lex rest)
  | [], _, f + 1, _, _ => by
    show parseMany _ _ _ (lex (41 :: rest)) = _
    rw [lex_rpar]; rfl
  | it :: l, h, f + 1, hf, hn => by
    rw [show Items.texts (it :: l) = it.1 :: Items.texts l from rfl, join_cons]
    obtain ⟨tk, ts, e, h1, _, h2⟩ := h.head.run _
      (follow_sep (.rpar rest) (AllRT.first h.tail (follow_rpar rest)))
    have hp := h2 n (hn it (List.mem_cons_self ..))
    rw [e, parseMany_cons h1 hp, lex_sep, many_rt rest l h.tail f (by simpa using hf)
      fun x hx => hn x (List.mem_cons_of_mem _ hx)]
    rfl

theorem parseMany_texts {m : Prefix.PMap} {c : Cat} {n : Nat} (rest : Str) {l : Items} (h : AllRT m c l)
    (hn : (joinSp l.texts).length < n) :
    parseMany (parseCat m n) c n (lex (joinSp l.texts ++ 41 :: rest)) =
      some (l.objs, .rpar :: lex rest) := by
  refine many_rt rest l h n ?_ fun it hit => ?_
  · have := h.count; omega
  · have : it.1.length ≤ (joinSp l.texts).length := join_le (List.mem_map.2 ⟨it, hit, rfl⟩)
    omega

/-! ## Arguments -/

/-- The pieces of text of the arguments of a construct, with what they stand for. -/
inductive Args (m : Prefix.PMap) : List Arg → List Str → Parsed → Prop
  | nil : Args m [] [] ⟨[], 0, none⟩
  | one {c t o as ps r} : RT m c t o → c ≠ .annotation → Args m as ps r →
      Args m (.one c :: as) (t :: ps) { r with fields := o :: r.fields }
  | many {c} {k : Nat} {l : Items} : AllRT m c l → c ≠ .annotation → k ≤ l.length →
      Args m [.many c k] [joinSp l.texts] ⟨[.vec false l.objs], 0, none⟩
  | optNone {c} : Args m [.opt c] [] ⟨[], 0, none⟩
  | optSome {c t o} : RT m c t o → c ≠ .annotation → Args m [.opt c] [t] ⟨[], 0, some o⟩
  | group {c} {l : Items} {as ps r} : AllRT m c l → Args m as ps r →
      Args m (.group c :: as) ((40 :: (joinSp l.texts ++ [41])) :: ps)
        { r with fields := .vec false l.objs :: r.fields }
  | card {as ps r} (u : UInt32) : Args m as ps r →
      Args m (.card :: as) (uintToStr u :: ps) { r with uint := u.toNat }

/-- First token of the arguments and the closing parenthesis. -/
theorem Args.first {m : Prefix.PMap} {as ps r} (h : Args m as ps r) (rest : Str) :
    ∃ tk ts, lex (joinSp ps ++ 41 :: rest) = tk :: ts ∧ tk.isTail = false ∧ tk ≠ .kw .annotation := by
  induction h with
  | nil => exact ⟨_, _, lex_rpar rest, rfl, by simp⟩
  | one h1 hc _ ih =>
    rw [join_cons]
    obtain ⟨tk', ts', e', h', _⟩ := ih
    obtain ⟨tk, ts, e, h2, h3, _⟩ := h1.run _ (follow_sep (.rpar rest) (by
      rw [e']; rintro t ht; cases ht; exact h'))
    exact ⟨tk, ts, e, Tok.opens_tail h2, fun h => hc (h3.1 h)⟩
  | @many c k l hl hc _ =>
    cases l with
    | nil => exact ⟨_, _, lex_rpar rest, rfl, by simp⟩
    | cons it l =>
      show ∃ tk ts, lex (joinSp (it.1 :: Items.texts l) ++ 41 :: rest) = _ ∧ _
      rw [join_cons]
      obtain ⟨tk, ts, e, h2, h3, _⟩ := hl.head.run _
        (follow_sep (.rpar rest) (AllRT.first hl.tail (follow_rpar rest)))
      exact ⟨tk, ts, e, Tok.opens_tail h2, fun h => hc (h3.1 h)⟩
  | optNone => exact ⟨_, _, lex_rpar rest, rfl, by simp⟩
  | optSome h1 hc =>
    obtain ⟨tk, ts, e, h2, h3, _⟩ := h1.run _ (follow_rpar rest)
    exact ⟨tk, ts, e, Tok.opens_tail h2, fun h => hc (h3.1 h)⟩
  | group _ _ _ =>
    rw [join_cons, List.cons_append, lex_lpar]
    exact ⟨_, _, rfl, rfl, by simp⟩
  | card u _ _ =>
    rw [join_cons, lex_nat u (delim_sep (.rpar rest))]
    exact ⟨_, _, rfl, rfl, by simp⟩

theorem Args.follow {m : Prefix.PMap} {as ps r} (h : Args m as ps r) (rest : Str) :
    Follow (sep ps (41 :: rest)) := by
  obtain ⟨tk, ts, e, h1, _⟩ := h.first rest
  refine follow_sep (.rpar rest) ?_
  rw [e]; rintro t ht; cases ht; exact h1

theorem Args.parse {m : Prefix.PMap} {as ps r} (h : Args m as ps r) (rest : Str) {n : Nat} :
    (joinSp ps).length < n →
    parseArgs (parseCat m n) n as (lex (joinSp ps ++ 41 :: rest)) = some (r, .rpar :: lex rest) := by
  induction h with
  | nil => intro _; show parseArgs _ _ _ (lex (41 :: rest)) = _; rw [lex_rpar]; rfl
  | @one c t o as ps r h1 hc ha ih =>
    intro hn
    obtain ⟨tk, ts, e, _, _, h4⟩ := h1.run _ (ha.follow rest)
    have h5 := join_le (t := t) (ps := t :: ps) (List.mem_cons_self ..)
    have h6 := join_tail_le t ps
    rw [join_cons, parseArgs, e, h4 n (by omega), lex_sep]
    simp only [Option.bind_eq_bind, Option.bind_some]
    rw [ih (by omega)]; rfl
  | @many c k l hl hc hk =>
    intro hn
    show parseArgs _ _ _ (lex (joinSp l.texts ++ 41 :: rest)) = _
    rw [parseArgs, parseMany_texts rest hl hn]
    simp only [Option.bind_eq_bind, Option.bind_some]
    rw [if_neg (by simp [Items.objs]; omega)]; rfl
  | optNone => intro _; show parseArgs _ _ _ (lex (41 :: rest)) = _; rw [lex_rpar]; rfl
  | @optSome c t o h1 hc =>
    intro hn
    obtain ⟨tk, ts, e, h2, _, h4⟩ := h1.run _ (follow_rpar rest)
    show parseArgs _ _ _ (lex (t ++ 41 :: rest)) = _
    rw [e, parseArgs]
    · rw [h4 n (Nat.le_of_lt hn)]
      simp only [Option.bind_eq_bind, Option.bind_some, lex_rpar]; rfl
    · intro ts e; cases e; cases h2
  | @group c l as ps r hl ha ih =>
    intro hn
    have h5 := join_le (t := 40 :: (joinSp l.texts ++ [41])) (ps := _ :: ps) (List.mem_cons_self ..)
    have h6 := join_tail_le (40 :: (joinSp l.texts ++ [41])) ps
    have h7 : (joinSp l.texts).length < n := by
      simp only [List.length_cons, List.length_append] at h5; omega
    rw [join_cons, List.cons_append, List.append_assoc, lex_lpar]
    rw [parseArgs]
    simp only [List.cons_append, List.nil_append, parseMany_texts _ hl h7, Option.bind_eq_bind,
      Option.bind_some, lex_sep]
    rw [ih (by omega)]; rfl
  | @card as ps r u ha ih =>
    intro hn
    have h6 := join_tail_le (uintToStr u) ps
    rw [join_cons, lex_nat u (delim_sep (.rpar rest)), lex_sep, parseArgs]
    simp only [Option.bind_eq_bind]
    rw [ih (by omega)]; rfl

/-! ## Annotations -/

/-- The annotations of a construct, with a space after them. -/
def annText (l : Items) : Str :=
  match l with
  | [] => []
  | it :: l => joinSp (Items.texts (it :: l)) ++ [32]

theorem annText_cons (it : Str × Obj) (l : Items) (s : Str) :
    ∃ s', annText (it :: l) ++ s = it.1 ++ 32 :: s' ∧ lex s' = lex (annText l ++ s) := by
  cases l with
  | nil => exact ⟨s, by simp [annText, Items.texts, joinSp], rfl⟩
  | cons x l => exact ⟨annText (x :: l) ++ s, by simp [annText, Items.texts, joinSp], rfl⟩

theorem annots_first {m : Prefix.PMap} : ∀ {l : Items}, AllRT m .annotation l → ∀ {s : Str},
    (∀ t ∈ (lex s).head?, t.isTail = false) →
    ∀ t ∈ (lex (annText l ++ s)).head?, t.isTail = false
  | [], _, _, hs => hs
  | it :: l, h, s, hs => by
    obtain ⟨s', e, e'⟩ := annText_cons it l s
    obtain ⟨tk, ts, e2, h2, _⟩ := h.head.run (32 :: s') ⟨.space _, by
      rw [lex_space, e']; exact annots_first h.tail hs⟩
    rw [e, e2]; rintro t ht; cases ht
    exact Tok.opens_tail h2

theorem annots_rt {m : Prefix.PMap} {n : Nat} : ∀ (l : Items), AllRT m .annotation l → ∀ f (s : Str),
    l.length < f → (∀ it ∈ l, it.1.length ≤ n) →
    (∀ t ∈ (lex s).head?, t.isTail = false ∧ t ≠ .kw .annotation) →
    parseAnnots (parseCat m n) f (lex (annText l ++ s)) = some (l.objs, lex s)
  | [], _, f + 1, s, _, _, hs => by
    show parseAnnots _ _ (lex s) = _
    rw [parseAnnots]
    · rfl
    · rintro ts e; rw [e] at hs; exact (hs _ rfl).2 rfl
  | it :: l, h, f + 1, s, hf, hn, hs => by
    obtain ⟨s', e, e'⟩ := annText_cons it l s
    obtain ⟨tk, ts, e2, h2, h3, h4⟩ := h.head.run (32 :: s') ⟨.space _, by
      rw [lex_space, e']; exact annots_first h.tail fun t ht => (hs t ht).1⟩
    have ht : tk = .kw .annotation := h3.2 rfl
    subst ht
    rw [e, e2, parseAnnots]
    simp only [h4 n (hn it (List.mem_cons_self ..)), Option.bind_eq_bind, Option.bind_some, lex_space, e']
    rw [annots_rt l h.tail f s (by simpa using hf) (fun x hx => hn x (List.mem_cons_of_mem _ hx)) hs]
    rfl

theorem annText_len {m : Prefix.PMap} {l : Items} (h : AllRT m .annotation l) :
    l.length ≤ (annText l).length ∧ ∀ it ∈ l, it.1.length ≤ (annText l).length := by
  cases l with
  | nil => exact ⟨Nat.le_refl _, fun _ h => nomatch h⟩
  | cons x l =>
    have h1 := h.count
    simp only [annText, List.length_append, List.length_cons, List.length_nil] at h1 ⊢
    refine ⟨by omega, fun it hit => ?_⟩
    have : it.1.length ≤ (joinSp (Items.texts (x :: l))).length := join_le (List.mem_map.2 ⟨it, hit, rfl⟩)
    omega

/-! ## Constructs -/

/-- Nonterminals with productions. -/
def Cat.isConstruct : Cat → Bool
  | .ope | .dr | .ce | .annotation | .ax => true
  | _ => false

theorem prod_construct {k : Kw} {pr : Prod} (h : prod k = some pr) : pr.cat.isConstruct = true := by
  cases k <;> simp only [prod, Option.some.injEq, reduceCtorEq] at h <;> (subst h; rfl)

theorem prod_annotation {k : Kw} {pr : Prod} (h : prod k = some pr) :
    k = .annotation ↔ pr.cat = .annotation := by
  cases k <;> simp only [prod, Option.some.injEq, reduceCtorEq] at h <;> (subst h; decide)

theorem step_construct {m : Prefix.PMap} {p : Parser} {n : Nat} {c : Cat} (hc : c.isConstruct = true) (k : Kw)
    (ts : List Tok) : parseStep m p n c (.kw k :: ts) = parseConstruct p n c (.kw k :: ts) := by
  cases c <;> first | rfl | cases hc

/-- A construct is read back if its parts are. -/
theorem construct_rt {m : Prefix.PMap} {k : Kw} {pr : Prod} {l : Items} {ps : List Str} {r : Parsed} {o : Obj}
    {txt : Str} (hk : prod k = some pr) (hl : AllRT m .annotation l) (hann : pr.annotated = true ∨ l = [])
    (ha : Args m pr.args ps r) (hb : build pr.type pr.annotated l.objs r = some o)
    (ht : txt = k.text ++ 40 :: (annText l ++ (joinSp ps ++ [41]))) : RTC m pr.cat txt o := by
  subst ht
  refine ⟨by simp; omega, fun rest hf => ⟨.kw k, .lpar :: lex (annText l ++ (joinSp ps ++ 41 :: rest)), ?_, rfl, ?_, ?_⟩⟩
  · rw [List.append_assoc, List.cons_append, lex_kw]; simp
  · rw [← prod_annotation hk]; simp
  · intro n hn
    cases n with
    | zero => simp at hn
    | succ n =>
      obtain ⟨x, w, hx, _⟩ := k.text_first
      have hlen : (annText l).length + (joinSp ps).length + 2 ≤ n := by
        simp only [hx, List.length_append, List.length_cons, List.length_nil] at hn; omega
      obtain ⟨tk, ts, e, h1, h2⟩ := ha.first rest
      rw [parseCat, step_construct (prod_construct hk), parseConstruct, hk]
      simp only [if_true]
      have hA : parseAnnotsIf (parseCat m n) n pr.annotated (lex (annText l ++ (joinSp ps ++ 41 :: rest))) =
          some (l.objs, lex (joinSp ps ++ 41 :: rest)) := by
        unfold parseAnnotsIf
        rcases hann with h | h
        · rw [if_pos h]
          obtain ⟨g1, g2⟩ := annText_len hl
          refine annots_rt l hl n _ (by omega) (fun it hit => by have := g2 it hit; omega) ?_
          rw [e]; rintro t ht; cases ht; exact ⟨h1, h2⟩
        · subst h
          split
          · exact annots_rt [] hl n _ (by simp; omega) (fun it hit => nomatch hit) (by
              rw [e]; rintro t ht; cases ht; exact ⟨h1, h2⟩)
          · rfl
      simp only [hA, Option.bind_eq_bind, Option.bind_some, ha.parse rest (show _ < n by omega), hb,
        Option.map_some]

end Cowl.Func
