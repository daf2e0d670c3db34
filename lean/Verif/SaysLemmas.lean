import Verif.SaysSpec
import Verif.FuncAstLemmas
import Verif.FuncFaultDoc
import Verif.FuncDocLemmas
/-! # Lemmas: spellings are read as what they spell -/
namespace Cowl.Says
open Ast Func XmlSpec FuncSpec

variable {W : Ways} {ns : Str → Option Str} {m : Prefix.PMap}

/-! ## Symbols -/

theorem spelt_nil {ts : List Tok} (h : Spelt W ns [] ts) : ts = [] := by cases h; rfl

theorem spelt_append : ∀ {xs ys : List Sym} {ts : List Tok}, Spelt W ns (xs ++ ys) ts →
    ∃ us vs, ts = us ++ vs ∧ Spelt W ns xs us ∧ Spelt W ns ys vs
  | [], _, ts, h => ⟨[], ts, rfl, .nil, h⟩
  | x :: xs, ys, _, h => by
    rw [List.cons_append] at h
    cases h with
    | tok h => obtain ⟨us, vs, rfl, h1, h2⟩ := spelt_append h; exact ⟨_, _, rfl, .tok h1, h2⟩
    | iri hi h => obtain ⟨us, vs, rfl, h1, h2⟩ := spelt_append h; exact ⟨_, _, rfl, .iri hi h1, h2⟩
    | lit hl h =>
      obtain ⟨us, vs, rfl, h1, h2⟩ := spelt_append h
      exact ⟨_, _, (List.append_assoc ..).symm, .lit hl h1, h2⟩

theorem spelt_tok {t : Tok} {xs : List Sym} {ts : List Tok} (h : Spelt W ns (.tok t :: xs) ts) :
    ∃ us, ts = t :: us ∧ Spelt W ns xs us := by
  cases h with
  | tok h => exact ⟨_, rfl, h⟩

theorem spelt_iri {i : Iri} {xs : List Sym} {ts : List Tok} (h : Spelt W ns (.iri i :: xs) ts) :
    ∃ t us, ts = [t] ++ us ∧ Spelt W ns [.iri i] [t] ∧ Spelt W ns xs us := by
  cases h with
  | iri hi h => exact ⟨_, _, rfl, .iri hi .nil, h⟩

theorem spelt_cons {x : Sym} {xs : List Sym} {ts : List Tok} (h : Spelt W ns (x :: xs) ts) :
    ∃ us vs, ts = us ++ vs ∧ Spelt W ns [x] us ∧ Spelt W ns xs vs := spelt_append (xs := [x]) h

theorem spelt_paren {xs : List Sym} {ts : List Tok} (h : Spelt W ns (paren xs) ts) :
    ∃ us, ts = .lpar :: (us ++ [.rpar]) ∧ Spelt W ns xs us := by
  obtain ⟨ts1, rfl, h0⟩ := spelt_tok h
  obtain ⟨us, vs, rfl, h1, h2⟩ := spelt_append h0
  obtain ⟨ts3, rfl, h3⟩ := spelt_tok h2
  rw [spelt_nil h3]
  exact ⟨us, rfl, h1⟩

theorem spelt_form {k : Kw} {xs : List Sym} {ts : List Tok} (h : Spelt W ns (form k xs) ts) :
    ∃ us, ts = .kw k :: .lpar :: (us ++ [.rpar]) ∧ Spelt W ns xs us := by
  obtain ⟨ts1, rfl, h0⟩ := spelt_tok h
  obtain ⟨us, rfl, h1⟩ := spelt_paren h0
  exact ⟨us, rfl, h1⟩

/-! ## Reading tokens -/

/-- What may follow a construct. -/
def Next (rest : List Tok) : Prop := ∀ t ∈ rest.head?, t.isTail = false

theorem next_rpar (rest : List Tok) : Next (.rpar :: rest) := by rintro t ht; cases ht; rfl

/-- The tokens are parsed as a nonterminal, before anything that may follow. -/
structure R (k : Nat) (m : Prefix.PMap) (c : Cat) (ts : List Tok) (o : Obj) : Prop where
  first : ∃ tk us, ts = tk :: us ∧ tk.opens = true ∧ (tk = .kw .annotation ↔ c = .annotation)
  run : ∀ rest, Next rest → ∀ n, ts.length + k ≤ n → parseCat m n c (ts ++ rest) = some (o, rest)

theorem R.weak {c : Cat} {ts : List Tok} {o : Obj} (h : R 0 m c ts o) : R 1 m c ts o :=
  ⟨h.first, fun rest hr n hn => h.run rest hr n (by omega)⟩

theorem R.pos {k : Nat} {c : Cat} {ts : List Tok} {o : Obj} (h : R k m c ts o) : 0 < ts.length := by
  obtain ⟨_, _, rfl, _⟩ := h.first; simp

theorem R.next {k : Nat} {c : Cat} {ts : List Tok} {o : Obj} (h : R k m c ts o) (rest : List Tok) : Next (ts ++ rest) := by
  obtain ⟨tk, us, rfl, h1, _⟩ := h.first
  rintro t ht; cases ht
  exact Tok.opens_tail h1

/-- Tokens with the objects they stand for. -/
abbrev Items := List (List Tok × Obj)

/-- The tokens. -/
def Items.toks (l : Items) : List Tok := l.flatMap Prod.fst
/-- The objects. -/
def Items.objs (l : Items) : List Obj := l.map Prod.snd

/-- All items are read. -/
def AllR (m : Prefix.PMap) (c : Cat) (l : Items) : Prop := ∀ it ∈ l, R 1 m c it.1 it.2

theorem AllR.tail {c : Cat} {it : List Tok × Obj} {l : Items} (h : AllR m c (it :: l)) : AllR m c l :=
  fun x hx => h x (List.mem_cons_of_mem _ hx)

theorem AllR.head {c : Cat} {it : List Tok × Obj} {l : Items} (h : AllR m c (it :: l)) : R 1 m c it.1 it.2 :=
  h _ (List.mem_cons_self ..)

theorem AllR.next {c : Cat} {l : Items} (h : AllR m c l) {rest : List Tok} (hr : Next rest) : Next (l.toks ++ rest) := by
  cases l with
  | nil => exact hr
  | cons it l =>
    rw [Items.toks, List.flatMap_cons, List.append_assoc]
    exact h.head.next _

theorem AllR.count {c : Cat} : ∀ {l : Items}, AllR m c l → l.length ≤ l.toks.length
  | [], _ => Nat.le_refl _
  | it :: l, h => by
    have := h.head.pos
    have := h.tail.count
    rw [Items.toks, List.flatMap_cons, List.length_append, List.length_cons]
    rw [Items.toks] at this
    omega

theorem items_le {l : Items} {it : List Tok × Obj} (h : it ∈ l) : it.1.length ≤ l.toks.length := by
  induction l with
  | nil => cases h
  | cons x l ih =>
    rw [Items.toks, List.flatMap_cons, List.length_append]
    rcases List.mem_cons.1 h with rfl | h
    · omega
    · have := ih h; rw [Items.toks] at this; omega

theorem many_run {c : Cat} {n : Nat} (rest : List Tok) : ∀ (l : Items), AllR m c l → ∀ f, l.length < f →
    (∀ it ∈ l, it.1.length < n) → parseMany (parseCat m n) c f (l.toks ++ .rpar :: rest) = some (l.objs, .rpar :: rest)
  | [], _, f + 1, _, _ => rfl
  | it :: l, h, f + 1, hf, hn => by
    obtain ⟨tk, us, e, h1, _⟩ := h.head.first
    have hp := h.head.run (Items.toks l ++ .rpar :: rest) (h.tail.next (next_rpar rest)) n (hn it (List.mem_cons_self ..))
    rw [show Items.toks (it :: l) = it.1 ++ Items.toks l from rfl, List.append_assoc]
    rw [e, List.cons_append] at hp ⊢
    rw [parseMany_cons h1 hp, many_run rest l h.tail f (by simpa using hf) fun x hx => hn x (List.mem_cons_of_mem _ hx)]
    rfl

theorem parseMany_run {c : Cat} {n : Nat} (rest : List Tok) {l : Items} (h : AllR m c l) (hn : l.toks.length < n) :
    parseMany (parseCat m n) c n (l.toks ++ .rpar :: rest) = some (l.objs, .rpar :: rest) := by
  refine many_run rest l h n ?_ fun it hit => ?_
  · have := h.count; omega
  · have := items_le hit; omega

/-- The tokens of the arguments of a construct, with what they stand for. -/
inductive Args (m : Prefix.PMap) : List Arg → List Tok → Parsed → Prop
  | nil : Args m [] [] ⟨[], 0, none⟩
  | one {c t o as ts r} : R 1 m c t o → c ≠ .annotation → Args m as ts r →
      Args m (.one c :: as) (t ++ ts) { r with fields := o :: r.fields }
  | many {c} {k : Nat} {l : Items} : AllR m c l → c ≠ .annotation → k ≤ l.length →
      Args m [.many c k] l.toks ⟨[.vec false l.objs], 0, none⟩
  | optNone {c} : Args m [.opt c] [] ⟨[], 0, none⟩
  | optSome {c t o} : R 1 m c t o → c ≠ .annotation → Args m [.opt c] t ⟨[], 0, some o⟩
  | group {c} {l : Items} {as ts r} : AllR m c l → Args m as ts r →
      Args m (.group c :: as) (.lpar :: (l.toks ++ .rpar :: ts)) { r with fields := .vec false l.objs :: r.fields }
  | card {as ts r} (u : UInt32) : Args m as ts r → Args m (.card :: as) (.nat u :: ts) { r with uint := u.toNat }

theorem first_of {k : Nat} {c : Cat} {t : List Tok} {o : Obj} (h : R k m c t o) (hc : c ≠ .annotation) (rest : List Tok) :
    ∃ tk us, t ++ rest = tk :: us ∧ tk.isTail = false ∧ tk ≠ .kw .annotation := by
  obtain ⟨tk, us, rfl, h1, h2⟩ := h.first
  exact ⟨tk, us ++ rest, rfl, Tok.opens_tail h1, fun e => hc (h2.1 e)⟩

theorem Args.first {as ts r} (h : Args m as ts r) (rest : List Tok) :
    ∃ tk us, ts ++ .rpar :: rest = tk :: us ∧ tk.isTail = false ∧ tk ≠ .kw .annotation := by
  cases h with
  | nil => exact ⟨_, _, rfl, rfl, by simp⟩
  | one h1 hc _ => rw [List.append_assoc]; exact first_of h1 hc _
  | @many c k l hl hc _ =>
    cases l with
    | nil => exact ⟨_, _, rfl, rfl, by simp⟩
    | cons it l =>
      rw [show Items.toks (it :: l) = it.1 ++ Items.toks l from rfl, List.append_assoc]
      exact first_of hl.head hc _
  | optNone => exact ⟨_, _, rfl, rfl, by simp⟩
  | optSome h1 hc => exact first_of h1 hc _
  | group _ _ => exact ⟨_, _, rfl, rfl, by simp⟩
  | card u _ => exact ⟨_, _, rfl, rfl, by simp⟩

theorem Args.next {as ts r} (h : Args m as ts r) (rest : List Tok) : Next (ts ++ .rpar :: rest) := by
  obtain ⟨tk, us, e, h1, _⟩ := h.first rest
  rw [e]; rintro t ht; cases ht; exact h1

theorem Args.parse {as ts r} (h : Args m as ts r) (rest : List Tok) {n : Nat} : ts.length < n →
    parseArgs (parseCat m n) n as (ts ++ .rpar :: rest) = some (r, .rpar :: rest) := by
  induction h with
  | nil => intro _; rfl
  | @one c t o as ts r h1 hc ha ih =>
    intro hn
    rw [List.length_append] at hn
    rw [List.append_assoc, parseArgs, h1.run _ (ha.next rest) n (by omega)]
    simp only [Option.bind_eq_bind, Option.bind_some]
    rw [ih (by omega)]; rfl
  | @many c k l hl hc hk =>
    intro hn
    rw [parseArgs, parseMany_run rest hl hn]
    simp only [Option.bind_eq_bind, Option.bind_some]
    rw [if_neg (by simp [Items.objs]; omega)]; rfl
  | optNone => intro _; rfl
  | @optSome c t o h1 hc =>
    intro hn
    obtain ⟨tk, us, e, h2, _⟩ := h1.first
    have := h1.run (.rpar :: rest) (next_rpar rest) n (by omega)
    rw [e, List.cons_append] at this ⊢
    rw [parseArgs]
    · rw [this]
      simp only [Option.bind_eq_bind, Option.bind_some]; rfl
    · intro ts e; cases e; cases h2
  | @group c l as ts r hl ha ih =>
    intro hn
    simp only [List.length_cons, List.length_append] at hn
    rw [List.cons_append, List.append_assoc, List.cons_append, parseArgs]
    simp only [parseMany_run _ hl (show l.toks.length < n by omega), Option.bind_eq_bind, Option.bind_some]
    rw [ih (by omega)]; rfl
  | @card as ts r u ha ih =>
    intro hn
    rw [List.length_cons] at hn
    rw [List.cons_append, parseArgs]
    simp only [Option.bind_eq_bind]
    rw [ih (by omega)]; rfl

theorem annots_run {n : Nat} : ∀ (l : Items), AllR m .annotation l → ∀ f (rest : List Tok), l.length < f →
    (∀ it ∈ l, it.1.length < n) → (∀ t ∈ rest.head?, t.isTail = false ∧ t ≠ .kw .annotation) →
    parseAnnots (parseCat m n) f (l.toks ++ rest) = some (l.objs, rest)
  | [], _, f + 1, rest, _, _, hs => by
    show parseAnnots _ _ rest = _
    rw [parseAnnots]
    · rfl
    · rintro ts rfl; exact (hs _ rfl).2 rfl
  | it :: l, h, f + 1, rest, hf, hn, hs => by
    obtain ⟨tk, us, e, _, h3⟩ := h.head.first
    have hp := h.head.run (Items.toks l ++ rest) (h.tail.next fun t ht => (hs t ht).1) n (hn it (List.mem_cons_self ..))
    rw [show Items.toks (it :: l) = it.1 ++ Items.toks l from rfl, List.append_assoc]
    have ht : tk = .kw .annotation := h3.2 rfl
    subst ht
    rw [e, List.cons_append] at hp ⊢
    rw [parseAnnots]
    simp only [hp, Option.bind_eq_bind, Option.bind_some]
    rw [annots_run l h.tail f rest (by simpa using hf) (fun x hx => hn x (List.mem_cons_of_mem _ hx)) hs]
    rfl

/-- A construct is read if its parts are. -/
theorem construct_run {k : Kw} {pr : Func.Prod} {l : Items} {ts : List Tok} {r : Parsed} {o : Obj} (hk : prod k = some pr)
    (hl : AllR m .annotation l) (hann : pr.annotated = true ∨ l = []) (ha : Args m pr.args ts r)
    (hb : build pr.type pr.annotated l.objs r = some o) (rest : List Tok) (n : Nat) (hn : l.toks.length + ts.length + 2 ≤ n) :
    parseCat m (n + 1) pr.cat (.kw k :: .lpar :: (l.toks ++ (ts ++ .rpar :: rest))) = some (o, rest) := by
  obtain ⟨tk, us, e, h1, h2⟩ := ha.first rest
  rw [parseCat, step_construct (prod_construct hk), parseConstruct, hk]
  simp only [if_true]
  have hA : parseAnnotsIf (parseCat m n) n pr.annotated (l.toks ++ (ts ++ .rpar :: rest)) = some (l.objs, ts ++ .rpar :: rest) := by
    unfold parseAnnotsIf
    rcases hann with h | h
    · rw [if_pos h]
      refine annots_run l hl n _ (by have := hl.count; omega) (fun it hit => by have := items_le hit; omega) ?_
      rw [e]; rintro t ht; cases ht; exact ⟨h1, h2⟩
    · subst h
      split
      · exact annots_run [] hl n _ (by simp; omega) (fun it hit => nomatch hit) (by
          rw [e]; rintro t ht; cases ht; exact ⟨h1, h2⟩)
      · rfl
  simp only [hA, Option.bind_eq_bind, Option.bind_some, ha.parse rest (show _ < n by omega), hb, Option.map_some]

theorem construct {k : Kw} {pr : Func.Prod} {l : Items} {ts : List Tok} {r : Parsed} {o : Obj} (hk : prod k = some pr)
    (hl : AllR m .annotation l) (hann : pr.annotated = true ∨ l = []) (ha : Args m pr.args ts r)
    (hb : build pr.type pr.annotated l.objs r = some o) :
    R 0 m pr.cat (.kw k :: .lpar :: (l.toks ++ ts ++ [.rpar])) o := by
  refine ⟨⟨_, _, rfl, rfl, by rw [← prod_annotation hk]; simp⟩, fun rest _ n hn => ?_⟩
  cases n with
  | zero => simp at hn
  | succ n =>
    have := construct_run hk hl hann ha hb rest n (by simp at hn; omega)
    simpa using this

/-- A construct without annotations. -/
theorem plain {xs : List Sym} {ts : List Tok} (k : Kw) {pr : Func.Prod} (hk : prod k = some pr)
    (h : Spelt W ns (form k xs) ts) {o : Obj}
    (ha : ∀ us, Spelt W ns xs us → ∃ r, Args m pr.args us r ∧ build pr.type pr.annotated [] r = some o) : R 0 m pr.cat ts o := by
  obtain ⟨us, rfl, h0⟩ := spelt_form h
  obtain ⟨r, h1, h2⟩ := ha us h0
  exact construct (l := []) hk (fun _ h => nomatch h) (.inr rfl) h1 h2

/-! ## Leaves -/

/-- The prefix map knows what prefixes stand for. -/
def Knows (ns : Str → Option Str) (m : Prefix.PMap) : Prop := ∀ p n, ns p = some n → m.getNs p = some n

theorem proper_of {i : Iri} (h : iriFromString (i.ns ++ i.rem) = some (i.ns, i.rem)) : Proper i := by
  have hne : i.ns ++ i.rem ≠ [] := by
    intro e; rw [e, C02_empty] at h; cases h
  refine ⟨hne, ?_⟩
  obtain ⟨a, b, e, hs⟩ := C02_split _ hne
  rw [e] at h; cases h; exact hs

theorem iri_run (hm : Knows ns m) {i : Iri} (hi : Proper i) {t : Tok} (h : Names usual ns i t) :
    t.isIri = true ∧ readIri m t = some i := by
  cases h with
  | full => refine ⟨rfl, ?_⟩; rw [readIri, iri_of_string hi.2 hi.1]; rfl
  | short p l n hp hn e hw =>
    refine ⟨rfl, ?_⟩
    have h1 := parseShort_colon m l hp
    have h2 := (C03_parts_iff n l (by rw [e]; exact hi.1)).2 hw
    rw [e, iri_of_string hi.2 hi.1] at h2
    rw [readIri, show p ++ 58 :: l = p ++ Prefix.colon :: l from rfl, h1, hm _ _ hn, Option.map_some, Option.some.inj h2]

theorem leaf_iri (hm : Knows ns m) {i : Iri} (hi : Proper i) {c : Cat} (f : Iri → Obj) (hc : c ≠ .annotation)
    (hs : ∀ p n (tk : Tok) ts, tk.isIri = true → parseStep m p n c (tk :: ts) = (readIri m tk).map fun i => (f i, ts))
    {ts : List Tok} (h : Spelt usual ns [.iri i] ts) : R 0 m c ts (f i) := by
  cases h with
  | @iri _ tk _ ts h h0 =>
    rw [spelt_nil h0]
    obtain ⟨h1, h2⟩ := iri_run hm hi h
    refine ⟨⟨tk, [], rfl, ?_, ?_⟩, fun rest _ n hn => ?_⟩
    · cases tk <;> first | rfl | cases h1
    · constructor
      · rintro rfl; cases h1
      · exact fun h => absurd h hc
    · cases n with
      | zero => simp at hn
      | succ n => rw [List.cons_append, parseCat, hs _ _ _ _ h1, h2]; rfl

theorem leaf_anon {id : Str} {c : Cat} (hc : c ≠ .annotation)
    (hs : ∀ p n ts, parseStep m p n c (.blank id :: ts) = some (.prim (.anon id), ts))
    {ts : List Tok} (h : Spelt W ns [.tok (.blank id)] ts) : R 0 m c ts (.prim (.anon id)) := by
  obtain ⟨us, rfl, h0⟩ := spelt_tok h
  rw [spelt_nil h0]
  refine ⟨⟨_, [], rfl, rfl, ?_⟩, fun rest _ n hn => ?_⟩
  · constructor
    · intro h; cases h
    · exact fun h => absurd h hc
  · cases n with
    | zero => simp at hn
    | succ n => rw [List.cons_append, parseCat, hs]; rfl

theorem r_iri (hm : Knows ns m) {i : Iri} (hi : Proper i) {ts : List Tok} (h : Spelt usual ns [.iri i] ts) :
    R 0 m .iri ts (.prim (.iri i)) :=
  leaf_iri hm hi (fun i => .prim (.iri i)) (by decide) (by intros; rfl) h

theorem r_ent (hm : Knows ns m) (k : EntKind) {i : Iri} (hi : Proper i) {ts : List Tok} (h : Spelt usual ns [.iri i] ts) :
    R 0 m (.ent k) ts (ent k i) :=
  leaf_iri hm hi (fun i => .prim (.ent k i)) (by simp) (by intros; rfl) h

theorem r_ind (hm : Knows ns m) {x : Ind} (hx : x.Meets req) {ts : List Tok} (h : Spelt usual ns (indForm x) ts) :
    R 0 m .ind ts x.toObj := by
  cases x with
  | named i =>
    exact leaf_iri hm hx (fun i => .prim (.ent .namedInd i)) (by decide)
      (by intro p n tk ts h; cases tk <;> first | rfl | cases h) h
  | anon id => exact leaf_anon (by decide) (by intros; rfl) h

theorem indexOfLast_append (v : Str) {l : Str} (h : 64 ∉ l) : indexOfLast (v ++ 64 :: l) 64 = v.length := by
  have h1 : (v ++ 64 :: l).reverse = l.reverse ++ 64 :: v.reverse := by simp
  have h2 : (l.reverse ++ 64 :: v.reverse).findIdx? (· == 64) = some l.length := by
    rw [List.findIdx?_append]
    have : l.reverse.findIdx? (· == (64 : UInt8)) = none := by
      rw [List.findIdx?_eq_none_iff]
      intro x hx
      have : x ≠ 64 := by rintro rfl; exact h (List.mem_reverse.1 hx)
      simpa using this
    rw [this, List.findIdx?_cons]; simp
  unfold indexOfLast
  rw [h1, h2]
  simp

theorem proper_plain : Proper rdfPlainLiteral := proper_of (by decide +kernel)

theorem lit_run (hm : Knows ns m) {l : Lit} {ts rest : List Tok} (h : Literal usual ns l ts) (hr : Next rest) :
    ∃ v us, ts = .qstr v :: us ∧ readLit m (ts ++ rest) = some (l.toObj, rest) := by
  cases h with
  | string v =>
    refine ⟨_, _, rfl, ?_⟩
    cases rest with
    | nil => rfl
    | cons t rest =>
      have := hr t rfl
      cases t <;> first | rfl | cases this
  | lang v l hl =>
    refine ⟨_, _, rfl, ?_⟩
    have hne : ¬ l.length = 0 := by simpa using hl
    show readLit m (.qstr v :: .lang l :: rest) = _
    rw [readLit]
    simp only [literal, literalLang, if_neg hne]; rfl
  | typed v d t h1 h2 h3 h4 =>
    refine ⟨_, _, rfl, ?_⟩
    have hn : isLangDatatype d = false := by simp [isLangDatatype, h1, h2]
    show readLit m (.qstr v :: .dcaret :: t :: rest) = _
    rw [readLit, (iri_run hm h3 h4).2]
    simp only [Option.bind_eq_bind, Option.bind_some, literal, hn]; rfl
  | plain v l t h1 h2 h3 =>
    refine ⟨_, _, rfl, ?_⟩
    show readLit m (.qstr (v ++ 64 :: l) :: .dcaret :: t :: rest) = _
    have hn : isLangDatatype rdfPlainLiteral = true := by simp [isLangDatatype]
    have hp : literalParseLang (v ++ 64 :: l) = .lit v (.lang (lower l)) := by
      have hl : 0 < l.length := List.length_pos_iff.2 h1
      unfold literalParseLang
      simp only [indexOfLast_append v h2]
      rw [if_neg (by simp only [List.length_append, List.length_cons]; omega), Nat.add_sub_cancel, List.take_left,
        ← List.drop_drop, List.drop_left]; rfl
    rw [readLit, (iri_run hm proper_plain h3).2]
    simp only [Option.bind_eq_bind, Option.bind_some, literal, hn, hp, if_true]; rfl
  | plainString v t h1 h2 => exact h2.elim
  | langString v l t h1 h2 h3 h4 => exact h4.elim

theorem spelt_lit {l : Lit} {ts : List Tok} (h : Spelt W ns [.lit l] ts) : Literal W ns l ts := by
  cases h with
  | lit h h0 => rw [spelt_nil h0, List.append_nil]; exact h

theorem r_lit (hm : Knows ns m) {l : Lit} {ts : List Tok} (h : Spelt usual ns [.lit l] ts) : R 0 m .lit ts l.toObj := by
  have h := spelt_lit h
  refine ⟨?_, fun rest hr n hn => ?_⟩
  · obtain ⟨_, us, rfl, _⟩ := lit_run (rest := []) hm h (fun t ht => nomatch ht)
    exact ⟨_, _, rfl, rfl, by simp⟩
  · obtain ⟨_, us, rfl, h2⟩ := lit_run hm h hr
    cases n with
    | zero => simp at hn
    | succ n => rw [parseCat, parseStep, h2]

theorem r_annotVal (hm : Knows ns m) {v : AnnotVal} (hv : v.Meets req) {ts : List Tok} (h : Spelt usual ns (valForm v) ts) :
    R 0 m .annotVal ts v.toObj := by
  cases v with
  | iri i =>
    exact leaf_iri hm hv (fun i => .prim (.iri i)) (by decide)
      (by intro p n tk ts h; cases tk <;> first | rfl | cases h) h
  | anon id => exact leaf_anon (by decide) (by intros; rfl) h
  | lit l =>
    have h := spelt_lit h
    refine ⟨?_, fun rest hr n hn => ?_⟩
    · obtain ⟨_, us, rfl, _⟩ := lit_run (rest := []) hm h (fun t ht => nomatch ht)
      exact ⟨_, _, rfl, rfl, by simp⟩
    · obtain ⟨_, us, rfl, h2⟩ := lit_run hm h hr
      cases n with
      | zero => simp at hn
      | succ n => rw [List.cons_append] at h2 ⊢; rw [parseCat, parseStep, h2]; rfl

theorem r_annotSubj (hm : Knows ns m) {v : AnnotSubj} (hv : v.Meets req) {ts : List Tok} (h : Spelt usual ns (subjForm v) ts) :
    R 0 m .annotSubj ts v.toObj := by
  cases v with
  | iri i =>
    exact leaf_iri hm hv (fun i => .prim (.iri i)) (by decide)
      (by intro p n tk ts h; cases tk <;> first | rfl | cases h) h
  | anon id => exact leaf_anon (by decide) (by intros; rfl) h

theorem r_facet (hm : Knows ns m) {f : Iri × Lit} (hi : Proper f.1) {ts : List Tok} (h : Spelt usual ns (facetForm f) ts) :
    R 0 m .facet ts (facetObj f) := by
  cases h with
  | @iri _ tk _ ts h h0 =>
    obtain ⟨h1, h2⟩ := iri_run hm hi h
    have hl := spelt_lit h0
    refine ⟨⟨tk, _, rfl, ?_, ?_⟩, fun rest hr n hn => ?_⟩
    · cases tk <;> first | rfl | cases h1
    · constructor
      · rintro rfl; cases h1
      · intro h; cases h
    · cases n with
      | zero => simp at hn
      | succ n =>
        obtain ⟨_, _, _, h3⟩ := lit_run hm hl hr
        rw [List.cons_append, parseCat, parseStep, h2]
        simp only [Option.bind_eq_bind, Option.bind_some, h3]; rfl

theorem r_entity (hm : Knows ns m) (k : EntKind) {i : Iri} (hi : Proper i) {ts : List Tok}
    (h : Spelt usual ns (form (entKw k) [.iri i]) ts) : R 0 m .entity ts (ent k i) := by
  obtain ⟨us, rfl, h0⟩ := spelt_form h
  cases h0 with
  | @iri _ tk _ ts h3 h0 =>
    rw [spelt_nil h0]
    obtain ⟨h1, h2⟩ := iri_run hm hi h3
    refine ⟨⟨_, _, rfl, rfl, by cases k <;> simp [entKw]⟩, fun rest hr n hn => ?_⟩
    cases n with
    | zero => simp at hn
    | succ n =>
      rw [parseCat]
      have : Func.entKw (entKw k) = some k := by cases k <;> rfl
      show parseStep m _ _ _ (.kw (entKw k) :: .lpar :: tk :: .rpar :: rest) = _
      rw [parseStep]
      simp only [this, h2, Option.bind_eq_bind, Option.bind_some]; rfl

/-! ## Lists -/

theorem items_flatMap {α : Type} {f : α → List Sym} {g : α → Obj} {c : Cat} {P : α → Prop}
    (h : ∀ x ts, P x → Spelt W ns (f x) ts → R 0 m c ts (g x)) : ∀ (xs : List α) (ts : List Tok), (∀ x ∈ xs, P x) →
    Spelt W ns (xs.flatMap f) ts → ∃ l : Items, AllR m c l ∧ l.objs = xs.map g ∧ l.toks = ts
  | [], ts, _, hs => ⟨[], fun _ h => (nomatch h), rfl, (spelt_nil hs).symm⟩
  | x :: xs, ts, hx, hs => by
    rw [List.flatMap_cons] at hs
    obtain ⟨us, vs, rfl, h1, h2⟩ := spelt_append hs
    obtain ⟨l, h3, h4, h5⟩ := items_flatMap h xs vs (fun y hy => hx y (List.mem_cons_of_mem _ hy)) h2
    refine ⟨(us, g x) :: l, ?_, ?_, ?_⟩
    · intro it hit
      rcases List.mem_cons.1 hit with rfl | hit
      · exact (h x us (hx x (List.mem_cons_self ..)) h1).weak
      · exact h3 it hit
    · show g x :: l.objs = _
      rw [h4]; rfl
    · show us ++ l.toks = _
      rw [h5]

theorem map_flatMap {α : Type} (f : α → Sym) (xs : List α) : xs.map f = xs.flatMap fun x => [f x] := by
  induction xs with
  | nil => rfl
  | cons x xs ih => rw [List.map_cons, ih]; rfl

/-- A list as the last argument. -/
theorem args_many {c : Cat} {k : Nat} {os : List Obj} {ts : List Tok} (hc : c ≠ .annotation) (hk : k ≤ os.length)
    (h : ∃ l : Items, AllR m c l ∧ l.objs = os ∧ l.toks = ts) : Args m [.many c k] ts ⟨[.vec false os], 0, none⟩ := by
  obtain ⟨l, h1, rfl, rfl⟩ := h
  exact .many h1 hc (by simpa [Items.objs] using hk)

theorem args_group {c : Cat} {os : List Obj} {ts : List Tok} {as us r}
    (h : ∃ l : Items, AllR m c l ∧ l.objs = os ∧ l.toks = ts) (ha : Args m as us r) :
    Args m (.group c :: as) (.lpar :: (ts ++ .rpar :: us)) { r with fields := .vec false os :: r.fields } := by
  obtain ⟨l, h1, rfl, rfl⟩ := h
  exact .group h1 ha

/-- One argument. -/
theorem args_one {c : Cat} {ts : List Tok} {o : Obj} (h : R 0 m c ts o) (hc : c ≠ .annotation) :
    Args m [.one c] ts ⟨[o], 0, none⟩ := by
  have := Args.one h.weak hc (Args.nil (m := m))
  rwa [List.append_nil] at this

theorem args_two {c d : Cat} {ts us : List Tok} {o q : Obj} (h : R 0 m c ts o) (hc : c ≠ .annotation) (h' : R 0 m d us q)
    (hd : d ≠ .annotation) : Args m [.one c, .one d] (ts ++ us) ⟨[o, q], 0, none⟩ :=
  Args.one h.weak hc (args_one h' hd)

theorem args_three {c d e : Cat} {ts us vs : List Tok} {o q r : Obj} (h : R 0 m c ts o) (hc : c ≠ .annotation)
    (h' : R 0 m d us q) (hd : d ≠ .annotation) (h'' : R 0 m e vs r) (he : e ≠ .annotation) :
    Args m [.one c, .one d, .one e] (ts ++ (us ++ vs)) ⟨[o, q, r], 0, none⟩ :=
  Args.one h.weak hc (args_two h' hd h'' he)

/-! ## Property expressions and data ranges -/

theorem r_ope (hm : Knows ns m) {p : Ope} (hp : p.Meets req) {ts : List Tok} (h : Spelt usual ns (opeForm p) ts) :
    R 0 m .ope ts p.toObj := by
  cases p with
  | prop i =>
    exact leaf_iri hm hp (fun i => .prim (.ent .objProp i)) (by decide)
      (by intro p n tk ts h; cases tk <;> first | rfl | cases h) h
  | inv i => exact plain .objectInverseOf rfl h fun us hu => ⟨_, args_one (r_ent hm .objProp hp hu) (by simp), rfl⟩

mutual
theorem r_dr (hm : Knows ns m) : ∀ (d : DR), d.Meets req → ∀ ts, Spelt usual ns (drForm d) ts → R 0 m .dr ts d.toObj
  | .dt i, hd, ts, h => by
    rw [DR.toObj]
    exact leaf_iri hm hd (fun i => .prim (.ent .datatype i)) (by decide)
      (by intro p n tk ts h; cases tk <;> first | rfl | cases h) h
  | .inter ds, hd, ts, h => by
    rw [DR.Meets] at hd
    rw [DR.toObj]
    exact plain .dataIntersectionOf rfl h fun us hu =>
      ⟨_, args_many (by decide) (by rw [DR.length_toObjs]; exact hd.1) (r_drs hm ds hd.2 us hu), rfl⟩
  | .union ds, hd, ts, h => by
    rw [DR.Meets] at hd
    rw [DR.toObj]
    exact plain .dataUnionOf rfl h fun us hu =>
      ⟨_, args_many (by decide) (by rw [DR.length_toObjs]; exact hd.1) (r_drs hm ds hd.2 us hu), rfl⟩
  | .compl d, hd, ts, h => by
    rw [DR.Meets] at hd
    rw [DR.toObj]
    exact plain .dataComplementOf rfl h fun us hu => ⟨_, args_one (r_dr hm d hd us hu) (by decide), rfl⟩
  | .oneOf ls, hd, ts, h => by
    rw [DR.Meets] at hd
    rw [DR.toObj]
    refine plain .dataOneOf rfl h fun us hu =>
      ⟨_, args_many (by decide) (by rw [List.length_map]; exact hd.1) (items_flatMap (P := fun _ => True)
        (fun x ts _ hx => r_lit hm hx) ls us (fun _ _ => trivial) (by rw [← map_flatMap]; exact hu)), rfl⟩
  | .restr i fs, hd, ts, h => by
    rw [DR.Meets] at hd
    rw [DR.toObj]
    refine plain .datatypeRestriction rfl h fun us hu => ?_
    obtain ⟨a, b, rfl, h1, h2⟩ := spelt_cons hu
    exact ⟨_, .one (r_ent hm .datatype hd.1 h1).weak (by simp) (args_many (by decide) (by rw [List.length_map]; exact hd.2.1)
      (items_flatMap (P := fun x : Iri × Lit => Proper x.1) (fun x ts hx h => r_facet hm hx h) fs b (fun x hx => (hd.2.2 x hx).1) h2)), rfl⟩

theorem r_drs (hm : Knows ns m) : ∀ (ds : List DR), DR.AllMeet req ds → ∀ ts, Spelt usual ns (drForms ds) ts →
    ∃ l : Items, AllR m .dr l ∧ l.objs = DR.toObjs ds ∧ l.toks = ts
  | [], _, ts, h => ⟨[], fun _ h => (nomatch h), by rw [DR.toObjs]; rfl, (spelt_nil h).symm⟩
  | d :: ds, hd, ts, h => by
    rw [DR.AllMeet] at hd
    rw [drForms] at h
    obtain ⟨us, vs, rfl, h1, h2⟩ := spelt_append h
    obtain ⟨l, h3, h4, h5⟩ := r_drs hm ds hd.2 vs h2
    refine ⟨(us, d.toObj) :: l, ?_, ?_, ?_⟩
    · intro it hit
      rcases List.mem_cons.1 hit with rfl | hit
      · exact (r_dr hm d hd.1 us h1).weak
      · exact h3 it hit
    · show d.toObj :: l.objs = _
      rw [h4, DR.toObjs]
    · show us ++ l.toks = _
      rw [h5]
end

/-! ## Class expressions -/

theorem args_card {c d : Cat} {n : UInt32} {xs : List Sym} {o : Obj} {us : List Tok} (hc : c ≠ .annotation)
    (hx : ∀ ts, Spelt W ns xs ts → R 0 m c ts o) (hu : Spelt W ns (.tok (.nat n) :: xs) us) :
    Args m [.card, .one c, .opt d] us ⟨[o], n.toNat, none⟩ := by
  obtain ⟨a, rfl, h1⟩ := spelt_tok hu
  have := Args.card n (.one (hx a h1).weak hc (.optNone (c := d)))
  rwa [List.append_nil] at this

theorem args_cardQ {c d : Cat} {n : UInt32} {xs ys : List Sym} {o q : Obj} {us : List Tok} (hc : c ≠ .annotation)
    (hd : d ≠ .annotation) (hx : ∀ ts, Spelt W ns xs ts → R 0 m c ts o) (hy : ∀ ts, Spelt W ns ys ts → R 0 m d ts q)
    (hu : Spelt W ns (.tok (.nat n) :: (xs ++ ys)) us) : Args m [.card, .one c, .opt d] us ⟨[o], n.toNat, some q⟩ := by
  obtain ⟨a, rfl, h1⟩ := spelt_tok hu
  obtain ⟨b, e, rfl, h2, h3⟩ := spelt_append h1
  exact Args.card n (.one (hx b h2).weak hc (.optSome (hy e h3).weak hd))

mutual
theorem r_ce (hm : Knows ns m) : ∀ (c : CE), c.Meets req → ∀ ts, Spelt usual ns (ceForm c) ts → R 0 m .ce ts c.toObj
  | .cls i, hc, ts, h => by
    rw [CE.toObj]
    exact leaf_iri hm hc (fun i => .prim (.ent .cls i)) (by decide)
      (by intro p n tk ts h; cases tk <;> first | rfl | cases h) h
  | .inter cs, hc, ts, h => by
    rw [CE.Meets] at hc
    rw [CE.toObj]
    exact plain .objectIntersectionOf rfl h fun us hu =>
      ⟨_, args_many (by decide) (by rw [CE.length_toObjs]; exact hc.1) (r_ces hm cs hc.2 us hu), rfl⟩
  | .union cs, hc, ts, h => by
    rw [CE.Meets] at hc
    rw [CE.toObj]
    exact plain .objectUnionOf rfl h fun us hu =>
      ⟨_, args_many (by decide) (by rw [CE.length_toObjs]; exact hc.1) (r_ces hm cs hc.2 us hu), rfl⟩
  | .compl c, hc, ts, h => by
    rw [CE.Meets] at hc
    rw [CE.toObj]
    exact plain .objectComplementOf rfl h fun us hu => ⟨_, args_one (r_ce hm c hc us hu) (by decide), rfl⟩
  | .oneOf is, hc, ts, h => by
    rw [CE.Meets] at hc
    rw [CE.toObj]
    exact plain .objectOneOf rfl h fun us hu => ⟨_, args_many (by decide) (by rw [List.length_map]; exact hc.1)
      (items_flatMap (fun x ts hx h => r_ind hm hx h) is us hc.2 hu), rfl⟩
  | .objSome p c, hc, ts, h => by
    rw [CE.Meets] at hc
    rw [CE.toObj]
    refine plain .objectSomeValuesFrom rfl h fun us hu => ?_
    obtain ⟨a, b, rfl, h1, h2⟩ := spelt_append hu
    have hargs := args_two (r_ope hm hc.1 h1) (by decide) (r_ce hm c hc.2 b h2) (by decide)
    split
    · rename_i ht
      rw [ce_top ht, CE.toObj] at hargs
      refine ⟨_, hargs, ?_⟩
      simp only [build, objQuant, ent, drop_self]; rfl
    · rename_i ht
      refine ⟨_, hargs, ?_⟩
      simp only [build, objQuant, ce_not_top ht]; rfl
  | .objAll p c, hc, ts, h => by
    rw [CE.Meets] at hc
    rw [CE.toObj]
    refine plain .objectAllValuesFrom rfl h fun us hu => ?_
    obtain ⟨a, b, rfl, h1, h2⟩ := spelt_append hu
    have hargs := args_two (r_ope hm hc.1 h1) (by decide) (r_ce hm c hc.2 b h2) (by decide)
    split
    · rename_i ht
      rw [ce_top ht, CE.toObj] at hargs
      refine ⟨_, hargs, ?_⟩
      simp only [build, objQuant, ent, drop_self]; rfl
    · rename_i ht
      refine ⟨_, hargs, ?_⟩
      simp only [build, objQuant, ce_not_top ht]; rfl
  | .objHasValue p i, hc, ts, h => by
    rw [CE.Meets] at hc
    rw [CE.toObj]
    refine plain .objectHasValue rfl h fun us hu => ?_
    obtain ⟨a, b, rfl, h1, h2⟩ := spelt_append hu
    exact ⟨_, args_two (r_ope hm hc.1 h1) (by decide) (r_ind hm hc.2 h2) (by decide), rfl⟩
  | .objHasSelf p, hc, ts, h => by
    rw [CE.Meets] at hc
    rw [CE.toObj]
    exact plain .objectHasSelf rfl h fun us hu => ⟨_, args_one (r_ope hm hc hu) (by decide), rfl⟩
  | .objCard k n p, hc, ts, h => by
    rw [CE.Meets] at hc
    rw [CE.toObj]
    have hargs := fun us hu => args_card (d := .ce) (n := n) (us := us) (by decide) (fun ts h => r_ope hm hc.1 h) hu
    cases k with
    | min => exact plain .objectMinCardinality rfl h fun us hu => ⟨_, hargs us hu, rfl⟩
    | max => exact plain .objectMaxCardinality rfl h fun us hu => ⟨_, hargs us hu, rfl⟩
    | exact => exact plain .objectExactCardinality rfl h fun us hu => ⟨_, hargs us hu, rfl⟩
  | .objCardQ k n p c, hc, ts, h => by
    rw [CE.Meets] at hc
    rw [CE.toObj]
    have hargs := fun us hu => args_cardQ (d := .ce) (n := n) (us := us) (by decide) (by decide) (fun ts h => r_ope hm hc.1 h)
      (r_ce hm c hc.2.1) hu
    cases k with
    | min => exact plain .objectMinCardinality rfl h fun us hu => ⟨_, hargs us hu, rfl⟩
    | max => exact plain .objectMaxCardinality rfl h fun us hu => ⟨_, hargs us hu, rfl⟩
    | exact => exact plain .objectExactCardinality rfl h fun us hu => ⟨_, hargs us hu, rfl⟩
  | .dataSome p d, hc, ts, h => by
    rw [CE.Meets] at hc
    rw [CE.toObj]
    refine plain .dataSomeValuesFrom rfl h fun us hu => ?_
    obtain ⟨a, b, rfl, h1, h2⟩ := spelt_cons hu
    have hargs := args_two (r_ent hm .dataProp hc.1 h1) (by decide) (r_dr hm d hc.2 b h2) (by decide)
    split
    · rename_i ht
      rw [dr_top ht, DR.toObj] at hargs
      refine ⟨_, hargs, ?_⟩
      simp only [build, dataQuant, ent, drop_self]; rfl
    · rename_i ht
      refine ⟨_, hargs, ?_⟩
      simp only [build, dataQuant, dr_not_top ht]; rfl
  | .dataAll p d, hc, ts, h => by
    rw [CE.Meets] at hc
    rw [CE.toObj]
    refine plain .dataAllValuesFrom rfl h fun us hu => ?_
    obtain ⟨a, b, rfl, h1, h2⟩ := spelt_cons hu
    have hargs := args_two (r_ent hm .dataProp hc.1 h1) (by decide) (r_dr hm d hc.2 b h2) (by decide)
    split
    · rename_i ht
      rw [dr_top ht, DR.toObj] at hargs
      refine ⟨_, hargs, ?_⟩
      simp only [build, dataQuant, ent, drop_self]; rfl
    · rename_i ht
      refine ⟨_, hargs, ?_⟩
      simp only [build, dataQuant, dr_not_top ht]; rfl
  | .dataHasValue p l, hc, ts, h => by
    rw [CE.Meets] at hc
    rw [CE.toObj]
    refine plain .dataHasValue rfl h fun us hu => ?_
    obtain ⟨a, b, rfl, h1, h2⟩ := spelt_cons hu
    exact ⟨_, args_two (r_ent hm .dataProp hc.1 h1) (by decide) (r_lit hm h2) (by decide), rfl⟩
  | .dataCard k n p, hc, ts, h => by
    rw [CE.Meets] at hc
    rw [CE.toObj]
    have hargs := fun us hu => args_card (d := .dr) (n := n) (us := us) (by decide) (fun ts h => r_ent hm .dataProp hc.1 h) hu
    cases k with
    | min => exact plain .dataMinCardinality rfl h fun us hu => ⟨_, hargs us hu, rfl⟩
    | max => exact plain .dataMaxCardinality rfl h fun us hu => ⟨_, hargs us hu, rfl⟩
    | exact => exact plain .dataExactCardinality rfl h fun us hu => ⟨_, hargs us hu, rfl⟩
  | .dataCardQ k n p d, hc, ts, h => by
    rw [CE.Meets] at hc
    rw [CE.toObj]
    have hargs := fun us hu => args_cardQ (xs := [.iri p]) (d := .dr) (n := n) (us := us) (by decide) (by decide)
      (fun ts h => r_ent hm .dataProp hc.1 h) (r_dr hm d hc.2.1) hu
    cases k with
    | min => exact plain .dataMinCardinality rfl h fun us hu => ⟨_, hargs us hu, rfl⟩
    | max => exact plain .dataMaxCardinality rfl h fun us hu => ⟨_, hargs us hu, rfl⟩
    | exact => exact plain .dataExactCardinality rfl h fun us hu => ⟨_, hargs us hu, rfl⟩

theorem r_ces (hm : Knows ns m) : ∀ (cs : List CE), CE.AllMeet req cs → ∀ ts, Spelt usual ns (ceForms cs) ts →
    ∃ l : Items, AllR m .ce l ∧ l.objs = CE.toObjs cs ∧ l.toks = ts
  | [], _, ts, h => ⟨[], fun _ h => (nomatch h), by rw [CE.toObjs]; rfl, (spelt_nil h).symm⟩
  | c :: cs, hc, ts, h => by
    rw [CE.AllMeet] at hc
    rw [ceForms] at h
    obtain ⟨us, vs, rfl, h1, h2⟩ := spelt_append h
    obtain ⟨l, h3, h4, h5⟩ := r_ces hm cs hc.2 vs h2
    refine ⟨(us, c.toObj) :: l, ?_, ?_, ?_⟩
    · intro it hit
      rcases List.mem_cons.1 hit with rfl | hit
      · exact (r_ce hm c hc.1 us h1).weak
      · exact h3 it hit
    · show c.toObj :: l.objs = _
      rw [h4, CE.toObjs]
    · show us ++ l.toks = _
      rw [h5]
end

/-! ## Annotations and axioms -/

/-- A construct with annotations. -/
theorem annotated_run (k : Kw) {pr : Func.Prod} (hk : prod k = some pr) (hann : pr.annotated = true)
    (ht : pr.type.isAxiom = true ∨ pr.type = .annotation) {xs ys : List Sym} {fs as : List Obj} {ts : List Tok}
    (has : ∀ us, Spelt W ns xs us → ∃ l : Items, AllR m .annotation l ∧ l.objs = as ∧ l.toks = us)
    (ha : ∀ us, Spelt W ns ys us → Args m pr.args us ⟨fs, 0, none⟩) (h : Spelt W ns (form k (xs ++ ys)) ts) :
    R 0 m pr.cat ts (annotated pr.type fs as) := by
  obtain ⟨us, rfl, h0⟩ := spelt_form h
  obtain ⟨a, b, rfl, h1, h2⟩ := spelt_append h0
  obtain ⟨l, h3, rfl, rfl⟩ := has a h1
  exact construct hk h3 (.inl hann) (ha b h2) (by rw [hann]; exact build_annotated ht _ fs)

mutual
theorem r_annot (hm : Knows ns m) : ∀ (a : Annot), a.Meets req → ∀ ts, Spelt usual ns (annotForm a) ts →
    R 0 m .annotation ts a.toObj
  | .mk p v as, hx, ts, h => by
    rw [Annot.Meets] at hx
    rw [Annot.toObj]
    rw [annotForm] at h
    refine annotated_run .annotation rfl rfl (.inr rfl) (r_annots hm as hx.2.2.1) (fun us hu => ?_) h
    obtain ⟨a, b, rfl, h1, h2⟩ := spelt_cons hu
    exact args_two (r_ent hm .annotProp hx.1 h1) (by decide) (r_annotVal hm hx.2.1 h2) (by decide)

theorem r_annots (hm : Knows ns m) : ∀ (as : List Annot), Annot.AllMeet req as → ∀ ts, Spelt usual ns (annotForms as) ts →
    ∃ l : Items, AllR m .annotation l ∧ l.objs = Annot.toObjs as ∧ l.toks = ts
  | [], _, ts, h => ⟨[], fun _ h => (nomatch h), by rw [Annot.toObjs]; rfl, (spelt_nil h).symm⟩
  | a :: as, hx, ts, h => by
    rw [Annot.AllMeet] at hx
    rw [annotForms] at h
    obtain ⟨us, vs, rfl, h1, h2⟩ := spelt_append h
    obtain ⟨l, h3, h4, h5⟩ := r_annots hm as hx.2 vs h2
    refine ⟨(us, a.toObj) :: l, ?_, ?_, ?_⟩
    · intro it hit
      rcases List.mem_cons.1 hit with rfl | hit
      · exact (r_annot hm a hx.1 us h1).weak
      · exact h3 it hit
    · show a.toObj :: l.objs = _
      rw [h4, Annot.toObjs]
    · show us ++ l.toks = _
      rw [h5]
end

theorem ope_first {p : Ope} (hp : Proper (match p with | .prop i => i | .inv i => i)) (hm : Knows ns m) {ts : List Tok}
    (h : Spelt usual ns (opeForm p) ts) : ∃ tk us, ts = tk :: us ∧ (tk.isIri = true ∨ tk = .kw .objectInverseOf) := by
  cases p with
  | prop i =>
    cases h with
    | @iri _ tk _ ts h h0 => exact ⟨tk, ts, rfl, .inl (iri_run hm hp h).1⟩
  | inv i =>
    obtain ⟨us, rfl, _⟩ := spelt_form h
    exact ⟨_, _, rfl, .inr rfl⟩

theorem r_sub (hm : Knows ns m) {p : SubOpe} (hp : p.Meets req) {ts : List Tok} (h : Spelt usual ns (subForm p) ts) :
    R 1 m .subOpe ts p.toObj := by
  cases p with
  | ope p =>
    have hp := hp.1
    have hr := r_ope hm hp h
    obtain ⟨tk, us, rfl, h1⟩ := ope_first (by cases p <;> exact hp) hm h
    obtain ⟨_, _, e, h2, _⟩ := hr.first
    cases e
    refine ⟨⟨tk, us, rfl, h2, ?_⟩, fun rest hn n hle => ?_⟩
    · constructor
      · rintro rfl
        rcases h1 with h1 | h1
        · cases h1
        · cases h1
      · intro h; cases h
    · cases n with
      | zero => omega
      | succ n =>
        have h4 : parseCat m (n + 1) .subOpe (tk :: us ++ rest) = parseCat m n .ope (tk :: us ++ rest) := by
          rcases h1 with h1 | rfl
          · cases tk <;> first | rfl | cases h1
          · rfl
        rw [h4]
        exact hr.run rest hn n (by omega)
  | chain ps =>
    obtain ⟨us, rfl, h0⟩ := spelt_form h
    obtain ⟨l, h3, h4, rfl⟩ := items_flatMap (fun x ts hx h => r_ope hm hx h) ps us hp.2 h0
    refine ⟨⟨_, _, rfl, rfl, by simp⟩, fun rest _ n hn => ?_⟩
    cases n with
    | zero => simp at hn
    | succ n =>
      simp only [List.length_cons, List.length_append, List.length_nil] at hn
      rw [List.cons_append, List.cons_append, List.append_assoc, List.cons_append, List.nil_append, parseCat, parseStep,
        parseMany_run rest h3 (by omega), h4]
      simp only [Option.bind_eq_bind, Option.bind_some]
      rw [if_neg (by rw [List.length_map]; exact Nat.not_lt.2 hp.1)]; rfl

theorem r_axiom (hm : Knows ns m) (a : Axiom) (ha : a.Meets req) {ts : List Tok} (h : Spelt usual ns (axiomForm a) ts) :
    R 0 m .ax ts a.toObj := by
  obtain ⟨x, as⟩ := a
  obtain ⟨hx, hn⟩ := ha
  have has := r_annots hm as hn.1
  clear hn
  unfold Axiom.toObj
  dsimp only at hx ⊢
  cases x with
  | decl k i =>
    refine annotated_run .declaration rfl rfl (.inl rfl) has (fun us hu => ?_) h
    exact args_one (r_entity hm k hx hu) (by decide)
  | subClass c d =>
    refine annotated_run .subClassOf rfl rfl (.inl rfl) has (fun us hu => ?_) h
    obtain ⟨a, b, rfl, h1, h2⟩ := spelt_append hu
    exact args_two (r_ce hm c hx.1 _ h1) (by decide) (r_ce hm d hx.2 _ h2) (by decide)
  | equivClasses cs =>
    refine annotated_run .equivalentClasses rfl rfl (.inl rfl) has (fun us hu => ?_) h
    exact args_many (by decide) (by rw [CE.length_toObjs]; exact hx.1) (r_ces hm cs hx.2 us hu)
  | disjClasses cs =>
    refine annotated_run .disjointClasses rfl rfl (.inl rfl) has (fun us hu => ?_) h
    exact args_many (by decide) (by rw [CE.length_toObjs]; exact hx.1) (r_ces hm cs hx.2 us hu)
  | disjUnion c cs =>
    refine annotated_run .disjointUnion rfl rfl (.inl rfl) has (fun us hu => ?_) h
    obtain ⟨a, b, rfl, h1, h2⟩ := spelt_cons hu
    exact .one (r_ent hm .cls hx.1 h1).weak (by decide)
      (args_many (by decide) (by rw [CE.length_toObjs]; exact hx.2.1) (r_ces hm cs hx.2.2 b h2))
  | subObjProp p q =>
    refine annotated_run .subObjectPropertyOf rfl rfl (.inl rfl) has (fun us hu => ?_) h
    obtain ⟨a, b, rfl, h1, h2⟩ := spelt_append hu
    exact .one (r_sub hm hx.1 h1) (by decide) (args_one (r_ope hm hx.2 h2) (by decide))
  | equivObjProp ps =>
    refine annotated_run .equivalentObjectProperties rfl rfl (.inl rfl) has (fun us hu => ?_) h
    exact args_many (by decide) (by rw [List.length_map]; exact hx.1) (items_flatMap (fun x ts hx h => r_ope hm hx h) ps us hx.2 hu)
  | disjObjProp ps =>
    refine annotated_run .disjointObjectProperties rfl rfl (.inl rfl) has (fun us hu => ?_) h
    exact args_many (by decide) (by rw [List.length_map]; exact hx.1) (items_flatMap (fun x ts hx h => r_ope hm hx h) ps us hx.2 hu)
  | invObjProp p q =>
    refine annotated_run .inverseObjectProperties rfl rfl (.inl rfl) has (fun us hu => ?_) h
    obtain ⟨a, b, rfl, h1, h2⟩ := spelt_append hu
    exact args_two (r_ope hm hx.1 h1) (by decide) (r_ope hm hx.2 h2) (by decide)
  | objPropDomain p c =>
    refine annotated_run .objectPropertyDomain rfl rfl (.inl rfl) has (fun us hu => ?_) h
    obtain ⟨a, b, rfl, h1, h2⟩ := spelt_append hu
    exact args_two (r_ope hm hx.1 h1) (by decide) (r_ce hm c hx.2 _ h2) (by decide)
  | objPropRange p c =>
    refine annotated_run .objectPropertyRange rfl rfl (.inl rfl) has (fun us hu => ?_) h
    obtain ⟨a, b, rfl, h1, h2⟩ := spelt_append hu
    exact args_two (r_ope hm hx.1 h1) (by decide) (r_ce hm c hx.2 _ h2) (by decide)
  | objPropChar k p =>
    have hargs := fun us hu => args_one (ts := us) (r_ope hm hx hu) (by decide)
    cases k with
    | func => exact annotated_run .functionalObjectProperty rfl rfl (.inl rfl) has hargs h
    | invFunc => exact annotated_run .inverseFunctionalObjectProperty rfl rfl (.inl rfl) has hargs h
    | symm => exact annotated_run .symmetricObjectProperty rfl rfl (.inl rfl) has hargs h
    | asymm => exact annotated_run .asymmetricObjectProperty rfl rfl (.inl rfl) has hargs h
    | trans => exact annotated_run .transitiveObjectProperty rfl rfl (.inl rfl) has hargs h
    | refl => exact annotated_run .reflexiveObjectProperty rfl rfl (.inl rfl) has hargs h
    | irrefl => exact annotated_run .irreflexiveObjectProperty rfl rfl (.inl rfl) has hargs h
  | subDataProp p q =>
    refine annotated_run .subDataPropertyOf rfl rfl (.inl rfl) has (fun us hu => ?_) h
    obtain ⟨a, b, rfl, h1, h2⟩ := spelt_cons hu
    exact args_two (r_ent hm _ hx.1 h1) (by decide) (r_ent hm _ hx.2 h2) (by decide)
  | equivDataProp ps =>
    refine annotated_run .equivalentDataProperties rfl rfl (.inl rfl) has (fun us hu => ?_) h
    exact args_many (by decide) (by rw [List.length_map]; exact hx.1) (items_flatMap (f := fun i => [.iri i]) (g := Ast.ent .dataProp)
      (fun x ts hx h => r_ent hm _ hx h) ps us hx.2 (by rw [← map_flatMap]; exact hu))
  | disjDataProp ps =>
    refine annotated_run .disjointDataProperties rfl rfl (.inl rfl) has (fun us hu => ?_) h
    exact args_many (by decide) (by rw [List.length_map]; exact hx.1) (items_flatMap (f := fun i => [.iri i]) (g := Ast.ent .dataProp)
      (fun x ts hx h => r_ent hm _ hx h) ps us hx.2 (by rw [← map_flatMap]; exact hu))
  | dataPropDomain p c =>
    refine annotated_run .dataPropertyDomain rfl rfl (.inl rfl) has (fun us hu => ?_) h
    obtain ⟨a, b, rfl, h1, h2⟩ := spelt_cons hu
    exact args_two (r_ent hm _ hx.1 h1) (by decide) (r_ce hm c hx.2 _ h2) (by decide)
  | dataPropRange p d =>
    refine annotated_run .dataPropertyRange rfl rfl (.inl rfl) has (fun us hu => ?_) h
    obtain ⟨a, b, rfl, h1, h2⟩ := spelt_cons hu
    exact args_two (r_ent hm _ hx.1 h1) (by decide) (r_dr hm d hx.2 _ h2) (by decide)
  | funcDataProp p =>
    refine annotated_run .functionalDataProperty rfl rfl (.inl rfl) has (fun us hu => ?_) h
    exact args_one (r_ent hm _ hx hu) (by decide)
  | datatypeDef i d =>
    refine annotated_run .datatypeDefinition rfl rfl (.inl rfl) has (fun us hu => ?_) h
    obtain ⟨a, b, rfl, h1, h2⟩ := spelt_cons hu
    exact args_two (r_ent hm _ hx.1 h1) (by decide) (r_dr hm d hx.2 _ h2) (by decide)
  | hasKey c ps ds =>
    refine annotated_run .hasKey rfl rfl (.inl rfl) has (fun us hu => ?_) h
    obtain ⟨a, b', rfl, h1, h0⟩ := spelt_append hu
    obtain ⟨b, e, rfl, h2, h3⟩ := spelt_append h0
    obtain ⟨b, rfl, h4⟩ := spelt_paren h2
    obtain ⟨e, rfl, h5⟩ := spelt_paren h3
    have := Args.one (r_ce hm c hx.1 a h1).weak (by decide)
      (args_group (items_flatMap (fun x ts hx h => r_ope hm hx h) ps b hx.2.1 h4)
        (args_group (items_flatMap (f := fun i => [.iri i]) (g := Ast.ent .dataProp) (fun x ts hx h => r_ent hm _ hx h) ds e
          hx.2.2.1 (by rw [← map_flatMap]; exact h5)) .nil))
    simpa [Ax.fields] using this
  | sameInd is =>
    refine annotated_run .sameIndividual rfl rfl (.inl rfl) has (fun us hu => ?_) h
    exact args_many (by decide) (by rw [List.length_map]; exact hx.1) (items_flatMap (fun x ts hx h => r_ind hm hx h) is us hx.2 hu)
  | diffInd is =>
    refine annotated_run .differentIndividuals rfl rfl (.inl rfl) has (fun us hu => ?_) h
    exact args_many (by decide) (by rw [List.length_map]; exact hx.1) (items_flatMap (fun x ts hx h => r_ind hm hx h) is us hx.2 hu)
  | classAssert c i =>
    refine annotated_run .classAssertion rfl rfl (.inl rfl) has (fun us hu => ?_) h
    obtain ⟨a, b, rfl, h1, h2⟩ := spelt_append hu
    exact args_two (r_ce hm c hx.1 _ h1) (by decide) (r_ind hm hx.2 h2) (by decide)
  | objPropAssert p i j =>
    refine annotated_run .objectPropertyAssertion rfl rfl (.inl rfl) has (fun us hu => ?_) h
    obtain ⟨a, b', rfl, h1, h0⟩ := spelt_append hu
    obtain ⟨b, c, rfl, h2, h3⟩ := spelt_append h0
    exact args_three (r_ope hm hx.1 h1) (by decide) (r_ind hm hx.2.1 h2) (by decide) (r_ind hm hx.2.2 h3) (by decide)
  | negObjPropAssert p i j =>
    refine annotated_run .negativeObjectPropertyAssertion rfl rfl (.inl rfl) has (fun us hu => ?_) h
    obtain ⟨a, b', rfl, h1, h0⟩ := spelt_append hu
    obtain ⟨b, c, rfl, h2, h3⟩ := spelt_append h0
    exact args_three (r_ope hm hx.1 h1) (by decide) (r_ind hm hx.2.1 h2) (by decide) (r_ind hm hx.2.2 h3) (by decide)
  | dataPropAssert p i l =>
    refine annotated_run .dataPropertyAssertion rfl rfl (.inl rfl) has (fun us hu => ?_) h
    obtain ⟨a, b', rfl, h1, h0⟩ := spelt_cons hu
    obtain ⟨b, c, rfl, h2, h3⟩ := spelt_append h0
    exact args_three (r_ent hm _ hx.1 h1) (by decide) (r_ind hm hx.2.1 h2) (by decide) (r_lit hm h3) (by decide)
  | negDataPropAssert p i l =>
    refine annotated_run .negativeDataPropertyAssertion rfl rfl (.inl rfl) has (fun us hu => ?_) h
    obtain ⟨a, b', rfl, h1, h0⟩ := spelt_cons hu
    obtain ⟨b, c, rfl, h2, h3⟩ := spelt_append h0
    exact args_three (r_ent hm _ hx.1 h1) (by decide) (r_ind hm hx.2.1 h2) (by decide) (r_lit hm h3) (by decide)
  | annotAssert p s v =>
    refine annotated_run .annotationAssertion rfl rfl (.inl rfl) has (fun us hu => ?_) h
    obtain ⟨a, b', rfl, h1, h0⟩ := spelt_cons hu
    obtain ⟨b, c, rfl, h2, h3⟩ := spelt_append h0
    exact args_three (r_ent hm _ hx.1 h1) (by decide) (r_annotSubj hm hx.2.1 h2) (by decide) (r_annotVal hm hx.2.2 h3) (by decide)
  | subAnnotProp p q =>
    refine annotated_run .subAnnotationPropertyOf rfl rfl (.inl rfl) has (fun us hu => ?_) h
    obtain ⟨a, b, rfl, h1, h2⟩ := spelt_cons hu
    exact args_two (r_ent hm _ hx.1 h1) (by decide) (r_ent hm _ hx.2 h2) (by decide)
  | annotPropDomain p i =>
    refine annotated_run .annotationPropertyDomain rfl rfl (.inl rfl) has (fun us hu => ?_) h
    obtain ⟨a, b, rfl, h1, h2⟩ := spelt_cons hu
    exact args_two (r_ent hm _ hx.1 h1) (by decide) (r_iri hm hx.2 h2) (by decide)
  | annotPropRange p i =>
    refine annotated_run .annotationPropertyRange rfl rfl (.inl rfl) has (fun us hu => ?_) h
    obtain ⟨a, b, rfl, h1, h2⟩ := spelt_cons hu
    exact args_two (r_ent hm _ hx.1 h1) (by decide) (r_iri hm hx.2 h2) (by decide)

/-! ## Documents -/

/-- Declarations as entries of a prefix map. -/
def entries (ps : List (Str × Str)) : Prefix.Fwd := ps.map fun e => (⟨0, e.1⟩, e.2)

theorem meaning_entries (ps : List (Str × Str)) (p : Str) :
    PrefixSpec.meaning (entries ps) p = (ps.find? fun e => e.1 == p).map Prod.snd := by
  induction ps with
  | nil => rfl
  | cons e ps ih =>
    show (if e.1 = p then some e.2 else PrefixSpec.meaning (entries ps) p) = _
    rw [List.find?_cons]
    by_cases h : e.1 = p
    · simp [h]
    · have : (e.1 == p) = false := by simpa using h
      rw [if_neg h, this, ih]

theorem distinct_entries {ps : List (Str × Str)} (h : ps.Pairwise fun e f => e.1 ≠ f.1) : PrefixSpec.Distinct (entries ps) :=
  List.pairwise_map.2 h

/-- The prefix map of the reader knows what the document declares. -/
theorem knows_declared {d : Doc} (hd : d.Ok) {ks : List Nat} (hk : ks.length = 4) {dflt : Prefix.Fwd}
    (hf : PrefixSpec.Distinct dflt) (ha : d.Agrees (PrefixSpec.initial dflt)) (a : Nat) :
    Knows (d.ns (PrefixSpec.initial dflt)) (declare a (entries d.prefixes) (Prefix.create ks dflt)) := by
  intro p n hp
  rw [C22_get_ns (declare_reaches _ a (.create ks dflt hk hf)), foldAdd_spec _ _ _ (distinct_entries hd.prefixes)]
  simp only [PrefixSpec.Abs.merge, meaning_entries]
  unfold Doc.ns at hp
  cases he : d.prefixes.find? fun e => e.1 == p with
  | none => rw [he] at hp; exact hp
  | some e =>
    rw [he] at hp
    cases hp
    have h1 : e.1 = p := by simpa using List.find?_some he
    have h2 := List.mem_of_find?_eq_some he
    cases hi : PrefixSpec.initial dflt p with
    | some n => rw [← h1] at hi; simp [ha e h2 n hi]
    | none =>
      have hs : ¬ Standard p := by
        intro hs
        have : PrefixSpec.initial dflt p = some (PrefixSpec.std p []) := if_pos hs
        rw [hi] at this; cases this
      simp [std_other hs]

theorem spelt_prefixes : ∀ (ps : List (Str × Str)) {ts : List Tok}, Spelt W ns (ps.flatMap prefixForm) ts →
    ts = (entries ps).flatMap prefixToks
  | [], _, h => spelt_nil h
  | e :: ps, _, h => by
    rw [List.flatMap_cons] at h
    obtain ⟨us, vs, rfl, h1, h2⟩ := spelt_append h
    obtain ⟨xs, rfl, h3⟩ := spelt_form h1
    obtain ⟨_, rfl, h4⟩ := spelt_tok h3
    obtain ⟨_, rfl, h5⟩ := spelt_tok h4
    obtain ⟨_, rfl, h6⟩ := spelt_tok h5
    rw [spelt_nil h6, spelt_prefixes ps h2]; rfl

theorem isIri_begins {t : Tok} (h : t.isIri = true) : t.beginsIri = true := by cases t <;> first | rfl | cases h

theorem id_run {σ : Type} {h : Callback σ Item} (hh : Accepts h) (hm : Knows ns m) (s : σ) {id : Option (Iri × Option Iri)}
    (hi : ∀ i v, id = some (i, v) → Proper i ∧ ∀ w, v = some w → Proper w) {ts rest : List Tok} (hr : Rest rest)
    (hs : Spelt usual ns (idForm id) ts) :
    readId h s m (ts ++ rest) = .go (give h s (match (motive := _ → List Item) id with
      | none => []
      | some (i, none) => [.iri i]
      | some (i, some v) => [.iri i, .version v])) m rest := by
  match id, hs with
  | none, hs =>
    rw [spelt_nil hs]
    cases rest with
    | nil => rfl
    | cons t rest =>
      have := hr t rfl
      simp [readId, this, give]
  | some (i, none), hs =>
    cases hs with
    | @iri _ t _ ts h1 h0 =>
      rw [spelt_nil h0]
      obtain ⟨h2, h3⟩ := iri_run hm (hi _ _ rfl).1 h1
      have h2 := isIri_begins h2
      cases rest with
      | nil => simp [readId, h2, h3, emit_ok hh, give]
      | cons u rest =>
        have := hr u rfl
        simp [readId, h2, h3, this, emit_ok hh, give]
  | some (i, some v), hs =>
    cases hs with
    | @iri _ t _ ts h1 h0 =>
      cases h0 with
      | @iri _ u _ ts h4 h0 =>
        rw [spelt_nil h0]
        obtain ⟨h2, h3⟩ := iri_run hm (hi _ _ rfl).1 h1
        obtain ⟨h5, h6⟩ := iri_run hm ((hi _ _ rfl).2 _ rfl) h4
        have h2 := isIri_begins h2
        have h5 := isIri_begins h5
        simp [readId, h2, h3, h5, h6, hh s, hh _ (.version v), give]

theorem imports_run {σ : Type} {h : Callback σ Item} (hh : Accepts h) (hm : Knows ns m) (k n : Nat) (rest : List Tok) :
    ∀ (is : List Iri) (s : σ) (ts : List Tok), (∀ i ∈ is, Proper i) →
    Spelt usual ns (is.flatMap fun i => form .import_ [.iri i]) ts →
    readHeader h k (is.length + n) s m (ts ++ rest) = readHeader h k n (give h s (is.map Item.import)) m rest
  | [], s, ts, _, hs => by rw [spelt_nil hs]; simp [give]
  | i :: is, s, ts, hi, hs => by
    rw [List.flatMap_cons] at hs
    obtain ⟨us, vs, rfl, h1, h2⟩ := spelt_append hs
    obtain ⟨xs, rfl, h3⟩ := spelt_form h1
    cases h3 with
    | @iri _ t _ xs h4 h0 =>
      rw [spelt_nil h0]
      have h5 := (iri_run hm (hi i (List.mem_cons_self ..)) h4).2
      have ih := imports_run hh hm k n rest is (h s (.import i)).1 vs (fun j hj => hi j (List.mem_cons_of_mem _ hj)) h2
      rw [List.length_cons, Nat.add_right_comm]
      simp only [List.cons_append, List.nil_append, List.append_assoc]
      rw [readHeader]
      simp only [readImport, h5, Option.map_some, emit_ok hh]
      rw [ih]; rfl

theorem headerAnnots_run {σ : Type} {h : Callback σ Item} (hh : Accepts h) (k n : Nat) (rest : List Tok) (hr : Next rest) :
    ∀ (l : Items) (s : σ), AllR m .annotation l → (∀ it ∈ l, it.1.length < k) →
    readHeader h k (l.length + n) s m (l.toks ++ rest) = readHeader h k n (give h s (l.objs.map Item.annot)) m rest
  | [], s, _, _ => by simp [give, Items.toks, Items.objs]
  | it :: l, s, hl, hk => by
    obtain ⟨tk, us, e, _, h3⟩ := hl.head.first
    have hp := hl.head.run (Items.toks l ++ rest) (hl.tail.next hr) k (hk it (List.mem_cons_self ..))
    rw [show Items.toks (it :: l) = it.1 ++ Items.toks l from rfl, List.append_assoc]
    have ht : tk = .kw .annotation := h3.2 rfl
    subst ht
    rw [e, List.cons_append] at hp ⊢
    rw [List.length_cons, Nat.add_right_comm, readHeader]
    simp only [hp, emit_ok hh]
    rw [headerAnnots_run hh k n rest hr l _ hl.tail fun x hx => hk x (List.mem_cons_of_mem _ hx)]
    rfl

theorem axiom_first {ts : List Tok} {o : Obj} (hr : R 1 m .ax ts o) :
    ∃ k us, ts = .kw k :: us ∧ k ≠ .import_ ∧ k ≠ .annotation := by
  obtain ⟨tk, us, rfl, _, _⟩ := hr.first
  have h5 := hr.run [] (fun t ht => nomatch ht) _ (Nat.le_refl _)
  rw [parseCat, parseStep] at h5
  unfold parseConstruct at h5
  split at h5
  · rename_i k ts' e
    split at h5
    · rename_i pr hp
      split at h5
      · rename_i hc
        rw [List.append_nil] at e
        cases e
        exact ⟨k, _, rfl, (prod_ax hp hc).1, (prod_ax hp hc).2⟩
      · cases h5
    · cases h5
  · cases h5

theorem axioms_run {σ : Type} {h : Callback σ Item} (hh : Accepts h) (k n : Nat) :
    ∀ (l : Items) (s : σ), AllR m .ax l → (∀ it ∈ l, it.1.length < k) →
    readAxioms h k (l.length + (n + 1)) s m (l.toks ++ [.rpar]) = (give h s (l.objs.map Item.ax), .ok)
  | [], s, _, _ => by rw [List.length_nil, Nat.zero_add]; rfl
  | it :: l, s, hl, hk => by
    obtain ⟨kw, us, e, _, _⟩ := axiom_first hl.head
    have hp := hl.head.run (Items.toks l ++ [.rpar]) (hl.tail.next (next_rpar [])) k (hk it (List.mem_cons_self ..))
    rw [show Items.toks (it :: l) = it.1 ++ Items.toks l from rfl, List.append_assoc]
    rw [e, List.cons_append] at hp ⊢
    rw [List.length_cons, Nat.add_right_comm, readAxioms]
    · simp only [hp, emit_ok hh]
      rw [axioms_run hh k n l _ hl.tail fun x hx => hk x (List.mem_cons_of_mem _ hx)]
      rfl
    · exact fun _ => nofun

theorem ends_axioms {l : Items} (hl : AllR m .ax l) : EndsHeader (l.toks ++ [.rpar]) := by
  cases l with
  | nil => intro t ht; cases ht; exact ⟨nofun, nofun, rfl⟩
  | cons it l =>
    obtain ⟨k, us, e, h1, h2⟩ := axiom_first hl.head
    rw [show Items.toks (it :: l) = it.1 ++ Items.toks l from rfl, e]
    intro t ht
    cases ht
    exact ⟨fun e => h1 (by cases e; rfl), fun e => h2 (by cases e; rfl), rfl⟩

theorem annots_toObjs (as : List Annot) : Annot.toObjs as = as.map Annot.toObj := by
  induction as with
  | nil => rw [Annot.toObjs]; rfl
  | cons a as ih => rw [Annot.toObjs, ih]; rfl

theorem annots_allMeet {r : Req} {as : List Annot} (h : ∀ a ∈ as, a.Meets r) : Annot.AllMeet r as := by
  induction as with
  | nil => rw [Annot.AllMeet]; trivial
  | cons a as ih =>
    rw [Annot.AllMeet]
    exact ⟨h a (List.mem_cons_self ..), ih fun b hb => h b (List.mem_cons_of_mem _ hb)⟩

/-- Documents are read as what they say. -/
theorem read_doc {σ : Type} {h : Callback σ Item} (hh : Accepts h) {d : Doc} (hd : d.Ok) {ks : List Nat} (hk : ks.length = 4)
    {dflt : Prefix.Fwd} (hf : PrefixSpec.Distinct dflt) (ha : d.Agrees (PrefixSpec.initial dflt)) (addr : Nat) (s : σ)
    {text : Str} (ht : Says usual (PrefixSpec.initial dflt) text d) :
    funcRead h (Prefix.create ks dflt) addr text s = (give h s d.items, .ok) := by
  have hm := knows_declared hd hk hf ha addr
  have hlen := lex_le text
  unfold Says Doc.form at ht
  unfold funcRead
  generalize hts : lex text = ts at ht hlen
  obtain ⟨tp, to, rfl, h1, h2⟩ := spelt_append ht
  obtain ⟨us, rfl, h3⟩ := spelt_form h2
  obtain ⟨ti, us, rfl, h4, h5⟩ := spelt_append h3
  obtain ⟨tm, us, rfl, h6, h7⟩ := spelt_append h5
  obtain ⟨ta, tx, rfl, h8, h9⟩ := spelt_append h7
  obtain ⟨la, ha1, ha2, rfl⟩ := r_annots hm d.annots (annots_allMeet hd.annots) ta h8
  obtain ⟨lx, hx1, hx2, rfl⟩ := items_flatMap (fun x ts hx h => r_axiom hm x hx h) d.axioms tx hd.axioms h9
  rw [spelt_prefixes _ h1, readPrefixes_eq hh _ _ _ _ _ (by simp)]
  dsimp only
  simp only [List.length_append, List.length_cons, List.length_nil] at hlen
  have hends := ends_axioms hx1
  have hnx : Next (lx.toks ++ [.rpar]) := hx1.next (next_rpar [])
  have hrest : Rest (tm ++ (la.toks ++ (lx.toks ++ [.rpar]))) := by
    cases hi : d.imports with
    | cons i is =>
      rw [hi, List.flatMap_cons] at h6
      obtain ⟨xs, ys, rfl, g1, _⟩ := spelt_append h6
      obtain ⟨zs, rfl, _⟩ := spelt_form g1
      intro t ht; cases ht; rfl
    | nil =>
      rw [hi] at h6
      rw [spelt_nil h6, List.nil_append]
      cases la with
      | nil => exact fun t ht => (hends t ht).2.2
      | cons it la =>
        obtain ⟨tk, vs, e, _, g3⟩ := ha1.head.first
        have g3 := g3.2 rfl
        subst g3
        rw [show Items.toks (it :: la) = it.1 ++ Items.toks la from rfl, e]
        intro t ht; cases ht; rfl
  have hmi : d.imports.length ≤ tm.length := by
    clear hrest hlen hts h5 h3 h2 ht
    generalize d.imports = is at h6
    clear hd
    induction is generalizing tm with
    | nil => exact Nat.zero_le _
    | cons i is ih =>
      rw [List.flatMap_cons] at h6
      obtain ⟨xs, ys, rfl, g1, g2⟩ := spelt_append h6
      obtain ⟨zs, rfl, _⟩ := spelt_form g1
      have := ih ys g2
      simp only [List.length_append, List.length_cons]; omega
  have hca := ha1.count
  have hcx := hx1.count
  obtain ⟨j, hj⟩ : ∃ j, text.length + 1 = d.imports.length + (la.length + (j + 1)) :=
    ⟨text.length - d.imports.length - la.length, by omega⟩
  obtain ⟨q, hq⟩ : ∃ q, text.length + 1 = lx.length + (q + 1) := ⟨text.length - lx.length, by omega⟩
  simp only [readOntology, List.append_assoc]
  rw [id_run hh hm _ hd.id hrest h4]
  dsimp only
  have e1 := imports_run hh hm text.length (la.length + (j + 1)) (la.toks ++ (lx.toks ++ [.rpar])) d.imports
  rw [← hj] at e1
  rw [e1 _ tm hd.imports h6, headerAnnots_run hh text.length (j + 1) _ hnx la _ ha1 (fun it hit => by
    have := items_le hit; omega), readHeader_end _ _ _ _ _ hends]
  dsimp only
  have e2 := fun s => axioms_run hh text.length q lx s hx1 (fun it hit => by have := items_le hit; omega)
  rw [← hq] at e2
  rw [e2]
  unfold Doc.items
  rw [ha2, hx2, annots_toObjs, ← give_append, ← give_append, ← give_append, ← give_append, List.map_map, List.map_map]
  simp only [entries, List.map_map, List.append_assoc]
  rfl

end Cowl.Says
