import Verif.FuncFault
import Verif.FuncCutLemmas
/-! # Lemmas: the automaton accepts what the parser accepts -/
namespace Cowl.Func
open Prefix

/-! ## Single tokens -/

theorem run_nil {s : St} (h : s.phase ≠ .done) : run s [] = .bad [] .syntax := by
  rw [run, if_neg h]

theorem run_shift {m : PMap} {a : Nat} {s : Sym} {st l : List Sym} {ph : Phase} {t : Tok} {ts : List Tok} (h : symAct m s t = .shift l) :
    run ⟨m, a, s :: st, ph⟩ (t :: ts) = run ⟨m, a, l ++ st, ph⟩ ts := by
  rw [run]
  show (match feed m a ph t (s :: st) with | .go s' => run s' ts | .bad w => .bad (t :: ts) w | .ub => .ub) = _
  rw [feed, h]
  rfl

theorem run_skip {m : PMap} {a : Nat} {s : Sym} {st : List Sym} {ph : Phase} {t : Tok} {ts : List Tok} (h : symAct m s t = .skip) :
    run ⟨m, a, s :: st, ph⟩ (t :: ts) = run ⟨m, a, st, ph⟩ (t :: ts) := by
  rw [run, run]
  show (match feed m a ph t (s :: st) with | .go s' => run s' ts | .bad w => .bad (t :: ts) w | .ub => .ub) = _
  rw [feed, h]
  rfl

theorem run_bad {m : PMap} {a : Nat} {s : Sym} {st : List Sym} {ph : Phase} {t : Tok} {ts : List Tok} {w : Why} (h : symAct m s t = .bad w) :
    run ⟨m, a, s :: st, ph⟩ (t :: ts) = .bad (t :: ts) w := by
  rw [run]
  show (match feed m a ph t (s :: st) with | .go s' => run s' ts | .bad w => .bad (t :: ts) w | .ub => .ub) = _
  rw [feed, h]
  rfl

theorem run_ub {m : PMap} {a : Nat} {s : Sym} {st : List Sym} {ph : Phase} {t : Tok} {ts : List Tok} (h : symAct m s t = .ub) :
    run ⟨m, a, s :: st, ph⟩ (t :: ts) = .ub := by
  rw [run]
  show (match feed m a ph t (s :: st) with | .go s' => run s' ts | .bad w => .bad (t :: ts) w | .ub => .ub) = _
  rw [feed, h]
  rfl

/-- The result of a parser, and what the automaton does if the tokens are expected to begin with
`l`: the same if it succeeds, having read at least `d` tokens; if not, the automaton does not
accept. -/
structure Fol {α : Type} (m : PMap) (d : Nat) (res : Option (α × List Tok)) (l : List Sym) (ts : List Tok) : Prop where
  done : ∀ x r, res = some (x, r) → r.length + d ≤ ts.length ∧ ∀ a st ph, ph ≠ .done → run ⟨m, a, l ++ st, ph⟩ ts = run ⟨m, a, st, ph⟩ r
  fails : res = none → ∀ a st ph, ph ≠ .done → run ⟨m, a, l ++ st, ph⟩ ts ≠ .ok

variable {α β : Type} {m : PMap} {d : Nat} {res : Option (α × List Tok)} {l : List Sym} {ts : List Tok}

theorem Fol.mono {d' : Nat} (h : Fol m d res l ts) (hd : d' ≤ d) : Fol m d' res l ts :=
  ⟨fun x r e => ⟨by have := (h.done x r e).1; omega, (h.done x r e).2⟩, h.fails⟩

theorem Fol.nil (x : α) : Fol m 0 (some (x, ts)) [] ts :=
  ⟨fun y r e => by obtain ⟨-, rfl⟩ := _root_.Prod.mk.inj (Option.some.inj e); exact ⟨by omega, fun _ _ _ _ => rfl⟩, nofun⟩

theorem Fol.shift {s : Sym} {t : Tok} {l' : List Sym} (hs : symAct m s t = .shift l') (h : Fol m d res (l' ++ l) ts) :
    Fol m (d + 1) res (s :: l) (t :: ts) :=
  ⟨fun x r e => ⟨by have := (h.done x r e).1; rw [List.length_cons]; omega, fun a st ph hp => by
      have := (h.done x r e).2 a st ph hp
      rw [List.cons_append, run_shift hs, ← List.append_assoc, this]⟩,
    fun e a st ph hp => by
      have := h.fails e a st ph hp
      rw [List.cons_append, run_shift hs, ← List.append_assoc]; exact this⟩

theorem Fol.skip {s : Sym} {t : Tok} (hs : symAct m s t = .skip) (h : Fol m d res l (t :: ts)) : Fol m d res (s :: l) (t :: ts) :=
  ⟨fun x r e => ⟨(h.done x r e).1, fun a st ph hp => by rw [List.cons_append, run_skip hs, (h.done x r e).2 a st ph hp]⟩,
    fun e a st ph hp => by rw [List.cons_append, run_skip hs]; exact h.fails e a st ph hp⟩

theorem Fol.bad {s : Sym} {t : Tok} {w : Why} (hs : symAct m s t = .bad w) (hr : res = Option.none) : Fol m d res (s :: l) (t :: ts) :=
  ⟨fun x r e => (by rw [hr] at e; cases e), fun _ a st ph _ => by rw [List.cons_append, run_bad hs]; nofun⟩

theorem Fol.ub {s : Sym} {t : Tok} (hs : symAct m s t = .ub) (hr : res = Option.none) : Fol m d res (s :: l) (t :: ts) :=
  ⟨fun x r e => (by rw [hr] at e; cases e), fun _ a st ph _ => by rw [List.cons_append, run_ub hs]; nofun⟩

theorem Fol.empty (hr : res = Option.none) : Fol m d res l [] :=
  ⟨fun x r e => (by rw [hr] at e; cases e), fun _ a st ph hp => by rw [run_nil hp]; nofun⟩

theorem Fol.bind {k : α × List Tok → Option (β × List Tok)} {d' : Nat} {l' : List Sym} (h : Fol m d res l ts)
    (h2 : ∀ x r, res = some (x, r) → r.length + d ≤ ts.length → Fol m d' (k (x, r)) l' r) : Fol m (d + d') (res.bind k) (l ++ l') ts := by
  cases e : res with
  | none => exact ⟨fun x r e => (by cases e), fun _ a st ph hp => by
      rw [List.append_assoc]; exact h.fails e a _ ph hp⟩
  | some y =>
    obtain ⟨x, r⟩ := y
    have h1 := h.done x r e
    have h2 := h2 x r e h1.1
    refine ⟨fun x' r' e' => ⟨?_, fun a st ph hp => ?_⟩, fun e' a st ph hp => ?_⟩
    · have := (h2.done x' r' e').1; omega
    · rw [List.append_assoc, h1.2 a _ ph hp]; exact (h2.done x' r' e').2 a st ph hp
    · rw [List.append_assoc, h1.2 a _ ph hp]; exact h2.fails e' a st ph hp

theorem Fol.map {f : α × List Tok → β × List Tok} (hf : ∀ y, (f y).2 = y.2) (h : Fol m d res l ts) : Fol m d (res.map f) l ts := by
  cases e : res with
  | none => exact ⟨fun x r e => (by cases e), fun _ => h.fails e⟩
  | some y =>
    refine ⟨fun x r e' => ?_, nofun⟩
    have e2 : r = y.2 := by rw [← hf y]; exact (congrArg _root_.Prod.snd (Option.some.inj e')).symm
    subst e2
    exact h.done y.1 y.2 e

/-! ## Leaves -/

theorem iriAct_some {t : Tok} {i : Iri} (h : readIri m t = some i) : iriAct m t = .shift [] := by
  cases t with
  | iriRef s =>
    have h : (iriFromString s).map _ = some i := h
    rw [iriAct]
    cases e : iriFromString s with
    | none => rw [e] at h; cases h
    | some _ => rfl
  | pnameLn s =>
    rw [readIri] at h
    rw [iriAct]
    cases e : m.parseShortIri s with
    | none => rw [e] at h; cases h
    | some o => cases o with
      | none => rw [e] at h; cases h
      | some _ => rfl
  | _ => cases h

theorem iriAct_none {t : Tok} (h : readIri m t = none) : ∃ w, iriAct m t = .bad w := by
  cases t with
  | iriRef s =>
    have h : (iriFromString s).map _ = none := h
    rw [iriAct]
    cases e : iriFromString s with
    | none => exact ⟨_, rfl⟩
    | some _ => rw [e] at h; cases h
  | pnameLn s =>
    rw [readIri] at h
    rw [iriAct]
    cases e : m.parseShortIri s with
    | none => exact ⟨_, rfl⟩
    | some o => cases o with
      | none => exact ⟨_, rfl⟩
      | some _ => rw [e] at h; cases h
  | _ => exact ⟨_, rfl⟩

theorem iriAct_cases (m : PMap) (t : Tok) : iriAct m t = .shift [] ∨ ∃ w, iriAct m t = .bad w := by
  cases h : readIri m t with
  | none => exact .inr (iriAct_none h)
  | some i => exact .inl (iriAct_some h)

theorem fol_iri {s : Sym} {t : Tok} (hs : symAct m s t = iriAct m t) (f : Iri → α) :
    Fol m 1 ((readIri m t).map fun i => (f i, ts)) [s] (t :: ts) := by
  cases hi : readIri m t with
  | none =>
    obtain ⟨w, hw⟩ := iriAct_none hi
    exact .bad (hs.trans hw) rfl
  | some i => exact .shift (hs.trans (iriAct_some hi)) (.nil _)

theorem literal_none (v : Str) : literal v .none = .lit v (.dt xsdString) := rfl

theorem literal_lang (v l : Str) : ∃ x y, literal v (.lang l) = .lit x y := by
  show ∃ x y, literalLang v l = .lit x y
  unfold literalLang
  split
  · exact ⟨_, _, rfl⟩
  · exact ⟨_, _, rfl⟩

theorem fol_lit (v : Str) : Fol m 0 (readLit m (.qstr v :: ts)) [.litTail v] ts := by
  cases ts with
  | nil =>
    refine ⟨fun x r e => ?_, nofun⟩
    obtain ⟨-, rfl⟩ := _root_.Prod.mk.inj (Option.some.inj e)
    exact ⟨by simp, fun a st ph hp => by rw [run_nil hp, run_nil hp]⟩
  | cons t ts =>
    by_cases h1 : t = .dcaret
    · subst h1
      refine Fol.mono (d := 1) (.shift (d := 0) (l' := [.dtIri v]) rfl ?_) (by omega)
      cases ts with
      | nil => exact .empty rfl
      | cons u ts =>
        cases hi : readIri m u with
        | none =>
          obtain ⟨w, hw⟩ := iriAct_none hi
          refine .bad (w := w) ?_ ?_
          · show (match readIri m u with | some i => _ | none => iriAct m u) = _
            rw [hi]; exact hw
          · show (readIri m u).bind _ = none
            rw [hi]; rfl
        | some i =>
          have e1 : symAct m (.dtIri v) u = match literal v (.dt i) with | .ub => .ub | .lit _ _ => .shift [] := by
            show (match readIri m u with | some i => _ | none => iriAct m u) = _
            rw [hi]
            rfl
          have e2 : readLit m (.qstr v :: .dcaret :: u :: ts) = match literal v (.dt i) with
              | .lit v t => some (.lit v t, ts)
              | .ub => none := by
            show (readIri m u).bind _ = _
            rw [hi]; rfl
          rw [e2]
          cases hl : literal v (.dt i) with
          | ub => rw [hl] at e1; exact .ub e1 rfl
          | lit x y => rw [hl] at e1; exact (Fol.shift (d := 0) e1 (.nil _)).mono (by omega)
    · by_cases h2 : ∃ l, t = .lang l
      · obtain ⟨l, rfl⟩ := h2
        obtain ⟨x, y, hl⟩ := literal_lang v l
        have e1 : symAct m (.litTail v) (.lang l) = .shift [] := by
          show (match literal v (.lang l) with | .ub => Act.ub | .lit _ _ => .shift []) = _
          rw [hl]
        have e2 : readLit m (.qstr v :: .lang l :: ts) = some (.lit x y, ts) := by
          show (match literal v (.lang l) with | .lit v t => some (Obj.lit v t, ts) | .ub => none) = _
          rw [hl]
        rw [e2]
        exact (Fol.shift (d := 0) e1 (.nil _)).mono (by omega)
      · have h2 : ∀ l, t ≠ .lang l := fun l e => h2 ⟨l, e⟩
        rw [readLit_tail h1 h2, literal_none]
        refine .skip (l := []) ?_ (.nil _)
        cases t <;> first | rfl | exact absurd rfl h1 | exact absurd rfl (h2 _)

/-! ## Nonterminals are not empty -/

theorem kwAct_cases (c : Cat) (k : Kw) : (∃ l, kwAct c k = .shift l) ∨ ∃ w, kwAct c k = .bad w := by
  unfold kwAct
  split
  · split
    · exact .inl ⟨_, rfl⟩
    · exact .inr ⟨_, rfl⟩
  · exact .inr ⟨_, rfl⟩

theorem expAct_cases (m : PMap) (c : Cat) (t : Tok) : (∃ l, expAct m c t = .shift l) ∨ ∃ w, expAct m c t = .bad w := by
  have := iriAct_cases m t
  cases t with
  | kw k => exact kwAct_cases c k
  | _ => exact this.imp (fun h => ⟨_, h⟩) id

theorem catAct_cases (m : PMap) (c : Cat) (t : Tok) : (∃ l, catAct m c t = .shift l) ∨ ∃ w, catAct m c t = .bad w := by
  have hi : (∃ l, iriAct m t = .shift l) ∨ ∃ w, iriAct m t = .bad w := (iriAct_cases m t).imp (fun h => ⟨_, h⟩) id
  cases c with
  | iri | ent _ => exact hi
  | ind => cases t <;> first | exact hi | exact .inl ⟨_, rfl⟩
  | lit => cases t <;> first | exact .inl ⟨_, rfl⟩ | exact .inr ⟨_, rfl⟩
  | ope => exact expAct_cases m _ t
  | dr => exact expAct_cases m _ t
  | ce => exact expAct_cases m _ t
  | facet =>
    show (∃ l, (iriAct m t).andThen _ = .shift l) ∨ ∃ w, (iriAct m t).andThen _ = .bad w
    rcases hi with ⟨l, h⟩ | ⟨w, h⟩ <;> rw [h]
    · exact .inl ⟨_, rfl⟩
    · exact .inr ⟨_, rfl⟩
  | annotVal => cases t <;> first | exact hi | exact .inl ⟨_, rfl⟩
  | annotSubj => cases t <;> first | exact hi | exact .inl ⟨_, rfl⟩
  | entity =>
    cases t with
    | kw k =>
      rw [catAct]
      split
      · exact .inl ⟨_, rfl⟩
      · exact .inr ⟨_, rfl⟩
    | _ => exact .inr ⟨_, rfl⟩
  | subOpe =>
    by_cases h : t = .kw .objectPropertyChain
    · subst h; exact .inl ⟨_, rfl⟩
    · have : catAct m .subOpe t = expAct m .ope t := by rw [catAct]; intro e; exact h e
      rw [this]
      exact expAct_cases m _ t
  | annotation =>
    cases t with
    | kw k => exact kwAct_cases _ k
    | _ => exact .inr ⟨_, rfl⟩
  | ax =>
    cases t with
    | kw k => exact kwAct_cases _ k
    | _ => exact .inr ⟨_, rfl⟩

/-- A symbol that begins with a nonterminal. -/
theorem Fol.unfold {s : Sym} {c : Cat} {l' : List Sym} {t : Tok} (hs : symAct m s t = (catAct m c t).andThen l')
    (h : Fol m d res (.cat c :: (l' ++ l)) (t :: ts)) : Fol m d res (s :: l) (t :: ts) := by
  have key : ∀ a st ph, run ⟨m, a, s :: l ++ st, ph⟩ (t :: ts) = run ⟨m, a, .cat c :: (l' ++ l) ++ st, ph⟩ (t :: ts) := by
    intro a st ph
    rcases catAct_cases m c t with ⟨k, hk⟩ | ⟨w, hw⟩
    · rw [hk] at hs
      rw [List.cons_append, List.cons_append, run_shift hs, run_shift (show symAct m (.cat c) t = _ from hk)]
      simp
    · rw [hw] at hs
      rw [List.cons_append, List.cons_append, run_bad hs, run_bad (show symAct m (.cat c) t = _ from hw)]
  exact ⟨fun x r e => ⟨(h.done x r e).1, fun a st ph hp => by rw [key]; exact (h.done x r e).2 a st ph hp⟩,
    fun e a st ph hp => by rw [key]; exact h.fails e a st ph hp⟩

theorem Fol.of_nil {d : Nat} (h : Fol m (d + 1) res l []) : res = Option.none := by
  cases e : res with
  | none => rfl
  | some y =>
    have := (h.done y.1 y.2 e).1
    simp at this

/-! ## Lists -/

/-- The end of a list of at least `k`. -/
def closeMany (k : Nat) (x : List Obj × List Tok) : Option (List Obj × List Tok) :=
  if x.1.length < k then none else
  match x.2 with
  | .rpar :: us => some (x.1, us)
  | _ => none

theorem fol_many {p : Parser} {c : Cat} : ∀ (n k : Nat) (ts : List Tok), ts.length < n →
    (∀ us : List Tok, us.length ≤ ts.length → Fol m 1 (p c us) [.cat c] us) →
    Fol m 1 ((parseMany p c n ts).bind (closeMany k)) [.many c k] ts
  | 0, k, ts, hn, hp => by omega
  | n + 1, k, ts, hn, hp => by
    by_cases hr : ts.head? = some .rpar
    · rw [parseMany_rpar hr]
      cases ts with
      | nil => cases hr
      | cons t us =>
        obtain rfl := Option.some.inj hr
        by_cases hk : k = 0
        · subst hk
          exact .shift (d := 0) (l' := []) rfl (.nil _)
        · refine .bad (w := .syntax) ?_ ?_
          · show (if Tok.rpar = .rpar then (if k = 0 then Act.shift [] else .bad .syntax) else (catAct m c .rpar).andThen [.many c (k - 1)]) = _
            rw [if_pos rfl, if_neg hk]
          · show closeMany k ([], .rpar :: us) = none
            unfold closeMany
            rw [if_pos (by show 0 < k; omega)]
    · rw [parseMany_other hr]
      cases ts with
      | nil =>
        have := (hp [] (by simp)).of_nil
        rw [this]
        exact .empty rfl
      | cons t us =>
        have ht : t ≠ .rpar := fun e => hr (by rw [e]; rfl)
        refine .unfold (c := c) (l' := [.many c (k - 1)]) ?_ ?_
        · show (if t = .rpar then _ else _) = _
          rw [if_neg ht]
        · have := Fol.bind (k := fun y => ((parseMany p c n y.2).bind (closeMany (k - 1))).map fun z => (y.1 :: z.1, z.2)) (hp (t :: us) (by omega))
            (fun x r e hl => (fol_many n (k - 1) r (by simp at hn hl; omega) (fun vs hv => hp vs (by omega))).map fun _ => rfl)
          refine Fol.mono (d := 1 + 1) ?_ (by omega)
          refine cast ?_ this
          show Fol m (1 + 1) _ [.cat c, .many c (k - 1)] (t :: us) = Fol m (1 + 1) _ [.cat c, .many c (k - 1)] (t :: us)
          congr 1
          cases p c (t :: us) with
          | none => rfl
          | some y =>
            show ((parseMany p c n y.2).bind (closeMany (k - 1))).map (fun z => (y.1 :: z.1, z.2)) =
              Option.bind ((parseMany p c n y.2).bind fun z => some (y.1 :: z.1, z.2)) (closeMany k)
            cases parseMany p c n y.2 with
            | none => rfl
            | some z =>
              show (closeMany (k - 1) z).map _ = closeMany k (y.1 :: z.1, z.2)
              unfold closeMany
              by_cases hk : z.1.length < k - 1
              · rw [if_pos hk, if_pos (by show z.1.length + 1 < k; omega)]; rfl
              · rw [if_neg hk, if_neg (by show ¬ z.1.length + 1 < k; omega)]
                dsimp only
                split <;> rfl

theorem fol_annots {p : Parser} : ∀ (n : Nat) (ts : List Tok), ts.length < n →
    (∀ us : List Tok, us.length ≤ ts.length → Fol m 1 (p .annotation us) [.cat .annotation] us) →
    Fol m 0 (parseAnnots p n ts) [.annots] ts
  | 0, ts, hn, hp => by omega
  | n + 1, ts, hn, hp => by
    by_cases hr : ts.head? = some (.kw .annotation)
    · rw [parseAnnots_one hr]
      cases ts with
      | nil => cases hr
      | cons t us =>
        obtain rfl := Option.some.inj hr
        refine .unfold (c := .annotation) (l' := [.annots]) rfl ?_
        have := Fol.bind (k := fun y => (parseAnnots p n y.2).bind fun z => some (y.1 :: z.1, z.2)) (hp (.kw .annotation :: us) (by omega))
          (fun x r e hl => Fol.bind (d' := 0) (l' := []) (fol_annots n r (by simp at hn hl; omega) (fun vs hv => hp vs (by omega)))
            fun y r' _ _ => Fol.nil _)
        exact this.mono (by omega)
    · rw [parseAnnots_other hr]
      cases ts with
      | nil =>
        refine ⟨fun x r e => ?_, nofun⟩
        obtain ⟨-, rfl⟩ := _root_.Prod.mk.inj (Option.some.inj e)
        exact ⟨by simp, fun a st ph hp => by rw [run_nil hp, run_nil hp]⟩
      | cons t us =>
        refine .skip (l := []) ?_ (.nil _)
        show (if t = .kw .annotation then _ else Act.skip) = .skip
        rw [if_neg fun e => hr (by rw [e]; rfl)]

/-! ## Constructs -/

/-- Lists and optional arguments are the last ones. -/
def lastOnly : List Arg → Bool
  | [] => true
  | .many _ _ :: as => as == []
  | .opt _ :: as => as == []
  | _ :: as => lastOnly as

theorem prod_lastOnly {k : Kw} {pr : Prod} (h : prod k = some pr) : lastOnly pr.args = true := by
  have : ∀ k, ((prod k).all fun pr => lastOnly pr.args) = true := by intro k; cases k <;> rfl
  have := this k
  rw [h] at this
  exact this

theorem build_some (t : OType) (b : Bool) (as : List Obj) (r : Parsed) : ∃ o, build t b as r = some o := by
  unfold build
  split <;> first | exact ⟨_, rfl⟩ | (split <;> exact ⟨_, rfl⟩)

theorem fol_args {p : Parser} {n : Nat} (N : Nat) (hN : N < n) (hp : ∀ c (us : List Tok), us.length ≤ N → Fol m 1 (p c us) [.cat c] us) :
    ∀ (as : List Arg) (f : Parsed → Option Obj), (∀ x, ∃ o, f x = some o) → lastOnly as = true → ∀ ts : List Tok, ts.length ≤ N →
      Fol m 1 ((parseArgs p n as ts).bind (closeWith f)) (argSyms as) ts := by
  intro as
  induction as with
  | nil =>
    intro f hf _ ts hl
    show Fol m 1 (closeWith f (⟨[], 0, none⟩, ts)) [.rpar] ts
    cases ts with
    | nil => exact .empty rfl
    | cons t us =>
      by_cases ht : t = .rpar
      · subst ht
        obtain ⟨o, ho⟩ := hf ⟨[], 0, none⟩
        have : closeWith f (⟨[], 0, none⟩, .rpar :: us) = some (o, us) := by
          show (f _).map _ = _
          rw [ho]; rfl
        rw [this]
        exact .shift (d := 0) (l' := []) rfl (.nil _)
      · refine .bad (w := .syntax) (if_neg ht) ?_
        unfold closeWith
        split
        · rename_i h; exact absurd (List.cons.inj h).1 ht
        · rfl
  | cons a as ih =>
    intro f hf hlast ts hl
    cases a with
    | one c =>
      have key : (parseArgs p n (.one c :: as) ts).bind (closeWith f) =
          (p c ts).bind fun y => (parseArgs p n as y.2).bind (closeWith fun r => f { r with fields := y.1 :: r.fields }) := by
        show ((p c ts).bind fun y => (parseArgs p n as y.2).bind fun z => some _).bind (closeWith f) = _
        cases p c ts with
        | none => rfl
        | some y =>
          show ((parseArgs p n as y.2).bind fun z => some _).bind (closeWith f) = (parseArgs p n as y.2).bind (closeWith _)
          cases parseArgs p n as y.2 with
          | none => rfl
          | some z => rfl
      rw [key]
      refine Fol.mono (d := 1 + 1) (l := .cat c :: argSyms as) ?_ (by omega)
      exact Fol.bind (l := [.cat c]) (hp c ts hl) fun x r _ hr => ih _ (fun _ => hf _) hlast r (by omega)
    | many c k =>
      obtain rfl : as = [] := by simpa [lastOnly] using hlast
      have := (fol_many n k ts (by omega) fun us hu => hp c us (by omega)).bind (d' := 0) (l' := [])
        (k := fun y => (f ⟨[.vec false y.1], 0, none⟩).map fun o => (o, y.2)) fun x r _ _ => by
          obtain ⟨o, ho⟩ := hf ⟨[.vec false x], 0, none⟩
          dsimp only
          rw [ho]
          exact .nil _
      refine cast ?_ this
      show Fol m 1 _ [.many c k] ts = Fol m 1 _ [.many c k] ts
      congr 1
      rw [parseArgs_many]
      cases parseMany p c n ts with
      | none => rfl
      | some y =>
        show (closeMany k y).bind _ = _
        unfold closeMany
        by_cases hk : y.1.length < k
        · rw [if_pos hk]
          show none = Option.bind (if y.1.length < k then none else _) _
          rw [if_pos hk]; rfl
        · rw [if_neg hk]
          show _ = Option.bind (if y.1.length < k then none else _) _
          rw [if_neg hk]
          show _ = closeWith f (⟨[.vec false y.1], 0, none⟩, y.2)
          obtain ⟨xs, us⟩ := y
          cases us with
          | nil => rfl
          | cons u us => cases u <;> rfl
    | opt c =>
      obtain rfl : as = [] := by simpa [lastOnly] using hlast
      by_cases hr : ts.head? = some .rpar
      · rw [parseArgs_optNone hr]
        cases ts with
        | nil => cases hr
        | cons t us =>
          obtain rfl := Option.some.inj hr
          obtain ⟨o, ho⟩ := hf ⟨[], 0, none⟩
          have : (parseArgs p n [] (.rpar :: us)).bind (closeWith f) = some (o, us) := by
            show (f _).map _ = _
            rw [ho]; rfl
          rw [this]
          exact .shift (d := 0) (l' := []) rfl (.nil _)
      · rw [parseArgs_optSome hr]
        cases ts with
        | nil =>
          have := (hp c [] (by simp)).of_nil
          rw [this]
          exact .empty rfl
        | cons t us =>
          have ht : t ≠ .rpar := fun e => hr (by rw [e]; rfl)
          refine .unfold (c := c) (l' := [.rpar]) ?_ ?_
          · show (if t = .rpar then _ else _) = _
            rw [if_neg ht]
          · have key : ((p c (t :: us)).bind fun x => (parseArgs p n [] x.2).bind fun y => some ({ y.1 with opt := some x.1 }, y.2)).bind (closeWith f) =
                (p c (t :: us)).bind fun y => (parseArgs p n [] y.2).bind (closeWith fun r => f { r with opt := some y.1 }) := by
              cases p c (t :: us) with
              | none => rfl
              | some y => rfl
            refine Fol.mono (d := 1 + 1) ?_ (by omega)
            refine cast ?_ (Fol.bind (l := [.cat c]) (d' := 1) (l' := [.rpar])
              (k := fun y => (parseArgs p n [] y.2).bind (closeWith fun r => f { r with opt := some y.1 })) (hp c (t :: us) hl) fun x r _ hr => ih (fun r => f { r with opt := some x }) (fun _ => hf _) rfl r (by omega))
            rw [← key]
            rfl
    | group c =>
      cases ts with
      | nil => exact .empty rfl
      | cons t us =>
        by_cases ht : t = .lpar
        · subst ht
          rw [parseArgs_group]
          have h1 := (fol_many n 0 us (by simp at hl; omega) fun vs hv => hp c vs (by simp at hl; omega)).bind (d' := 1) (l' := argSyms as)
            (k := fun y => (parseArgs p n as y.2).bind (closeWith fun r => f { r with fields := .vec false y.1 :: r.fields }))
            fun x r _ hr => ih _ (fun _ => hf _) hlast r (by simp at hl; omega)
          refine Fol.mono (d := 1 + 1 + 1) (.shift (l' := []) (d := 1 + 1) (l := .many c 0 :: argSyms as) rfl ?_) (by omega)
          refine cast ?_ h1
          show Fol m (1 + 1) _ (.many c 0 :: argSyms as) us = Fol m (1 + 1) _ (.many c 0 :: argSyms as) us
          congr 1
          cases parseMany p c n us with
          | none => rfl
          | some y =>
            show (closeMany 0 y).bind _ = (closeGroup p n as y).bind (closeWith f)
            unfold closeMany closeGroup
            rw [if_neg (by omega)]
            obtain ⟨xs, us⟩ := y
            cases us with
            | nil => rfl
            | cons u vs =>
              cases u <;> try rfl
              show (parseArgs p n as vs).bind (closeWith _) = ((parseArgs p n as vs).bind fun z => some _).bind _
              cases parseArgs p n as vs with
              | none => rfl
              | some z => rfl
        · refine .bad (w := .syntax) (if_neg ht) ?_
          cases t <;> first | rfl | exact absurd rfl ht
    | card =>
      cases ts with
      | nil => exact .empty rfl
      | cons t us =>
        by_cases ht : ∃ u, t = .nat u
        · obtain ⟨u, rfl⟩ := ht
          refine Fol.mono (d := 1 + 1) (.shift (l' := []) (d := 1) (l := argSyms as) rfl ?_) (by omega)
          refine cast ?_ (ih (fun r => f { r with uint := u.toNat }) (fun _ => hf _) hlast us (by simp at hl; omega))
          show Fol m 1 _ (argSyms as) us = Fol m 1 _ (argSyms as) us
          congr 1
          show _ = ((parseArgs p n as us).bind fun z => some _).bind (closeWith f)
          cases parseArgs p n as us with
          | none => rfl
          | some z => rfl
        · refine .bad (w := .syntax) ?_ ?_
          · cases t <;> first | rfl | exact absurd ⟨_, rfl⟩ ht
          · cases t <;> first | rfl | exact absurd ⟨_, rfl⟩ ht

theorem fol_construct {p : Parser} {n : Nat} {s : Sym} {c : Cat} {k : Kw} (hs : symAct m s (.kw k) = kwAct c k)
    (hp : ∀ c (us : List Tok), us.length + 1 < n → Fol m 1 (p c us) [.cat c] us) (h0 : ts.length < n) :
    Fol m 1 (parseConstruct p n c (.kw k :: ts)) [s] (.kw k :: ts) := by
  cases hk : prod k with
  | none =>
    refine .bad (w := .syntax) ?_ ?_
    · rw [hs, kwAct, hk]
    · unfold parseConstruct
      split
      · rename_i h; obtain ⟨h1, -⟩ := List.cons.inj h; cases h1; rw [hk]
      · rfl
  | some pr =>
    by_cases hc : pr.cat = c
    · have hs : symAct m s (.kw k) = .shift (.lpar :: ((if pr.annotated then [.annots] else []) ++ argSyms pr.args)) := by
        rw [hs, kwAct, hk]; exact if_pos hc
      refine Fol.mono (d := 0 + 1) (.shift hs ?_) (by omega)
      cases ts with
      | nil => exact .empty rfl
      | cons t us =>
        by_cases ht : t = .lpar
        · subst ht
          rw [parseConstruct_eq hk, if_pos hc]
          refine Fol.mono (d := 0 + 1) (.shift (l' := []) rfl ?_) (by omega)
          show Fol m 0 _ ((_ ++ argSyms pr.args) ++ []) us
          rw [List.append_nil]
          simp only [List.length_cons] at h0
          refine Fol.mono (d := 0 + 1) (.bind (d := 0) (l := if pr.annotated then [.annots] else []) ?_ fun x r _ hr => ?_) (by omega)
          · cases pr.annotated with
            | false => exact .nil _
            | true => exact fol_annots n us (by omega) fun vs hv => hp _ vs (by omega)
          · exact fol_args (us.length) (by omega) (fun c vs hv => hp c vs (by omega)) _ _ (fun _ => build_some ..) (prod_lastOnly hk) r (by omega)
        · refine .bad (w := .syntax) (if_neg ht) ?_
          unfold parseConstruct
          split
          · rename_i h; obtain ⟨-, h1⟩ := List.cons.inj h; exact absurd (List.cons.inj h1).1 ht
          · rfl
    · refine .bad (w := .syntax) ?_ ?_
      · rw [hs, kwAct, hk]; exact if_neg hc
      · unfold parseConstruct
        split
        · rename_i h; obtain ⟨h1, -⟩ := List.cons.inj h; cases h1; rw [hk]; exact if_neg hc
        · rfl

/-! ## Nonterminals -/

theorem fol_exp {p : Parser} {n : Nat} {s : Sym} {c : Cat} {k : EntKind} (hs : ∀ t, symAct m s t = expAct m c t) (h0 : ts.length < n + 1)
    (hp : ∀ c (us : List Tok), us.length + 1 < n → Fol m 1 (p c us) [.cat c] us) :
    Fol m 1 (parseExp m p n c k ts) [s] ts := by
  cases ts with
  | nil => exact .empty rfl
  | cons t us =>
    by_cases hw : ∃ w, t = .kw w
    · obtain ⟨w, rfl⟩ := hw
      simp only [List.length_cons] at h0
      exact fol_construct (hs _) hp (by omega)
    · have hw : ∀ w, t ≠ .kw w := fun w e => hw ⟨w, e⟩
      rw [parseExp_other hw]
      refine fol_iri ((hs t).trans ?_) _
      cases t <;> first | rfl | exact absurd rfl (hw _)

theorem fol_anonOr {s : Sym} {f : Iri → Obj} (hb : ∀ x, symAct m s (.blank x) = .shift []) (hs : ∀ t, (∀ x, t ≠ .blank x) → symAct m s t = iriAct m t)
    (t : Tok) : Fol m 1 (readAnonOr m f (t :: ts)) [s] (t :: ts) := by
  by_cases hx : ∃ x, t = .blank x
  · obtain ⟨x, rfl⟩ := hx
    exact .shift (d := 0) (hb x) (.nil _)
  · have hx : ∀ x, t ≠ .blank x := fun x e => hx ⟨x, e⟩
    rw [readAnonOr_cons hx]
    exact fol_iri (hs t hx) _

/-- Nonterminals that are parsed at the next level of nesting. -/
def need : Cat → Nat
  | .subOpe => 1
  | _ => 0

theorem need_le (c : Cat) : need c ≤ 1 := by cases c <;> simp [need]

theorem step_entity_none {p : Parser} {n : Nat} (h : ¬ ∃ k t us, ts = .kw k :: .lpar :: t :: .rpar :: us) : parseStep m p n .entity ts = none := by
  cases e : parseStep m p n .entity ts with
  | none => rfl
  | some y => exact absurd (step_entity e) h

theorem fol_cat (m : PMap) : ∀ (n : Nat) (c : Cat) (ts : List Tok), ts.length + need c < n → Fol m 1 (parseCat m n c ts) [.cat c] ts
  | 0, _, _, h => by omega
  | n + 1, c, ts, h => by
    have hp : ∀ c (us : List Tok), us.length + 1 < n → Fol m 1 (parseCat m n c us) [.cat c] us := fun c us hu =>
      fol_cat m n c us (by have := need_le c; omega)
    show Fol m 1 (parseStep m (parseCat m n) n c ts) [.cat c] ts
    have h0 : ts.length < n + 1 := by omega
    cases c with
    | iri | ent k =>
      cases ts with
      | nil => exact .empty rfl
      | cons t us => exact fol_iri rfl _
    | ind =>
      cases ts with
      | nil => exact .empty rfl
      | cons t us => exact fol_anonOr (fun _ => rfl) (fun t ht => by cases t <;> first | rfl | exact absurd rfl (ht _)) t
    | annotSubj =>
      cases ts with
      | nil => exact .empty rfl
      | cons t us => exact fol_anonOr (fun _ => rfl) (fun t ht => by cases t <;> first | rfl | exact absurd rfl (ht _)) t
    | lit =>
      cases ts with
      | nil => exact .empty rfl
      | cons t us =>
        by_cases hq : ∃ v, t = .qstr v
        · obtain ⟨v, rfl⟩ := hq
          exact .shift (d := 0) (l' := [.litTail v]) rfl (fol_lit v)
        · exact .bad (w := .syntax) (by cases t <;> first | rfl | exact absurd ⟨_, rfl⟩ hq) (by cases t <;> first | rfl | exact absurd ⟨_, rfl⟩ hq)
    | ope => exact fol_exp (fun _ => rfl) h0 hp
    | dr => exact fol_exp (fun _ => rfl) h0 hp
    | ce => exact fol_exp (fun _ => rfl) h0 hp
    | facet =>
      cases ts with
      | nil => exact .empty rfl
      | cons t us =>
        show Fol m 1 ((readIri m t).bind fun i => (readLit m us).bind fun y => some (getImpl .facetRestr [.prim (.iri i), y.1] none, y.2)) _ _
        cases hi : readIri m t with
        | none =>
          obtain ⟨w, hw⟩ := iriAct_none hi
          refine .bad (w := w) ?_ rfl
          show (iriAct m t).andThen _ = _
          rw [hw]; rfl
        | some i =>
          have hs : symAct m (.cat .facet) t = .shift [.cat .lit] := by
            show (iriAct m t).andThen _ = _
            rw [iriAct_some hi]; rfl
          refine .shift (d := 0) hs ?_
          have : Fol m 0 (readLit m us) [.cat .lit] us := by
            cases us with
            | nil => exact .empty rfl
            | cons u us =>
              by_cases hq : ∃ v, u = .qstr v
              · obtain ⟨v, rfl⟩ := hq
                exact (Fol.shift (d := 0) (l' := [.litTail v]) rfl (fol_lit v)).mono (by omega)
              · exact .bad (w := .syntax) (by cases u <;> first | rfl | exact absurd ⟨_, rfl⟩ hq) (by cases u <;> first | rfl | exact absurd ⟨_, rfl⟩ hq)
          exact this.bind (l' := []) (d' := 0) fun x r _ _ => .nil _
    | annotVal =>
      cases ts with
      | nil => exact .empty rfl
      | cons t us =>
        by_cases hq : ∃ v, t = .qstr v
        · obtain ⟨v, rfl⟩ := hq
          exact .shift (d := 0) (l' := [.litTail v]) rfl (fol_lit v)
        · rw [step_annotVal (by rintro ⟨v, us, e⟩; exact hq ⟨v, (List.cons.inj e).1⟩)]
          by_cases hb : ∃ x, t = .blank x
          · obtain ⟨x, rfl⟩ := hb
            exact .shift (d := 0) (l' := []) rfl (.nil _)
          · rw [readAnonOr_cons fun x e => hb ⟨x, e⟩]
            refine fol_iri ?_ _
            cases t <;> first | rfl | exact absurd ⟨_, rfl⟩ hq | exact absurd ⟨_, rfl⟩ hb
    | entity =>
      cases ts with
      | nil => exact .empty rfl
      | cons t us =>
        by_cases hk : ∃ k e, t = .kw k ∧ entKw k = some e
        · obtain ⟨k, e, rfl, hk⟩ := hk
          have hs : symAct m (.cat .entity) (.kw k) = .shift [.lpar, .cat .iri, .rpar] := by
            show (if (entKw k).isSome then _ else _) = _
            rw [hk]; rfl
          refine .shift (d := 0) hs ?_
          show Fol m 0 _ [.lpar, .cat .iri, .rpar] us
          cases us with
          | nil => exact .empty (step_entity_none (by simp))
          | cons t1 us =>
            by_cases h1 : t1 = .lpar
            · subst h1
              refine Fol.mono (d := 0 + 1) (.shift (l' := []) rfl ?_) (by omega)
              cases us with
              | nil => exact .empty (step_entity_none (by simp))
              | cons t2 us =>
                cases hi : readIri m t2 with
                | none =>
                  obtain ⟨w, hw⟩ := iriAct_none hi
                  refine .bad (w := w) hw ?_
                  by_cases hx : ∃ vs, us = .rpar :: vs
                  · obtain ⟨vs, rfl⟩ := hx
                    show (entKw k).bind (fun e => (readIri m t2).bind fun i => _) = none
                    rw [hk, hi]; rfl
                  · exact step_entity_none (by rintro ⟨k', t', us', e'⟩; simp at e'; exact hx ⟨us', e'.2.2⟩)
                | some i =>
                  refine Fol.mono (d := 0 + 1) (.shift (l' := []) (iriAct_some hi) ?_) (by omega)
                  cases us with
                  | nil => exact .empty (step_entity_none (by simp))
                  | cons t3 us =>
                    by_cases h3 : t3 = .rpar
                    · subst h3
                      refine Fol.mono (d := 0 + 1) (.shift (l' := []) rfl ?_) (by omega)
                      have : parseStep m (parseCat m n) n .entity (.kw k :: .lpar :: t2 :: .rpar :: us) = some (.prim (.ent e i), us) := by
                        show (entKw k).bind (fun e => (readIri m t2).bind fun i => _) = _
                        rw [hk, hi]; rfl
                      rw [this]
                      exact .nil _
                    · exact .bad (w := .syntax) (if_neg h3) (step_entity_none (by rintro ⟨k', t', us', e'⟩; simp at e'; exact h3 e'.2.2.1))
            · exact .bad (w := .syntax) (if_neg h1) (step_entity_none (by rintro ⟨k', t', us', e'⟩; simp at e'; exact h1 e'.2.1))
        · refine .bad (w := .syntax) ?_ ?_
          · cases t with
            | kw k =>
              show (if (entKw k).isSome then _ else _) = _
              cases he : entKw k with
              | none => rfl
              | some e => exact absurd ⟨k, e, rfl, he⟩ hk
            | _ => rfl
          · by_cases hx : ∃ k t2 vs, t :: us = .kw k :: .lpar :: t2 :: .rpar :: vs
            · obtain ⟨k, t2, vs, e⟩ := hx
              rw [e]
              obtain ⟨rfl, -⟩ := List.cons.inj e
              show (entKw k).bind (fun e => (readIri m t2).bind fun i => _) = none
              cases he : entKw k with
              | none => rfl
              | some e => exact absurd ⟨k, e, rfl, he⟩ hk
            · exact step_entity_none hx
    | subOpe =>
      cases ts with
      | nil =>
        rw [step_subOpe (by simp)]
        simp only [need] at h
        exact .empty (fol_cat m n .ope [] (by simpa [need] using h)).of_nil
      | cons t us =>
        by_cases ht : t = .kw .objectPropertyChain
        · subst ht
          refine .shift (d := 0) (l' := [.lpar, .many .ope 2]) rfl ?_
          have no : ∀ {vs : List Tok}, parseCat m n .ope (.kw .objectPropertyChain :: vs) = none := by
            intro vs
            cases n with
            | zero => rfl
            | succ n =>
              show parseConstruct _ _ _ _ = none
              cases e : parseConstruct (parseCat m n) n .ope (.kw .objectPropertyChain :: vs) with
              | none => rfl
              | some y =>
                obtain ⟨k, us, pr, e', hk⟩ := construct_head e
                obtain ⟨e1, -⟩ := List.cons.inj e'
                cases e1
                cases hk
          cases us with
          | nil => exact .empty ((step_subOpe (by simp)).trans no)
          | cons t1 us =>
            by_cases h1 : t1 = .lpar
            · subst h1
              rw [step_chain]
              refine Fol.mono (d := 1 + 1) (.shift (l' := []) (l := [.many .ope 2]) rfl ?_) (by omega)
              simp only [List.length_cons, need] at h
              have := (fol_many (p := parseCat m n) (c := .ope) n 2 us (by omega) fun vs hv => hp .ope vs (by omega)).map (f := fun y => (Obj.vec true y.1, y.2)) (fun _ => rfl)
              refine cast ?_ this
              show Fol m 1 _ [.many .ope 2] us = Fol m 1 _ [.many .ope 2] us
              congr 1
              cases parseMany (parseCat m n) .ope n us with
              | none => rfl
              | some y =>
                show (closeMany 2 y).map _ = closeChain y
                unfold closeMany closeChain
                obtain ⟨xs, us⟩ := y
                split
                · rfl
                · cases us with
                  | nil => rfl
                  | cons u us => cases u <;> rfl
            · exact .bad (w := .syntax) (if_neg h1) ((step_subOpe (by rintro ⟨vs, e⟩; simp at e; exact h1 e.1)).trans no)
        · rw [step_subOpe (by rintro ⟨vs, e⟩; exact ht (List.cons.inj e).1)]
          have hi := fol_cat m n .ope (t :: us) (by simpa [need] using h)
          have hs : symAct m (.cat .subOpe) t = (catAct m .ope t).andThen [] := by
            show catAct m .subOpe t = (expAct m .ope t).andThen []
            have : catAct m .subOpe t = expAct m .ope t := by rw [catAct]; intro e; exact ht e
            rw [this]
            cases expAct m .ope t with
            | shift k => simp [Act.andThen]
            | _ => rfl
          exact .unfold hs hi
    | annotation | ax =>
      cases ts with
      | nil => exact .empty rfl
      | cons t us =>
        by_cases hw : ∃ w, t = .kw w
        · obtain ⟨w, rfl⟩ := hw
          simp only [List.length_cons] at h0
          exact fol_construct rfl hp (by omega)
        · refine .bad (w := .syntax) ?_ ?_
          · cases t <;> first | rfl | exact absurd ⟨_, rfl⟩ hw
          · cases t <;> first | rfl | exact absurd ⟨_, rfl⟩ hw

end Cowl.Func
