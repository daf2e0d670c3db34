import Verif.FuncCutLex
import Verif.FuncDoc
import Verif.FuncRtLemmas
/-! # Lemmas: what the parser makes of a text depends on what it has read, and the next token -/
namespace Cowl.Func
open Prefix

/-- No token that the grammar does not know. -/
def NoChar (q : List Tok) : Prop := ∀ c, Tok.char c ∉ q

theorem NoChar.nil : NoChar [] := fun _ => by simp

theorem NoChar.append {a b : List Tok} (ha : NoChar a) (hb : NoChar b) : NoChar (a ++ b) := fun c h =>
  (List.mem_append.1 h).elim (ha c) (hb c)

theorem NoChar.cons {t : Tok} {b : List Tok} (ht : ∀ c, t ≠ .char c) (hb : NoChar b) : NoChar (t :: b) := fun c h =>
  (List.mem_cons.1 h).elim (fun e => ht c e.symm) (hb c)

/-- A function reads a part of the tokens, none of them unknown; another one does the same for any
tokens that begin in this way, and go on with the same token. -/
def Reads {α : Type} (f' : List Tok → Option (α × List Tok)) (ts : List Tok) (a : α) (r : List Tok) : Prop :=
  ∃ q, ts = q ++ r ∧ NoChar q ∧ ∀ r', r'.head? = r.head? → f' (q ++ r') = some (a, r')

/-- As `Reads`, and there is at least one token. -/
def Reads1 {α : Type} (f' : List Tok → Option (α × List Tok)) (ts : List Tok) (a : α) (r : List Tok) : Prop :=
  ∃ q, q ≠ [] ∧ ts = q ++ r ∧ NoChar q ∧ ∀ r', r'.head? = r.head? → f' (q ++ r') = some (a, r')

theorem Reads1.weak {α : Type} {f' : List Tok → Option (α × List Tok)} {ts : List Tok} {a : α} {r : List Tok} (h : Reads1 f' ts a r) :
    Reads f' ts a r := by
  obtain ⟨q, -, h⟩ := h
  exact ⟨q, h⟩

/-- Two parsers. -/
def Ext (p p' : Parser) : Prop := ∀ c ts o r, p c ts = some (o, r) → Reads1 (p' c) ts o r

theorem head_app {q r r' : List Tok} (h : r'.head? = r.head?) : (q ++ r').head? = (q ++ r).head? := by
  cases q with
  | nil => exact h
  | cons _ _ => rfl

theorem readIri_char {m : PMap} {t : Tok} {i : Iri} (h : readIri m t = some i) : ∀ c, t ≠ .char c := by
  rintro c rfl
  cases h

/-! ## Leaves -/

theorem reads_iri {m : PMap} {t : Tok} {ts : List Tok} {i : Iri} (h : readIri m t = some i) {β : Type} {f' : List Tok → Option (β × List Tok)}
    {b : β} (hf : ∀ r', f' (t :: r') = some (b, r')) : Reads1 f' (t :: ts) b ts :=
  ⟨[t], nofun, rfl, .cons (readIri_char h) .nil, fun r' _ => hf r'⟩

theorem readLit_tail {m : PMap} {v : Str} {t : Tok} {ts : List Tok} (h1 : t ≠ .dcaret) (h2 : ∀ l, t ≠ .lang l) :
    readLit m (.qstr v :: t :: ts) = match literal v .none with
      | .lit v d => some (.lit v d, t :: ts)
      | .ub => none := by
  rw [readLit]
  · cases literal v .none <;> rfl
  all_goals (intros; simp_all)

theorem reads_lit {m : PMap} {ts : List Tok} {o : Obj} {r : List Tok} (h : readLit m ts = some (o, r)) : Reads1 (readLit m) ts o r := by
  match ts, h with
  | [], h => cases h
  | [.qstr v], h =>
    have h' : (match literal v .none with
      | .lit v d => some (Obj.lit v d, ([] : List Tok))
      | .ub => none) = some (o, r) := h
    cases hl : literal v .none with
    | lit w d =>
      rw [hl] at h'
      obtain ⟨rfl, rfl⟩ := _root_.Prod.mk.inj (Option.some.inj h')
      refine ⟨[.qstr v], nofun, rfl, .cons (by nofun) .nil, fun r' hr' => ?_⟩
      obtain rfl := List.head?_eq_none_iff.1 hr'
      exact h
    | ub => rw [hl] at h'; cases h'
  | .qstr v :: t :: ts, h =>
    by_cases h1 : t = .dcaret
    · subst h1
      cases ts with
      | nil => cases h
      | cons u ts =>
        have h' : (readIri m u).bind (fun i => match literal v (.dt i) with
          | .lit v t => some (Obj.lit v t, ts)
          | .ub => none) = some (o, r) := h
        cases hi : readIri m u with
        | none => rw [hi] at h'; cases h'
        | some i =>
          rw [hi] at h'
          have h' : (match literal v (.dt i) with
            | .lit v t => some (Obj.lit v t, ts)
            | .ub => none) = some (o, r) := h'
          cases hl : literal v (.dt i) with
          | lit w d =>
            rw [hl] at h'
            obtain ⟨rfl, rfl⟩ := _root_.Prod.mk.inj (Option.some.inj h')
            refine ⟨[.qstr v, .dcaret, u], nofun, rfl, .cons (by nofun) (.cons (by nofun) (.cons (readIri_char hi) .nil)), fun r' _ => ?_⟩
            show (readIri m u).bind (fun i => match literal v (.dt i) with
              | .lit v t => some (Obj.lit v t, r')
              | .ub => none) = _
            rw [hi]
            show (match literal v (.dt i) with
              | .lit v t => some (Obj.lit v t, r')
              | .ub => none) = _
            rw [hl]
          | ub => rw [hl] at h'; cases h'
    · by_cases h2 : ∃ l, t = .lang l
      · obtain ⟨l, rfl⟩ := h2
        have h' : (match literal v (.lang l) with
          | .lit v t => some (Obj.lit v t, ts)
          | .ub => none) = some (o, r) := h
        cases hl : literal v (.lang l) with
        | lit w d =>
          rw [hl] at h'
          obtain ⟨rfl, rfl⟩ := _root_.Prod.mk.inj (Option.some.inj h')
          refine ⟨[.qstr v, .lang l], nofun, rfl, .cons (by nofun) (.cons (by nofun) .nil), fun r' _ => ?_⟩
          show (match literal v (.lang l) with
            | .lit v t => some (Obj.lit v t, r')
            | .ub => none) = _
          rw [hl]
        | ub => rw [hl] at h'; cases h'
      · have h2 : ∀ l, t ≠ .lang l := fun l e => h2 ⟨l, e⟩
        rw [readLit_tail h1 h2] at h
        cases hl : literal v .none with
        | lit w d =>
          rw [hl] at h
          obtain ⟨rfl, rfl⟩ := _root_.Prod.mk.inj (Option.some.inj h)
          refine ⟨[.qstr v], nofun, rfl, .cons (by nofun) .nil, fun r' hr' => ?_⟩
          cases r' with
          | nil => cases hr'
          | cons t' r' =>
            obtain rfl := Option.some.inj hr'
            show readLit m (.qstr v :: t' :: r') = _
            rw [readLit_tail h1 h2, hl]
        | ub => rw [hl] at h; cases h
  | .kw _ :: _, h | .nat _ :: _, h | .iriRef _ :: _, h | .pnameNs _ :: _, h | .pnameLn _ :: _, h | .blank _ :: _, h
  | .lang _ :: _, h | .dcaret :: _, h | .lpar :: _, h | .rpar :: _, h | .equals :: _, h | .char _ :: _, h => cases h

theorem readAnonOr_cons {m : PMap} {f : Iri → Obj} {t : Tok} {ts : List Tok} (h : ∀ s, t ≠ .blank s) :
    readAnonOr m f (t :: ts) = (readIri m t).map fun i => (f i, ts) := by
  cases t <;> first | rfl | exact absurd rfl (h _)

theorem reads_anonOr {m : PMap} {f : Iri → Obj} {ts : List Tok} {o : Obj} {r : List Tok} (h : readAnonOr m f ts = some (o, r)) :
    Reads1 (readAnonOr m f) ts o r := by
  cases ts with
  | nil => cases h
  | cons t ts =>
    by_cases hb : ∃ s, t = .blank s
    · obtain ⟨s, rfl⟩ := hb
      obtain ⟨rfl, rfl⟩ := _root_.Prod.mk.inj (Option.some.inj h)
      exact ⟨[.blank s], nofun, rfl, .cons (by nofun) .nil, fun _ _ => rfl⟩
    · have hb : ∀ s, t ≠ .blank s := fun s e => hb ⟨s, e⟩
      rw [readAnonOr_cons hb] at h
      cases hi : readIri m t with
      | none => rw [hi] at h; cases h
      | some i =>
        rw [hi] at h
        obtain ⟨rfl, rfl⟩ := _root_.Prod.mk.inj (Option.some.inj h)
        exact reads_iri hi fun r' => by rw [readAnonOr_cons hb, hi]; rfl

/-! ## Lists -/

theorem parseMany_other {p : Parser} {c : Cat} {n : Nat} {ts : List Tok} (h : ts.head? ≠ some .rpar) :
    parseMany p c (n + 1) ts = (p c ts).bind fun x => (parseMany p c n x.2).bind fun y => some (x.1 :: y.1, y.2) := by
  rw [parseMany]
  · rfl
  · rintro us rfl
    exact h rfl

theorem parseMany_rpar {p : Parser} {c : Cat} {n : Nat} {ts : List Tok} (h : ts.head? = some .rpar) :
    parseMany p c (n + 1) ts = some ([], ts) := by
  cases ts with
  | nil => cases h
  | cons t ts => obtain rfl := Option.some.inj h; rfl

theorem bind_pair {α β γ : Type} {x : Option (α × β)} {f : α × β → Option γ} {y : γ} (h : x.bind f = some y) :
    ∃ a b, x = some (a, b) ∧ f (a, b) = some y := by
  cases x with
  | none => cases h
  | some x => exact ⟨x.1, x.2, rfl, h⟩

theorem reads_many {p p' : Parser} (hp : Ext p p') (c : Cat) : ∀ (n n' : Nat), n ≤ n' → ∀ {ts : List Tok} {xs : List Obj} {r : List Tok},
    parseMany p c n ts = some (xs, r) → Reads (parseMany p' c n') ts xs r
  | 0, _, _, _, _, _, h => by cases h
  | n + 1, 0, hn, _, _, _, _ => by omega
  | n + 1, n' + 1, hn, ts, xs, r, h => by
    by_cases hr : ts.head? = some .rpar
    · rw [parseMany_rpar hr] at h
      obtain ⟨rfl, rfl⟩ := _root_.Prod.mk.inj (Option.some.inj h)
      exact ⟨[], rfl, .nil, fun r' hr' => parseMany_rpar (hr'.trans hr)⟩
    · rw [parseMany_other hr] at h
      obtain ⟨x, ts1, h1, h⟩ := bind_pair h
      obtain ⟨ys, ts2, h2, h⟩ := bind_pair h
      obtain ⟨rfl, rfl⟩ := _root_.Prod.mk.inj (Option.some.inj h)
      obtain ⟨q1, -, rfl, c1, g1⟩ := hp c _ _ _ h1
      obtain ⟨q2, rfl, c2, g2⟩ := reads_many hp c n n' (by omega) h2
      refine ⟨q1 ++ q2, by rw [List.append_assoc], c1.append c2, fun r' hr' => ?_⟩
      rw [List.append_assoc]
      have hne : (q1 ++ (q2 ++ r')).head? ≠ some .rpar := by
        rw [head_app (head_app hr')]; exact hr
      rw [parseMany_other hne, g1 _ (head_app hr')]
      show (parseMany p' c n' (q2 ++ r')).bind _ = _
      rw [g2 r' hr']
      rfl

theorem parseAnnots_other {p : Parser} {n : Nat} {ts : List Tok} (h : ts.head? ≠ some (.kw .annotation)) :
    parseAnnots p (n + 1) ts = some ([], ts) := by
  rw [parseAnnots]
  rintro us rfl
  exact h rfl

theorem parseAnnots_one {p : Parser} {n : Nat} {ts : List Tok} (h : ts.head? = some (.kw .annotation)) :
    parseAnnots p (n + 1) ts = (p .annotation ts).bind fun x => (parseAnnots p n x.2).bind fun y => some (x.1 :: y.1, y.2) := by
  cases ts with
  | nil => cases h
  | cons t ts => obtain rfl := Option.some.inj h; rfl

theorem reads_annots {p p' : Parser} (hp : Ext p p') : ∀ (n n' : Nat), n ≤ n' → ∀ {ts : List Tok} {xs : List Obj} {r : List Tok},
    parseAnnots p n ts = some (xs, r) → Reads (parseAnnots p' n') ts xs r
  | 0, _, _, _, _, _, h => by cases h
  | n + 1, 0, hn, _, _, _, _ => by omega
  | n + 1, n' + 1, hn, ts, xs, r, h => by
    by_cases hr : ts.head? = some (.kw .annotation)
    · rw [parseAnnots_one hr] at h
      obtain ⟨x, ts1, h1, h⟩ := bind_pair h
      obtain ⟨ys, ts2, h2, h⟩ := bind_pair h
      obtain ⟨rfl, rfl⟩ := _root_.Prod.mk.inj (Option.some.inj h)
      obtain ⟨q1, -, rfl, c1, g1⟩ := hp .annotation _ _ _ h1
      obtain ⟨q2, rfl, c2, g2⟩ := reads_annots hp n n' (by omega) h2
      refine ⟨q1 ++ q2, by rw [List.append_assoc], c1.append c2, fun r' hr' => ?_⟩
      rw [List.append_assoc]
      have hne : (q1 ++ (q2 ++ r')).head? = some (.kw .annotation) := by
        rw [head_app (head_app hr')]; exact hr
      rw [parseAnnots_one hne, g1 _ (head_app hr')]
      show (parseAnnots p' n' (q2 ++ r')).bind _ = _
      rw [g2 r' hr']
      rfl
    · rw [parseAnnots_other hr] at h
      obtain ⟨rfl, rfl⟩ := _root_.Prod.mk.inj (Option.some.inj h)
      exact ⟨[], rfl, .nil, fun r' hr' => parseAnnots_other (ts := r') (by rw [hr']; exact hr)⟩

/-! ## Arguments -/

theorem parseArgs_optNone {p : Parser} {n : Nat} {c : Cat} {as : List Arg} {ts : List Tok} (h : ts.head? = some .rpar) :
    parseArgs p n (.opt c :: as) ts = parseArgs p n as ts := by
  cases ts with
  | nil => cases h
  | cons t ts => obtain rfl := Option.some.inj h; rfl

theorem parseArgs_optSome {p : Parser} {n : Nat} {c : Cat} {as : List Arg} {ts : List Tok} (h : ts.head? ≠ some .rpar) :
    parseArgs p n (.opt c :: as) ts = (p c ts).bind fun x => (parseArgs p n as x.2).bind fun y => some ({ y.1 with opt := some x.1 }, y.2) := by
  rw [parseArgs]
  · rfl
  · rintro us rfl
    exact h rfl

theorem parseArgs_many {p : Parser} {n : Nat} {c : Cat} {k : Nat} {as : List Arg} {ts : List Tok} :
    parseArgs p n (.many c k :: as) ts = (parseMany p c n ts).bind fun x => if x.1.length < k then none else
      (parseArgs p n as x.2).bind fun y => some ({ y.1 with fields := .vec false x.1 :: y.1.fields }, y.2) := rfl

/-- A list in parentheses. -/
def closeGroup (p : Parser) (n : Nat) (as : List Arg) (x : List Obj × List Tok) : Option (Parsed × List Tok) :=
  match x.2 with
  | .rpar :: ts => (parseArgs p n as ts).bind fun y => some ({ y.1 with fields := .vec false x.1 :: y.1.fields }, y.2)
  | _ => none

theorem parseArgs_group {p : Parser} {n : Nat} {c : Cat} {as : List Arg} {ts : List Tok} :
    parseArgs p n (.group c :: as) (.lpar :: ts) = (parseMany p c n ts).bind (closeGroup p n as) := rfl

theorem closeGroup_some {p : Parser} {n : Nat} {as : List Arg} {x : List Obj} {ts : List Tok} {y : Parsed × List Tok}
    (h : closeGroup p n as (x, ts) = some y) : ∃ us, ts = .rpar :: us := by
  unfold closeGroup at h
  split at h
  · exact ⟨_, by assumption⟩
  · cases h

theorem reads_args {p p' : Parser} (hp : Ext p p') {n n' : Nat} (hn : n ≤ n') : ∀ (as : List Arg) {ts : List Tok} {a : Parsed} {r : List Tok},
    parseArgs p n as ts = some (a, r) → Reads (parseArgs p' n' as) ts a r
  | [], ts, a, r, h => by
    obtain ⟨rfl, rfl⟩ := _root_.Prod.mk.inj (Option.some.inj h)
    exact ⟨[], rfl, .nil, fun _ _ => rfl⟩
  | .one c :: as, ts, a, r, h => by
    have h : (p c ts).bind (fun x => (parseArgs p n as x.2).bind fun y => some ({ y.1 with fields := x.1 :: y.1.fields }, y.2)) = some (a, r) := h
    obtain ⟨x, ts1, h1, h⟩ := bind_pair h
    obtain ⟨y, ts2, h2, h⟩ := bind_pair h
    obtain ⟨rfl, rfl⟩ := _root_.Prod.mk.inj (Option.some.inj h)
    obtain ⟨q1, -, rfl, c1, g1⟩ := hp c _ _ _ h1
    obtain ⟨q2, rfl, c2, g2⟩ := reads_args hp hn as h2
    refine ⟨q1 ++ q2, by rw [List.append_assoc], c1.append c2, fun r' hr' => ?_⟩
    rw [List.append_assoc]
    show (p' c (q1 ++ (q2 ++ r'))).bind (fun x => (parseArgs p' n' as x.2).bind fun y => some ({ y.1 with fields := x.1 :: y.1.fields }, y.2)) = _
    rw [g1 _ (head_app hr')]
    show (parseArgs p' n' as (q2 ++ r')).bind _ = _
    rw [g2 r' hr']
    rfl
  | .many c k :: as, ts, a, r, h => by
    rw [parseArgs_many] at h
    obtain ⟨x, ts1, h1, h⟩ := bind_pair h
    by_cases hk : x.length < k
    · rw [if_pos hk] at h; cases h
    · rw [if_neg hk] at h
      obtain ⟨y, ts2, h2, h⟩ := bind_pair h
      obtain ⟨rfl, rfl⟩ := _root_.Prod.mk.inj (Option.some.inj h)
      obtain ⟨q1, rfl, c1, g1⟩ := reads_many hp c n n' hn h1
      obtain ⟨q2, rfl, c2, g2⟩ := reads_args hp hn as h2
      refine ⟨q1 ++ q2, by rw [List.append_assoc], c1.append c2, fun r' hr' => ?_⟩
      rw [List.append_assoc, parseArgs_many, g1 _ (head_app hr')]
      show (if x.length < k then none else (parseArgs p' n' as (q2 ++ r')).bind _) = _
      rw [if_neg hk, g2 r' hr']
      rfl
  | .opt c :: as, ts, a, r, h => by
    by_cases hr : ts.head? = some .rpar
    · rw [parseArgs_optNone hr] at h
      obtain ⟨q, rfl, c1, g⟩ := reads_args hp hn as h
      refine ⟨q, rfl, c1, fun r' hr' => ?_⟩
      rw [parseArgs_optNone (by rw [head_app hr']; exact hr)]
      exact g r' hr'
    · rw [parseArgs_optSome hr] at h
      obtain ⟨x, ts1, h1, h⟩ := bind_pair h
      obtain ⟨y, ts2, h2, h⟩ := bind_pair h
      obtain ⟨rfl, rfl⟩ := _root_.Prod.mk.inj (Option.some.inj h)
      obtain ⟨q1, -, rfl, c1, g1⟩ := hp c _ _ _ h1
      obtain ⟨q2, rfl, c2, g2⟩ := reads_args hp hn as h2
      refine ⟨q1 ++ q2, by rw [List.append_assoc], c1.append c2, fun r' hr' => ?_⟩
      rw [List.append_assoc, parseArgs_optSome (by rw [head_app (head_app hr')]; exact hr), g1 _ (head_app hr')]
      show (parseArgs p' n' as (q2 ++ r')).bind _ = _
      rw [g2 r' hr']
      rfl
  | .group c :: as, ts, a, r, h => by
    by_cases hl : ∃ us, ts = .lpar :: us
    · obtain ⟨us, rfl⟩ := hl
      rw [parseArgs_group] at h
      obtain ⟨x, ts1, h1, h⟩ := bind_pair h
      obtain ⟨us1, rfl⟩ := closeGroup_some h
      have h : (parseArgs p n as us1).bind (fun y => some ({ y.1 with fields := .vec false x :: y.1.fields }, y.2)) = some (a, r) := h
      obtain ⟨y, ts2, h2, h⟩ := bind_pair h
      obtain ⟨rfl, rfl⟩ := _root_.Prod.mk.inj (Option.some.inj h)
      obtain ⟨q1, rfl, c1, g1⟩ := reads_many hp c n n' hn h1
      obtain ⟨q2, rfl, c2, g2⟩ := reads_args hp hn as h2
      refine ⟨.lpar :: (q1 ++ .rpar :: q2), by simp, .cons (by nofun) (c1.append (.cons (by nofun) c2)), fun r' hr' => ?_⟩
      rw [List.cons_append, List.append_assoc, List.cons_append, parseArgs_group, g1 (.rpar :: (q2 ++ r')) rfl]
      show (parseArgs p' n' as (q2 ++ r')).bind (fun y => some ({ y.1 with fields := .vec false x :: y.1.fields }, y.2)) = _
      rw [g2 r' hr']
      rfl
    · rw [parseArgs] at h
      · cases h
      · rintro us rfl
        exact hl ⟨_, rfl⟩
  | .card :: as, ts, a, r, h => by
    by_cases hl : ∃ u us, ts = .nat u :: us
    · obtain ⟨u, us, rfl⟩ := hl
      have h : (parseArgs p n as us).bind (fun y => some ({ y.1 with uint := u.toNat }, y.2)) = some (a, r) := h
      obtain ⟨y, ts2, h2, h⟩ := bind_pair h
      obtain ⟨rfl, rfl⟩ := _root_.Prod.mk.inj (Option.some.inj h)
      obtain ⟨q2, rfl, c2, g2⟩ := reads_args hp hn as h2
      refine ⟨.nat u :: q2, rfl, .cons (by nofun) c2, fun r' hr' => ?_⟩
      show (parseArgs p' n' as (q2 ++ r')).bind (fun y => some ({ y.1 with uint := u.toNat }, y.2)) = _
      rw [g2 r' hr']
      rfl
    · rw [parseArgs] at h
      · cases h
      · rintro u us rfl
        exact hl ⟨_, _, rfl⟩

/-! ## Constructs -/

/-- A function reads tokens up to a parenthesis, whatever follows. -/
def Closes {α : Type} (f' : List Tok → Option (α × List Tok)) (ts : List Tok) (a : α) (r : List Tok) : Prop :=
  ∃ q, ts = q ++ .rpar :: r ∧ NoChar q ∧ ∀ r', f' (q ++ .rpar :: r') = some (a, r')

theorem Closes.reads {α : Type} {f' : List Tok → Option (α × List Tok)} {ts : List Tok} {a : α} {r : List Tok} (h : Closes f' ts a r) :
    Reads1 f' ts a r := by
  obtain ⟨q, h1, h2, h3⟩ := h
  exact ⟨q ++ [.rpar], by simp, by simpa using h1, h2.append (.cons (by nofun) .nil), fun r' _ => by simpa using h3 r'⟩

/-- The end of a construct. -/
def closeWith (f : Parsed → Option Obj) (x : Parsed × List Tok) : Option (Obj × List Tok) :=
  match x.2 with
  | .rpar :: ts => (f x.1).map fun o => (o, ts)
  | _ => none

theorem parseConstruct_eq {p : Parser} {n : Nat} {c : Cat} {k : Kw} {ts : List Tok} {pr : Prod} (hk : prod k = some pr) :
    parseConstruct p n c (.kw k :: .lpar :: ts) =
      if pr.cat = c then (parseAnnotsIf p n pr.annotated ts).bind fun x => (parseArgs p n pr.args x.2).bind (closeWith (build pr.type pr.annotated x.1))
      else none := by
  rw [parseConstruct, hk]
  rfl

theorem construct_head {p : Parser} {n : Nat} {c : Cat} {ts : List Tok} {y : Obj × List Tok} (h : parseConstruct p n c ts = some y) :
    ∃ k us pr, ts = .kw k :: .lpar :: us ∧ prod k = some pr := by
  unfold parseConstruct at h
  split at h
  · rename_i k us
    cases hk : prod k with
    | none => rw [hk] at h; cases h
    | some pr => exact ⟨k, us, pr, rfl, hk⟩
  · cases h

theorem reads_annotsIf {p p' : Parser} (hp : Ext p p') {n n' : Nat} (hn : n ≤ n') (b : Bool) {ts : List Tok} {xs : List Obj} {r : List Tok}
    (h : parseAnnotsIf p n b ts = some (xs, r)) : Reads (parseAnnotsIf p' n' b) ts xs r := by
  cases b with
  | false =>
    obtain ⟨rfl, rfl⟩ := _root_.Prod.mk.inj (Option.some.inj h)
    exact ⟨[], rfl, .nil, fun _ _ => rfl⟩
  | true => exact reads_annots hp n n' hn h

theorem closes_construct {p p' : Parser} (hp : Ext p p') {n n' : Nat} (hn : n ≤ n') {c : Cat} {ts : List Tok} {o : Obj} {r : List Tok}
    (h : parseConstruct p n c ts = some (o, r)) : Closes (parseConstruct p' n' c) ts o r := by
  obtain ⟨k, us, pr, rfl, hk⟩ := construct_head h
  rw [parseConstruct_eq hk] at h
  by_cases hc : pr.cat = c
  · rw [if_pos hc] at h
    obtain ⟨as, ts1, h1, h⟩ := bind_pair h
    obtain ⟨a, ts2, h2, h⟩ := bind_pair h
    have hcl : ∃ vs, ts2 = .rpar :: vs := by
      unfold closeWith at h
      split at h
      · exact ⟨_, by assumption⟩
      · cases h
    obtain ⟨vs, rfl⟩ := hcl
    have h : (build pr.type pr.annotated as a).map (fun o => (o, vs)) = some (o, r) := h
    cases hb : build pr.type pr.annotated as a with
    | none => rw [hb] at h; cases h
    | some x =>
      rw [hb] at h
      obtain ⟨rfl, rfl⟩ := _root_.Prod.mk.inj (Option.some.inj h)
      obtain ⟨q1, rfl, c1, g1⟩ := reads_annotsIf hp hn pr.annotated h1
      obtain ⟨q2, rfl, c2, g2⟩ := reads_args hp hn pr.args h2
      refine ⟨.kw k :: .lpar :: (q1 ++ q2), by simp, .cons (by nofun) (.cons (by nofun) (c1.append c2)), fun r' => ?_⟩
      have e : (Tok.kw k :: .lpar :: (q1 ++ q2)) ++ .rpar :: r' = .kw k :: .lpar :: (q1 ++ (q2 ++ .rpar :: r')) := by simp
      rw [e, parseConstruct_eq hk, if_pos hc, g1 _ (head_app (r := .rpar :: vs) (r' := .rpar :: r') rfl)]
      show (parseArgs p' n' pr.args (q2 ++ .rpar :: r')).bind _ = _
      rw [g2 (.rpar :: r') rfl]
      show (build pr.type pr.annotated as a).map (fun o => (o, r')) = _
      rw [hb]
      rfl
  · rw [if_neg hc] at h; cases h

theorem parseExp_other {m : PMap} {p : Parser} {n : Nat} {c : Cat} {k : EntKind} {t : Tok} {ts : List Tok} (h : ∀ w, t ≠ .kw w) :
    parseExp m p n c k (t :: ts) = (readIri m t).map fun i => (.prim (.ent k i), ts) := by
  cases t <;> first | rfl | exact absurd rfl (h _)

theorem reads_exp {m : PMap} {p p' : Parser} (hp : Ext p p') {n n' : Nat} (hn : n ≤ n') {c : Cat} {k : EntKind} {ts : List Tok} {o : Obj}
    {r : List Tok} (h : parseExp m p n c k ts = some (o, r)) : Reads1 (parseExp m p' n' c k) ts o r := by
  cases ts with
  | nil => cases h
  | cons t ts =>
    by_cases hw : ∃ w, t = .kw w
    · obtain ⟨w, rfl⟩ := hw
      have h : parseConstruct p n c (.kw w :: ts) = some (o, r) := h
      obtain ⟨q, hne, e, c1, g⟩ := (closes_construct hp hn h).reads
      refine ⟨q, hne, e, c1, fun r' hr' => ?_⟩
      cases q with
      | nil => exact absurd rfl hne
      | cons t q =>
        obtain ⟨rfl, -⟩ := List.cons.inj e
        exact g r' hr'
    · have hw : ∀ w, t ≠ .kw w := fun w e => hw ⟨w, e⟩
      rw [parseExp_other hw] at h
      cases hi : readIri m t with
      | none => rw [hi] at h; cases h
      | some i =>
        rw [hi] at h
        obtain ⟨rfl, rfl⟩ := _root_.Prod.mk.inj (Option.some.inj h)
        exact reads_iri hi fun r' => by rw [parseExp_other hw, hi]; rfl

/-- The end of a chain. -/
def closeChain (x : List Obj × List Tok) : Option (Obj × List Tok) :=
  if x.1.length < 2 then none else
  match x.2 with
  | .rpar :: ts => some (.vec true x.1, ts)
  | _ => none

theorem step_chain {m : PMap} {p : Parser} {n : Nat} {ts : List Tok} :
    parseStep m p n .subOpe (.kw .objectPropertyChain :: .lpar :: ts) = (parseMany p .ope n ts).bind closeChain := rfl

theorem step_subOpe {m : PMap} {p : Parser} {n : Nat} {ts : List Tok} (h : ¬ ∃ us, ts = .kw .objectPropertyChain :: .lpar :: us) :
    parseStep m p n .subOpe ts = p .ope ts := by
  rw [parseStep]
  intro us e
  exact h ⟨us, e⟩

theorem step_entity {m : PMap} {p : Parser} {n : Nat} {ts : List Tok} {y : Obj × List Tok} (h : parseStep m p n .entity ts = some y) :
    ∃ k t us, ts = .kw k :: .lpar :: t :: .rpar :: us := by
  by_cases hx : ∃ k t us, ts = .kw k :: .lpar :: t :: .rpar :: us
  · exact hx
  · unfold parseStep at h
    split at h <;> first | (exfalso; simp_all; done) | exact ⟨_, _, _, rfl⟩ | skip
    all_goals simp_all

theorem step_annotVal {m : PMap} {p : Parser} {n : Nat} {ts : List Tok} (h : ¬ ∃ s us, ts = .qstr s :: us) :
    parseStep m p n .annotVal ts = readAnonOr m (fun i => .prim (.iri i)) ts := by
  rw [parseStep]
  intro s us e
  exact h ⟨s, us, e⟩

theorem reads_step {m : PMap} {p p' : Parser} (hp : Ext p p') {n n' : Nat} (hn : n ≤ n') : Ext (parseStep m p n) (parseStep m p' n') := by
  intro c ts o r h
  cases c with
  | iri | ent k =>
    cases ts with
    | nil => cases h
    | cons t ts =>
      cases hi : readIri m t with
      | none =>
        have h : (readIri m t).map _ = some (o, r) := h
        rw [hi] at h; cases h
      | some i =>
        have h' : (readIri m t).map _ = some (o, r) := h
        rw [hi] at h'
        obtain ⟨rfl, rfl⟩ := _root_.Prod.mk.inj (Option.some.inj h')
        exact reads_iri hi fun r' => by show (readIri m t).map _ = _; rw [hi]; rfl
  | ind => exact reads_anonOr h
  | lit => exact reads_lit h
  | ope => exact reads_exp hp hn h
  | dr => exact reads_exp hp hn h
  | ce => exact reads_exp hp hn h
  | facet =>
    cases ts with
    | nil => cases h
    | cons t ts =>
      have h : (readIri m t).bind (fun i => (readLit m ts).bind fun x => some (getImpl .facetRestr [.prim (.iri i), x.1] none, x.2)) = some (o, r) := h
      cases hi : readIri m t with
      | none => rw [hi] at h; cases h
      | some i =>
        rw [hi] at h
        obtain ⟨l, ts1, h1, h⟩ := bind_pair h
        obtain ⟨rfl, rfl⟩ := _root_.Prod.mk.inj (Option.some.inj h)
        obtain ⟨q, -, rfl, c1, g⟩ := reads_lit h1
        refine ⟨t :: q, nofun, rfl, .cons (readIri_char hi) c1, fun r' hr' => ?_⟩
        show (readIri m t).bind (fun i => (readLit m (q ++ r')).bind fun x => some (getImpl .facetRestr [.prim (.iri i), x.1] none, x.2)) = _
        rw [hi, g r' hr']
        rfl
  | annotVal =>
    by_cases hq : ∃ s us, ts = .qstr s :: us
    · obtain ⟨s, us, rfl⟩ := hq
      have h : readLit m (.qstr s :: us) = some (o, r) := h
      obtain ⟨q, hne, e, c1, g⟩ := reads_lit h
      refine ⟨q, hne, e, c1, fun r' hr' => ?_⟩
      cases q with
      | nil => exact absurd rfl hne
      | cons t q =>
        obtain ⟨rfl, -⟩ := List.cons.inj e
        exact g r' hr'
    · rw [step_annotVal hq] at h
      obtain ⟨q, hne, rfl, c1, g⟩ := reads_anonOr h
      refine ⟨q, hne, rfl, c1, fun r' hr' => ?_⟩
      rw [step_annotVal]
      · exact g r' hr'
      · rintro ⟨s, us, e⟩
        cases q with
        | nil => exact hne rfl
        | cons t q =>
          obtain ⟨rfl, -⟩ := List.cons.inj e
          exact hq ⟨s, _, rfl⟩
  | annotSubj => exact reads_anonOr h
  | entity =>
    obtain ⟨k, t, us, rfl⟩ := step_entity h
    have h : (entKw k).bind (fun e => (readIri m t).bind fun i => some (.prim (.ent e i), us)) = some (o, r) := h
    cases he : entKw k with
    | none => rw [he] at h; cases h
    | some e =>
      rw [he] at h
      have h : (readIri m t).bind (fun i => some (.prim (.ent e i), us)) = some (o, r) := h
      cases hi : readIri m t with
      | none => rw [hi] at h; cases h
      | some i =>
        rw [hi] at h
        obtain ⟨rfl, rfl⟩ := _root_.Prod.mk.inj (Option.some.inj h)
        refine ⟨[.kw k, .lpar, t, .rpar], nofun, rfl, .cons (by nofun) (.cons (by nofun) (.cons (readIri_char hi) (.cons (by nofun) .nil))), fun r' _ => ?_⟩
        show (entKw k).bind (fun e => (readIri m t).bind fun i => some (Obj.prim (.ent e i), r')) = _
        rw [he, hi]
        rfl
  | subOpe =>
    by_cases hq : ∃ us, ts = .kw .objectPropertyChain :: .lpar :: us
    · obtain ⟨us, rfl⟩ := hq
      rw [step_chain] at h
      obtain ⟨x, ts1, h1, h⟩ := bind_pair h
      unfold closeChain at h
      by_cases hx : x.length < 2
      · rw [if_pos hx] at h; cases h
      · rw [if_neg hx] at h
        dsimp only at h
        split at h
        · obtain ⟨rfl, rfl⟩ := _root_.Prod.mk.inj (Option.some.inj h)
          obtain ⟨q, rfl, c1, g⟩ := reads_many hp .ope n n' hn h1
          refine ⟨.kw .objectPropertyChain :: .lpar :: (q ++ [.rpar]), nofun, by simp, .cons (by nofun) (.cons (by nofun) (c1.append (.cons (by nofun) .nil))), fun r' _ => ?_⟩
          have e : (Tok.kw .objectPropertyChain :: .lpar :: (q ++ [.rpar])) ++ r' = .kw .objectPropertyChain :: .lpar :: (q ++ .rpar :: r') := by simp
          rw [e, step_chain, g (.rpar :: r') rfl]
          show closeChain (x, .rpar :: r') = _
          unfold closeChain
          rw [if_neg hx]
        · cases h
    · rw [step_subOpe hq] at h
      obtain ⟨q, hne, rfl, c1, g⟩ := hp .ope _ _ _ h
      refine ⟨q, hne, rfl, c1, fun r' hr' => ?_⟩
      rw [step_subOpe]
      · exact g r' hr'
      · rintro ⟨us, e⟩
        cases q with
        | nil => exact hne rfl
        | cons t q =>
          obtain ⟨rfl, e2⟩ := List.cons.inj e
          cases q with
          | nil =>
            have e : r' = .lpar :: us := e2
            rw [e] at hr'
            cases r with
            | nil => cases hr'
            | cons u r =>
              obtain rfl := Option.some.inj hr'
              exact hq ⟨r, rfl⟩
          | cons u q =>
            obtain ⟨rfl, -⟩ := List.cons.inj e2
            exact hq ⟨_, rfl⟩
  | annotation => exact (closes_construct hp hn h).reads
  | ax => exact (closes_construct hp hn h).reads

theorem ext_parse (m : PMap) : ∀ (n n' : Nat), n ≤ n' → Ext (parseCat m n) (parseCat m n')
  | 0, _, _ => fun _ _ _ _ h => by cases h
  | n + 1, 0, h => by omega
  | n + 1, n' + 1, h => reads_step (ext_parse m n n' (by omega)) (by omega)

/-- Axioms and annotations of documents. -/
theorem closes_parse (m : PMap) {n n' : Nat} (hn : n ≤ n') {c : Cat} (hc : c = .ax ∨ c = .annotation) {ts : List Tok} {o : Obj} {r : List Tok}
    (h : parseCat m n c ts = some (o, r)) : Closes (parseCat m n' c) ts o r := by
  cases n with
  | zero => cases h
  | succ n =>
    obtain ⟨k, rfl⟩ : ∃ k, n' = k + 1 := ⟨n' - 1, by omega⟩
    rcases hc with rfl | rfl
    · exact closes_construct (ext_parse m n k (by omega)) (by omega) h
    · exact closes_construct (ext_parse m n k (by omega)) (by omega) h

end Cowl.Func
