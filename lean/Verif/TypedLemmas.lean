import Verif.TypedSpec
/-!
# Lemmas: what the functional reader hands over are constructs of OWL 2
-/
namespace Cowl.Ast
open Func (Cat Arg Tok Parser Parsed Kw Item readIri readLit readAnonOr parseMany parseAnnots parseArgs parseConstruct parseExp parseStep parseCat)
open Prefix

/-! ## Literals -/

theorem lower_byte (c : UInt8) : ¬ (65 ≤ lowerByte c ∧ lowerByte c ≤ 90) := by
  unfold lowerByte
  split
  · rename_i h
    intro g
    simp only [UInt8.le_iff_toNat_le, UInt8.toNat_add, show (65 : UInt8).toNat = 65 from rfl, show (90 : UInt8).toNat = 90 from rfl,
      show (32 : UInt8).toNat = 32 from rfl] at h g
    omega
  · assumption

theorem lower_none (s : Str) : ∀ c ∈ lower s, ¬ (65 ≤ c ∧ c ≤ 90) := by
  intro c hc
  obtain ⟨d, -, rfl⟩ := List.mem_map.1 hc
  exact lower_byte d

theorem lower_ne {s : Str} (h : s ≠ []) : lower s ≠ [] := by
  cases s with
  | nil => exact absurd rfl h
  | cons c s => exact nofun

theorem literal_normal {v : Str} {a : LitArg} {v' : Str} {t : LitTag} (h : literal v a = .lit v' t) : (Lit.mk v' t).Normal := by
  have hs : ∀ v, literalString v = .lit v' t → (Lit.mk v' t).Normal := by
    intro v h
    unfold literalString at h
    injection h with h1 h2
    subst h2
    show xsdString ≠ rdfLangString ∧ xsdString ≠ rdfPlainLiteral
    decide +kernel
  cases a with
  | none => exact hs _ h
  | lang l =>
    unfold literal literalLang at h
    dsimp only at h
    split at h
    · exact hs _ h
    · rename_i hl
      injection h with h1 h2
      subst h2
      exact ⟨lower_ne fun e => hl (by rw [e]; rfl), lower_none l⟩
  | dt i =>
    unfold literal at h
    dsimp only at h
    split at h
    · unfold literalParseLang at h
      dsimp only at h
      split at h
      · cases h
      · rename_i hl
        injection h with h1 h2
        subst h2
        refine ⟨lower_ne fun e => ?_, lower_none _⟩
        have := congrArg List.length e
        rw [List.length_drop] at this
        simp only [List.length_nil] at this
        omega
    · rename_i hl
      injection h with h1 h2
      subst h2
      simp only [isLangDatatype, Bool.or_eq_true, beq_iff_eq, not_or] at hl
      exact hl

/-! ## Categories -/

/-- The objects of a nonterminal. -/
def Typed : Cat → Obj → Prop
  | .iri, o => ∃ i, o = .prim (.iri i)
  | .ent k, o => ∃ i, o = ent k i
  | .ind, o => ∃ x : Ind, o = x.toObj
  | .lit, o => ∃ l : Lit, o = l.toObj ∧ l.Normal
  | .ope, o => ∃ x : Ope, o = x.toObj
  | .dr, o => ∃ x : DR, o = x.toObj ∧ x.Meets owl2
  | .ce, o => ∃ x : CE, o = x.toObj ∧ x.Meets owl2
  | .facet, o => ∃ f : Iri × Lit, o = facetObj f ∧ f.2.Normal
  | .annotVal, o => ∃ x : AnnotVal, o = x.toObj ∧ x.Meets owl2
  | .annotSubj, o => ∃ x : AnnotSubj, o = x.toObj
  | .annotation, o => IsAnnot owl2 o
  | .entity, o => ∃ k i, o = ent k i
  | .subOpe, o => ∃ x : SubOpe, o = x.toObj ∧ x.Meets owl2
  | .ax, o => IsAx owl2 o

/-- A parser whose results are of the right nonterminal. -/
def TypedP (p : Parser) : Prop := ∀ c ts o rest, p c ts = some (o, rest) → Typed c o

theorem ind_meets (x : Ind) : x.Meets owl2 := by cases x <;> trivial
theorem ope_meets (x : Ope) : x.Meets owl2 := by cases x <;> trivial
theorem subj_meets (x : AnnotSubj) : x.Meets owl2 := by cases x <;> trivial

/-! ## Lists -/

theorem all_map {α : Type} {f : α → Obj} {P : α → Prop} : ∀ {xs : List Obj}, (∀ x ∈ xs, ∃ a, x = f a ∧ P a) → ∃ as : List α, xs = as.map f ∧ ∀ a ∈ as, P a
  | [], _ => ⟨[], rfl, nofun⟩
  | x :: xs, h => by
    obtain ⟨a, rfl, ha⟩ := h x (.head _)
    obtain ⟨as, rfl, has⟩ := all_map fun x hx => h x (.tail _ hx)
    exact ⟨a :: as, rfl, fun b hb => (List.mem_cons.1 hb).elim (fun e => e ▸ ha) (has b)⟩

theorem all_plain {α : Type} {f : α → Obj} {xs : List Obj} (h : ∀ x ∈ xs, ∃ a, x = f a) : ∃ as : List α, xs = as.map f := by
  obtain ⟨as, e, -⟩ := all_map (P := fun _ => True) (f := f) (xs := xs) fun x hx => by
    obtain ⟨a, e⟩ := h x hx; exact ⟨a, e, trivial⟩
  exact ⟨as, e⟩

theorem len_map {α : Type} {f : α → Obj} {as : List α} {k : Nat} (h : k ≤ (as.map f).length) : k ≤ as.length := by
  rwa [List.length_map] at h

theorem all_dr : ∀ {xs : List Obj}, (∀ x ∈ xs, Typed .dr x) → ∃ ds : List DR, xs = DR.toObjs ds ∧ DR.AllMeet owl2 ds ∧ ds.length = xs.length
  | [], _ => ⟨[], rfl, trivial, rfl⟩
  | x :: xs, h => by
    obtain ⟨d, rfl, hd⟩ := h x (.head _)
    obtain ⟨ds, e, h1, h2⟩ := all_dr fun x hx => h x (.tail _ hx)
    exact ⟨d :: ds, by rw [DR.toObjs, ← e], ⟨hd, h1⟩, by simp [h2]⟩

theorem all_ce : ∀ {xs : List Obj}, (∀ x ∈ xs, Typed .ce x) → ∃ ds : List CE, xs = CE.toObjs ds ∧ CE.AllMeet owl2 ds ∧ ds.length = xs.length
  | [], _ => ⟨[], rfl, trivial, rfl⟩
  | x :: xs, h => by
    obtain ⟨d, rfl, hd⟩ := h x (.head _)
    obtain ⟨ds, e, h1, h2⟩ := all_ce fun x hx => h x (.tail _ hx)
    exact ⟨d :: ds, by rw [CE.toObjs, ← e], ⟨hd, h1⟩, by simp [h2]⟩

theorem all_annot : ∀ {xs : List Obj}, (∀ x ∈ xs, Typed .annotation x) → ∃ ds : List Annot, xs = Annot.toObjs ds ∧ Annot.AllMeet owl2 ds
  | [], _ => ⟨[], rfl, trivial⟩
  | x :: xs, h => by
    obtain ⟨d, rfl, hd⟩ := h x (.head _)
    obtain ⟨ds, e, h1⟩ := all_annot fun x hx => h x (.tail _ hx)
    exact ⟨d :: ds, by rw [Annot.toObjs, ← e], ⟨hd, h1⟩⟩

/-! ## The parser -/

theorem readLit_typed {m : PMap} {ts rest : List Tok} {o : Obj} (h : readLit m ts = some (o, rest)) : Typed .lit o := by
  rw [Func.readLit.eq_def] at h
  split at h
  · obtain ⟨i, -, h⟩ := Option.bind_eq_some_iff.1 h
    split at h
    · rename_i v' t e
      cases h
      exact ⟨⟨v', t⟩, rfl, literal_normal e⟩
    · cases h
  · cases h
  · split at h
    · rename_i v' t e
      cases h
      exact ⟨⟨v', t⟩, rfl, literal_normal e⟩
    · cases h
  · split at h
    · rename_i v' t e
      cases h
      exact ⟨⟨v', t⟩, rfl, literal_normal e⟩
    · cases h
  · cases h

theorem readAnonOr_typed {m : PMap} {f : Iri → Obj} {ts rest : List Tok} {o : Obj} (h : readAnonOr m f ts = some (o, rest)) :
    (∃ s, o = .prim (.anon s)) ∨ ∃ i, o = f i := by
  rw [Func.readAnonOr.eq_def] at h
  split at h
  · cases h; exact .inl ⟨_, rfl⟩
  · obtain ⟨i, -, h⟩ := Option.map_eq_some_iff.1 h
    cases h; exact .inr ⟨i, rfl⟩
  · cases h

theorem parseMany_typed {p : Parser} (hp : TypedP p) {c : Cat} : ∀ {n : Nat} {ts rest : List Tok} {xs : List Obj},
    parseMany p c n ts = some (xs, rest) → ∀ x ∈ xs, Typed c x
  | 0, _, _, _, h => by cases h
  | n + 1, ts, rest, xs, h => by
    rw [Func.parseMany.eq_def] at h
    dsimp only at h
    split at h
    · cases h; exact nofun
    · obtain ⟨⟨x, ts1⟩, h1, h⟩ := Option.bind_eq_some_iff.1 h
      obtain ⟨⟨ys, ts2⟩, h2, h⟩ := Option.bind_eq_some_iff.1 h
      cases h
      intro y hy
      rcases List.mem_cons.1 hy with rfl | hy
      · exact hp _ _ _ _ h1
      · exact parseMany_typed hp h2 y hy

theorem parseAnnots_typed {p : Parser} (hp : TypedP p) : ∀ {n : Nat} {ts rest : List Tok} {xs : List Obj},
    parseAnnots p n ts = some (xs, rest) → ∀ x ∈ xs, Typed .annotation x
  | 0, _, _, _, h => by cases h
  | n + 1, ts, rest, xs, h => by
    rw [Func.parseAnnots.eq_def] at h
    dsimp only at h
    split at h
    · obtain ⟨⟨x, ts1⟩, h1, h⟩ := Option.bind_eq_some_iff.1 h
      obtain ⟨⟨ys, ts2⟩, h2, h⟩ := Option.bind_eq_some_iff.1 h
      cases h
      intro y hy
      rcases List.mem_cons.1 hy with rfl | hy
      · exact hp _ _ _ _ h1
      · exact parseAnnots_typed hp h2 y hy
    · cases h; exact nofun

/-- Arguments as parsed: fields, and the optional one. -/
def ArgsTyped : List Arg → List Obj → Option Obj → Prop
  | [], fs, o => fs = [] ∧ o = none
  | .one c :: as, fs, o => ∃ x fs', fs = x :: fs' ∧ Typed c x ∧ ArgsTyped as fs' o
  | .many c k :: as, fs, o => ∃ xs fs', fs = .vec false xs :: fs' ∧ k ≤ xs.length ∧ (∀ x ∈ xs, Typed c x) ∧ ArgsTyped as fs' o
  | .opt c :: as, fs, o => ∃ o', ArgsTyped as fs o' ∧ (o = o' ∨ ∃ x, o = some x ∧ Typed c x)
  | .group c :: as, fs, o => ∃ xs fs', fs = .vec false xs :: fs' ∧ (∀ x ∈ xs, Typed c x) ∧ ArgsTyped as fs' o
  | .card :: as, fs, o => ArgsTyped as fs o

theorem parseArgs_typed {p : Parser} (hp : TypedP p) {n : Nat} : ∀ {as : List Arg} {ts rest : List Tok} {r : Parsed},
    parseArgs p n as ts = some (r, rest) → ArgsTyped as r.fields r.opt ∧ ∃ u : UInt32, r.uint = u.toNat
  | [], _, _, _, h => by cases h; exact ⟨⟨rfl, rfl⟩, 0, rfl⟩
  | .one c :: as, ts, rest, r, h => by
    obtain ⟨⟨x, ts1⟩, h1, h⟩ := Option.bind_eq_some_iff.1 h
    obtain ⟨⟨r', ts2⟩, h2, h⟩ := Option.bind_eq_some_iff.1 h
    cases h
    obtain ⟨g1, g2⟩ := parseArgs_typed hp h2
    exact ⟨⟨x, _, rfl, hp _ _ _ _ h1, g1⟩, g2⟩
  | .many c k :: as, ts, rest, r, h => by
    obtain ⟨⟨xs, ts1⟩, h1, h⟩ := Option.bind_eq_some_iff.1 h
    dsimp only at h
    split at h
    · cases h
    · rename_i hk
      obtain ⟨⟨r', ts2⟩, h2, h⟩ := Option.bind_eq_some_iff.1 h
      cases h
      obtain ⟨g1, g2⟩ := parseArgs_typed hp h2
      exact ⟨⟨xs, _, rfl, by omega, parseMany_typed hp h1, g1⟩, g2⟩
  | .opt c :: as, ts, rest, r, h => by
    rw [Func.parseArgs.eq_def] at h
    dsimp only at h
    split at h
    · obtain ⟨g1, g2⟩ := parseArgs_typed hp h
      exact ⟨⟨_, g1, .inl rfl⟩, g2⟩
    · obtain ⟨⟨x, ts1⟩, h1, h⟩ := Option.bind_eq_some_iff.1 h
      obtain ⟨⟨r', ts2⟩, h2, h⟩ := Option.bind_eq_some_iff.1 h
      cases h
      obtain ⟨g1, g2⟩ := parseArgs_typed hp h2
      exact ⟨⟨_, g1, .inr ⟨x, rfl, hp _ _ _ _ h1⟩⟩, g2⟩
  | .group c :: as, ts, rest, r, h => by
    rw [Func.parseArgs.eq_def] at h
    dsimp only at h
    split at h
    · obtain ⟨⟨xs, ts1⟩, h1, h⟩ := Option.bind_eq_some_iff.1 h
      dsimp only at h
      split at h
      · obtain ⟨⟨r', ts2⟩, h2, h⟩ := Option.bind_eq_some_iff.1 h
        cases h
        obtain ⟨g1, g2⟩ := parseArgs_typed hp h2
        exact ⟨⟨xs, _, rfl, parseMany_typed hp h1, g1⟩, g2⟩
      · cases h
    · cases h
  | .card :: as, ts, rest, r, h => by
    rw [Func.parseArgs.eq_def] at h
    dsimp only at h
    split at h
    · obtain ⟨⟨r', ts2⟩, h2, h⟩ := Option.bind_eq_some_iff.1 h
      cases h
      obtain ⟨g1, g2⟩ := parseArgs_typed hp h2
      exact ⟨g1, _, rfl⟩
    · cases h

/-! ## Constructs -/

theorem quant_obj (x : CE) (t : OType) (p : Obj) : getImpl t [p] (dropDefault (.ent .cls owlThing) (some x.toObj)) =
    if x.isTop then .comp t false [p] 0 else .comp t true [p, x.toObj] 0 := by
  cases x <;> try rfl
  · rename_i i
    by_cases hi : i = owlThing
    · subst hi; rfl
    · have h1 : ¬ Prim.ent .cls i = .ent .cls owlThing := fun e => hi (by injection e)
      have h2 : (CE.cls i).isTop = false := by simpa [CE.isTop] using hi
      rw [h2]
      simp only [CE.toObj, ent, dropDefault, if_neg h1]
      rfl
  all_goals (rename_i d; rw [CE.toObj]; cases d.isTop <;> rfl)

theorem quant_data (x : DR) (t : OType) (p : Obj) : getImpl t [p] (dropDefault (.ent .datatype rdfsLiteral) (some x.toObj)) =
    if x.isTop then .comp t false [p] 0 else .comp t true [p, x.toObj] 0 := by
  cases x <;> try rfl
  rename_i i
  by_cases hi : i = rdfsLiteral
  · subst hi; rfl
  · have h1 : ¬ Prim.ent .datatype i = .ent .datatype rdfsLiteral := fun e => hi (by injection e)
    have h2 : (DR.dt i).isTop = false := by simpa [DR.isTop] using hi
    rw [h2]
    simp only [DR.toObj, ent, dropDefault, if_neg h1]
    rfl

theorem annot_obj (t : OType) (fs as : List Obj) :
    getImplAnnot t fs (if as = [] then none else some (false, as)) = annotated t fs as := by
  cases as <;> rfl

theorem ax_typed (a : Ax) (m : a.Meets owl2) {as : List Obj} (has : ∀ x ∈ as, Typed .annotation x) :
    IsAx owl2 (getImplAnnot a.type a.fields (if as = [] then none else some (false, as))) := by
  obtain ⟨ds, rfl, hd⟩ := all_annot has
  exact ⟨⟨a, ds⟩, annot_obj _ _ _, m, hd, trivial⟩

/-- What an action of the grammar builds. -/
theorem build_typed {k : Kw} {pr : Func.Prod} (hk : Func.prod k = some pr) {r : Parsed} (ha : ArgsTyped pr.args r.fields r.opt)
    (hu : ∃ u : UInt32, r.uint = u.toNat) {as : List Obj} (has : ∀ x ∈ as, Typed .annotation x) {o : Obj}
    (h : Func.build pr.type pr.annotated as r = some o) : Typed pr.cat o := by
  obtain ⟨fs, un, op⟩ := r
  obtain ⟨u, rfl⟩ := hu
  cases k <;> first | (cases hk; done) | skip
  case objectInverseOf =>
    cases hk
    obtain ⟨_, _, rfl, ⟨x1, rfl⟩, rfl, rfl⟩ := ha
    obtain rfl := Option.some.inj h
    exact ⟨.inv x1, rfl⟩
  case dataIntersectionOf =>
    cases hk
    obtain ⟨y1, _, rfl, g1, h1, rfl, rfl⟩ := ha
    obtain ⟨x1, rfl, m1, l1⟩ := all_dr h1
    obtain rfl := Option.some.inj h
    exact ⟨.inter x1, rfl, l1 ▸ g1, m1⟩
  case dataUnionOf =>
    cases hk
    obtain ⟨y1, _, rfl, g1, h1, rfl, rfl⟩ := ha
    obtain ⟨x1, rfl, m1, l1⟩ := all_dr h1
    obtain rfl := Option.some.inj h
    exact ⟨.union x1, rfl, l1 ▸ g1, m1⟩
  case dataComplementOf =>
    cases hk
    obtain ⟨_, _, rfl, ⟨x1, rfl, h1⟩, rfl, rfl⟩ := ha
    obtain rfl := Option.some.inj h
    exact ⟨.compl x1, rfl, h1⟩
  case dataOneOf =>
    cases hk
    obtain ⟨y1, _, rfl, g1, h1, rfl, rfl⟩ := ha
    obtain ⟨x1, rfl, m1⟩ := all_map h1
    obtain rfl := Option.some.inj h
    exact ⟨.oneOf x1, rfl, len_map g1, m1⟩
  case datatypeRestriction =>
    cases hk
    obtain ⟨_, _, rfl, ⟨x1, rfl⟩, y2, _, rfl, g2, h2, rfl, rfl⟩ := ha
    obtain ⟨x2, rfl, m2⟩ := all_map h2
    obtain rfl := Option.some.inj h
    exact ⟨.restr x1 x2, rfl, trivial, len_map g2, fun f hf => ⟨trivial, m2 f hf⟩⟩
  case objectIntersectionOf =>
    cases hk
    obtain ⟨y1, _, rfl, g1, h1, rfl, rfl⟩ := ha
    obtain ⟨x1, rfl, m1, l1⟩ := all_ce h1
    obtain rfl := Option.some.inj h
    exact ⟨.inter x1, rfl, l1 ▸ g1, m1⟩
  case objectUnionOf =>
    cases hk
    obtain ⟨y1, _, rfl, g1, h1, rfl, rfl⟩ := ha
    obtain ⟨x1, rfl, m1, l1⟩ := all_ce h1
    obtain rfl := Option.some.inj h
    exact ⟨.union x1, rfl, l1 ▸ g1, m1⟩
  case objectComplementOf =>
    cases hk
    obtain ⟨_, _, rfl, ⟨x1, rfl, h1⟩, rfl, rfl⟩ := ha
    obtain rfl := Option.some.inj h
    exact ⟨.compl x1, rfl, h1⟩
  case objectOneOf =>
    cases hk
    obtain ⟨y1, _, rfl, g1, h1, rfl, rfl⟩ := ha
    obtain ⟨x1, rfl⟩ := all_plain h1
    obtain rfl := Option.some.inj h
    exact ⟨.oneOf x1, rfl, len_map g1, fun i _ => ind_meets i⟩
  case objectSomeValuesFrom =>
    cases hk
    obtain ⟨_, _, rfl, ⟨x1, rfl⟩, _, _, rfl, ⟨x2, rfl, h2⟩, rfl, rfl⟩ := ha
    obtain rfl := Option.some.inj h
    exact ⟨.objSome x1 x2, (quant_obj _ _ _).trans (by rw [CE.toObj]; rfl), ope_meets _, h2⟩
  case objectAllValuesFrom =>
    cases hk
    obtain ⟨_, _, rfl, ⟨x1, rfl⟩, _, _, rfl, ⟨x2, rfl, h2⟩, rfl, rfl⟩ := ha
    obtain rfl := Option.some.inj h
    exact ⟨.objAll x1 x2, (quant_obj _ _ _).trans (by rw [CE.toObj]; rfl), ope_meets _, h2⟩
  case objectHasValue =>
    cases hk
    obtain ⟨_, _, rfl, ⟨x1, rfl⟩, _, _, rfl, ⟨x2, rfl⟩, rfl, rfl⟩ := ha
    obtain rfl := Option.some.inj h
    exact ⟨.objHasValue x1 x2, rfl, ope_meets _, ind_meets _⟩
  case objectHasSelf =>
    cases hk
    obtain ⟨_, _, rfl, ⟨x1, rfl⟩, rfl, rfl⟩ := ha
    obtain rfl := Option.some.inj h
    exact ⟨.objHasSelf x1, rfl, ope_meets _⟩
  case objectMinCardinality =>
    cases hk
    obtain ⟨_, _, rfl, ⟨x2, rfl⟩, _, ⟨rfl, rfl⟩, hop⟩ := ha
    rcases hop with rfl | ⟨_, rfl, x3, rfl, h3⟩
    · obtain rfl := Option.some.inj h
      exact ⟨.objCard .min u x2, rfl, ope_meets _, trivial⟩
    · obtain rfl := Option.some.inj h
      exact ⟨.objCardQ .min u x2 x3, rfl, ope_meets _, h3, trivial⟩
  case objectMaxCardinality =>
    cases hk
    obtain ⟨_, _, rfl, ⟨x2, rfl⟩, _, ⟨rfl, rfl⟩, hop⟩ := ha
    rcases hop with rfl | ⟨_, rfl, x3, rfl, h3⟩
    · obtain rfl := Option.some.inj h
      exact ⟨.objCard .max u x2, rfl, ope_meets _, trivial⟩
    · obtain rfl := Option.some.inj h
      exact ⟨.objCardQ .max u x2 x3, rfl, ope_meets _, h3, trivial⟩
  case objectExactCardinality =>
    cases hk
    obtain ⟨_, _, rfl, ⟨x2, rfl⟩, _, ⟨rfl, rfl⟩, hop⟩ := ha
    rcases hop with rfl | ⟨_, rfl, x3, rfl, h3⟩
    · obtain rfl := Option.some.inj h
      exact ⟨.objCard .exact u x2, rfl, ope_meets _, trivial⟩
    · obtain rfl := Option.some.inj h
      exact ⟨.objCardQ .exact u x2 x3, rfl, ope_meets _, h3, trivial⟩
  case dataSomeValuesFrom =>
    cases hk
    obtain ⟨_, _, rfl, ⟨x1, rfl⟩, _, _, rfl, ⟨x2, rfl, h2⟩, rfl, rfl⟩ := ha
    obtain rfl := Option.some.inj h
    exact ⟨.dataSome x1 x2, (quant_data _ _ _).trans (by rw [CE.toObj]; rfl), trivial, h2⟩
  case dataAllValuesFrom =>
    cases hk
    obtain ⟨_, _, rfl, ⟨x1, rfl⟩, _, _, rfl, ⟨x2, rfl, h2⟩, rfl, rfl⟩ := ha
    obtain rfl := Option.some.inj h
    exact ⟨.dataAll x1 x2, (quant_data _ _ _).trans (by rw [CE.toObj]; rfl), trivial, h2⟩
  case dataHasValue =>
    cases hk
    obtain ⟨_, _, rfl, ⟨x1, rfl⟩, _, _, rfl, ⟨x2, rfl, h2⟩, rfl, rfl⟩ := ha
    obtain rfl := Option.some.inj h
    exact ⟨.dataHasValue x1 x2, rfl, trivial, h2⟩
  case dataMinCardinality =>
    cases hk
    obtain ⟨_, _, rfl, ⟨x2, rfl⟩, _, ⟨rfl, rfl⟩, hop⟩ := ha
    rcases hop with rfl | ⟨_, rfl, x3, rfl, h3⟩
    · obtain rfl := Option.some.inj h
      exact ⟨.dataCard .min u x2, rfl, trivial, trivial⟩
    · obtain rfl := Option.some.inj h
      exact ⟨.dataCardQ .min u x2 x3, rfl, trivial, h3, trivial⟩
  case dataMaxCardinality =>
    cases hk
    obtain ⟨_, _, rfl, ⟨x2, rfl⟩, _, ⟨rfl, rfl⟩, hop⟩ := ha
    rcases hop with rfl | ⟨_, rfl, x3, rfl, h3⟩
    · obtain rfl := Option.some.inj h
      exact ⟨.dataCard .max u x2, rfl, trivial, trivial⟩
    · obtain rfl := Option.some.inj h
      exact ⟨.dataCardQ .max u x2 x3, rfl, trivial, h3, trivial⟩
  case dataExactCardinality =>
    cases hk
    obtain ⟨_, _, rfl, ⟨x2, rfl⟩, _, ⟨rfl, rfl⟩, hop⟩ := ha
    rcases hop with rfl | ⟨_, rfl, x3, rfl, h3⟩
    · obtain rfl := Option.some.inj h
      exact ⟨.dataCard .exact u x2, rfl, trivial, trivial⟩
    · obtain rfl := Option.some.inj h
      exact ⟨.dataCardQ .exact u x2 x3, rfl, trivial, h3, trivial⟩
  case declaration =>
    cases hk
    obtain ⟨_, _, rfl, ⟨k1, x1, rfl⟩, rfl, rfl⟩ := ha
    obtain rfl := Option.some.inj h
    exact ax_typed (.decl k1 x1) (trivial) has
  case subClassOf =>
    cases hk
    obtain ⟨_, _, rfl, ⟨x1, rfl, h1⟩, _, _, rfl, ⟨x2, rfl, h2⟩, rfl, rfl⟩ := ha
    obtain rfl := Option.some.inj h
    exact ax_typed (.subClass x1 x2) ⟨h1, h2⟩ has
  case equivalentClasses =>
    cases hk
    obtain ⟨y1, _, rfl, g1, h1, rfl, rfl⟩ := ha
    obtain ⟨x1, rfl, m1, l1⟩ := all_ce h1
    obtain rfl := Option.some.inj h
    exact ax_typed (.equivClasses x1) ⟨l1 ▸ g1, m1⟩ has
  case disjointClasses =>
    cases hk
    obtain ⟨y1, _, rfl, g1, h1, rfl, rfl⟩ := ha
    obtain ⟨x1, rfl, m1, l1⟩ := all_ce h1
    obtain rfl := Option.some.inj h
    exact ax_typed (.disjClasses x1) ⟨l1 ▸ g1, m1⟩ has
  case disjointUnion =>
    cases hk
    obtain ⟨_, _, rfl, ⟨x1, rfl⟩, y2, _, rfl, g2, h2, rfl, rfl⟩ := ha
    obtain ⟨x2, rfl, m2, l2⟩ := all_ce h2
    obtain rfl := Option.some.inj h
    exact ax_typed (.disjUnion x1 x2) ⟨trivial, l2 ▸ g2, m2⟩ has
  case subObjectPropertyOf =>
    cases hk
    obtain ⟨_, _, rfl, ⟨x1, rfl, h1⟩, _, _, rfl, ⟨x2, rfl⟩, rfl, rfl⟩ := ha
    obtain rfl := Option.some.inj h
    exact ax_typed (.subObjProp x1 x2) ⟨h1, ope_meets _⟩ has
  case equivalentObjectProperties =>
    cases hk
    obtain ⟨y1, _, rfl, g1, h1, rfl, rfl⟩ := ha
    obtain ⟨x1, rfl⟩ := all_plain h1
    obtain rfl := Option.some.inj h
    exact ax_typed (.equivObjProp x1) ⟨len_map g1, fun i _ => ope_meets i⟩ has
  case disjointObjectProperties =>
    cases hk
    obtain ⟨y1, _, rfl, g1, h1, rfl, rfl⟩ := ha
    obtain ⟨x1, rfl⟩ := all_plain h1
    obtain rfl := Option.some.inj h
    exact ax_typed (.disjObjProp x1) ⟨len_map g1, fun i _ => ope_meets i⟩ has
  case inverseObjectProperties =>
    cases hk
    obtain ⟨_, _, rfl, ⟨x1, rfl⟩, _, _, rfl, ⟨x2, rfl⟩, rfl, rfl⟩ := ha
    obtain rfl := Option.some.inj h
    exact ax_typed (.invObjProp x1 x2) ⟨ope_meets _, ope_meets _⟩ has
  case objectPropertyDomain =>
    cases hk
    obtain ⟨_, _, rfl, ⟨x1, rfl⟩, _, _, rfl, ⟨x2, rfl, h2⟩, rfl, rfl⟩ := ha
    obtain rfl := Option.some.inj h
    exact ax_typed (.objPropDomain x1 x2) ⟨ope_meets _, h2⟩ has
  case objectPropertyRange =>
    cases hk
    obtain ⟨_, _, rfl, ⟨x1, rfl⟩, _, _, rfl, ⟨x2, rfl, h2⟩, rfl, rfl⟩ := ha
    obtain rfl := Option.some.inj h
    exact ax_typed (.objPropRange x1 x2) ⟨ope_meets _, h2⟩ has
  case functionalObjectProperty =>
    cases hk
    obtain ⟨_, _, rfl, ⟨x1, rfl⟩, rfl, rfl⟩ := ha
    obtain rfl := Option.some.inj h
    exact ax_typed (.objPropChar .func x1) (ope_meets _) has
  case inverseFunctionalObjectProperty =>
    cases hk
    obtain ⟨_, _, rfl, ⟨x1, rfl⟩, rfl, rfl⟩ := ha
    obtain rfl := Option.some.inj h
    exact ax_typed (.objPropChar .invFunc x1) (ope_meets _) has
  case reflexiveObjectProperty =>
    cases hk
    obtain ⟨_, _, rfl, ⟨x1, rfl⟩, rfl, rfl⟩ := ha
    obtain rfl := Option.some.inj h
    exact ax_typed (.objPropChar .refl x1) (ope_meets _) has
  case irreflexiveObjectProperty =>
    cases hk
    obtain ⟨_, _, rfl, ⟨x1, rfl⟩, rfl, rfl⟩ := ha
    obtain rfl := Option.some.inj h
    exact ax_typed (.objPropChar .irrefl x1) (ope_meets _) has
  case symmetricObjectProperty =>
    cases hk
    obtain ⟨_, _, rfl, ⟨x1, rfl⟩, rfl, rfl⟩ := ha
    obtain rfl := Option.some.inj h
    exact ax_typed (.objPropChar .symm x1) (ope_meets _) has
  case asymmetricObjectProperty =>
    cases hk
    obtain ⟨_, _, rfl, ⟨x1, rfl⟩, rfl, rfl⟩ := ha
    obtain rfl := Option.some.inj h
    exact ax_typed (.objPropChar .asymm x1) (ope_meets _) has
  case transitiveObjectProperty =>
    cases hk
    obtain ⟨_, _, rfl, ⟨x1, rfl⟩, rfl, rfl⟩ := ha
    obtain rfl := Option.some.inj h
    exact ax_typed (.objPropChar .trans x1) (ope_meets _) has
  case subDataPropertyOf =>
    cases hk
    obtain ⟨_, _, rfl, ⟨x1, rfl⟩, _, _, rfl, ⟨x2, rfl⟩, rfl, rfl⟩ := ha
    obtain rfl := Option.some.inj h
    exact ax_typed (.subDataProp x1 x2) ⟨trivial, trivial⟩ has
  case equivalentDataProperties =>
    cases hk
    obtain ⟨y1, _, rfl, g1, h1, rfl, rfl⟩ := ha
    obtain ⟨x1, rfl⟩ := all_plain h1
    obtain rfl := Option.some.inj h
    exact ax_typed (.equivDataProp x1) ⟨len_map g1, fun _ _ => trivial⟩ has
  case disjointDataProperties =>
    cases hk
    obtain ⟨y1, _, rfl, g1, h1, rfl, rfl⟩ := ha
    obtain ⟨x1, rfl⟩ := all_plain h1
    obtain rfl := Option.some.inj h
    exact ax_typed (.disjDataProp x1) ⟨len_map g1, fun _ _ => trivial⟩ has
  case dataPropertyDomain =>
    cases hk
    obtain ⟨_, _, rfl, ⟨x1, rfl⟩, _, _, rfl, ⟨x2, rfl, h2⟩, rfl, rfl⟩ := ha
    obtain rfl := Option.some.inj h
    exact ax_typed (.dataPropDomain x1 x2) ⟨trivial, h2⟩ has
  case dataPropertyRange =>
    cases hk
    obtain ⟨_, _, rfl, ⟨x1, rfl⟩, _, _, rfl, ⟨x2, rfl, h2⟩, rfl, rfl⟩ := ha
    obtain rfl := Option.some.inj h
    exact ax_typed (.dataPropRange x1 x2) ⟨trivial, h2⟩ has
  case functionalDataProperty =>
    cases hk
    obtain ⟨_, _, rfl, ⟨x1, rfl⟩, rfl, rfl⟩ := ha
    obtain rfl := Option.some.inj h
    exact ax_typed (.funcDataProp x1) (trivial) has
  case datatypeDefinition =>
    cases hk
    obtain ⟨_, _, rfl, ⟨x1, rfl⟩, _, _, rfl, ⟨x2, rfl, h2⟩, rfl, rfl⟩ := ha
    obtain rfl := Option.some.inj h
    exact ax_typed (.datatypeDef x1 x2) ⟨trivial, h2⟩ has
  case hasKey =>
    cases hk
    obtain ⟨_, _, rfl, ⟨x1, rfl, h1⟩, y2, _, rfl, h2, y3, _, rfl, h3, rfl, rfl⟩ := ha
    obtain ⟨x2, rfl⟩ := all_plain h2
    obtain ⟨x3, rfl⟩ := all_plain h3
    obtain rfl := Option.some.inj h
    exact ax_typed (.hasKey x1 x2 x3) ⟨h1, fun i _ => ope_meets i, fun _ _ => trivial, trivial, trivial⟩ has
  case sameIndividual =>
    cases hk
    obtain ⟨y1, _, rfl, g1, h1, rfl, rfl⟩ := ha
    obtain ⟨x1, rfl⟩ := all_plain h1
    obtain rfl := Option.some.inj h
    exact ax_typed (.sameInd x1) ⟨len_map g1, fun i _ => ind_meets i⟩ has
  case differentIndividuals =>
    cases hk
    obtain ⟨y1, _, rfl, g1, h1, rfl, rfl⟩ := ha
    obtain ⟨x1, rfl⟩ := all_plain h1
    obtain rfl := Option.some.inj h
    exact ax_typed (.diffInd x1) ⟨len_map g1, fun i _ => ind_meets i⟩ has
  case classAssertion =>
    cases hk
    obtain ⟨_, _, rfl, ⟨x1, rfl, h1⟩, _, _, rfl, ⟨x2, rfl⟩, rfl, rfl⟩ := ha
    obtain rfl := Option.some.inj h
    exact ax_typed (.classAssert x1 x2) ⟨h1, ind_meets _⟩ has
  case objectPropertyAssertion =>
    cases hk
    obtain ⟨_, _, rfl, ⟨x1, rfl⟩, _, _, rfl, ⟨x2, rfl⟩, _, _, rfl, ⟨x3, rfl⟩, rfl, rfl⟩ := ha
    obtain rfl := Option.some.inj h
    exact ax_typed (.objPropAssert x1 x2 x3) ⟨ope_meets _, ind_meets _, ind_meets _⟩ has
  case negativeObjectPropertyAssertion =>
    cases hk
    obtain ⟨_, _, rfl, ⟨x1, rfl⟩, _, _, rfl, ⟨x2, rfl⟩, _, _, rfl, ⟨x3, rfl⟩, rfl, rfl⟩ := ha
    obtain rfl := Option.some.inj h
    exact ax_typed (.negObjPropAssert x1 x2 x3) ⟨ope_meets _, ind_meets _, ind_meets _⟩ has
  case dataPropertyAssertion =>
    cases hk
    obtain ⟨_, _, rfl, ⟨x1, rfl⟩, _, _, rfl, ⟨x2, rfl⟩, _, _, rfl, ⟨x3, rfl, h3⟩, rfl, rfl⟩ := ha
    obtain rfl := Option.some.inj h
    exact ax_typed (.dataPropAssert x1 x2 x3) ⟨trivial, ind_meets _, h3⟩ has
  case negativeDataPropertyAssertion =>
    cases hk
    obtain ⟨_, _, rfl, ⟨x1, rfl⟩, _, _, rfl, ⟨x2, rfl⟩, _, _, rfl, ⟨x3, rfl, h3⟩, rfl, rfl⟩ := ha
    obtain rfl := Option.some.inj h
    exact ax_typed (.negDataPropAssert x1 x2 x3) ⟨trivial, ind_meets _, h3⟩ has
  case annotation =>
    cases hk
    obtain ⟨_, _, rfl, ⟨x1, rfl⟩, _, _, rfl, ⟨x2, rfl, h2⟩, rfl, rfl⟩ := ha
    obtain rfl := Option.some.inj h
    obtain ⟨ds, rfl, hd⟩ := all_annot has
    exact ⟨.mk x1 x2 ds, annot_obj _ _ _, trivial, h2, hd, trivial⟩
  case annotationAssertion =>
    cases hk
    obtain ⟨_, _, rfl, ⟨x1, rfl⟩, _, _, rfl, ⟨x2, rfl⟩, _, _, rfl, ⟨x3, rfl, h3⟩, rfl, rfl⟩ := ha
    obtain rfl := Option.some.inj h
    exact ax_typed (.annotAssert x1 x2 x3) ⟨trivial, subj_meets _, h3⟩ has
  case subAnnotationPropertyOf =>
    cases hk
    obtain ⟨_, _, rfl, ⟨x1, rfl⟩, _, _, rfl, ⟨x2, rfl⟩, rfl, rfl⟩ := ha
    obtain rfl := Option.some.inj h
    exact ax_typed (.subAnnotProp x1 x2) ⟨trivial, trivial⟩ has
  case annotationPropertyDomain =>
    cases hk
    obtain ⟨_, _, rfl, ⟨x1, rfl⟩, _, _, rfl, ⟨x2, rfl⟩, rfl, rfl⟩ := ha
    obtain rfl := Option.some.inj h
    exact ax_typed (.annotPropDomain x1 x2) ⟨trivial, trivial⟩ has
  case annotationPropertyRange =>
    cases hk
    obtain ⟨_, _, rfl, ⟨x1, rfl⟩, _, _, rfl, ⟨x2, rfl⟩, rfl, rfl⟩ := ha
    obtain rfl := Option.some.inj h
    exact ax_typed (.annotPropRange x1 x2) ⟨trivial, trivial⟩ has

theorem parseConstruct_typed {p : Parser} (hp : TypedP p) {n : Nat} {c : Cat} {ts rest : List Tok} {o : Obj}
    (h : parseConstruct p n c ts = some (o, rest)) : Typed c o := by
  rw [Func.parseConstruct.eq_def] at h
  split at h
  · rename_i k ts
    split at h
    · rename_i pr hk
      split at h
      · rename_i hc
        subst hc
        obtain ⟨⟨as, ts1⟩, h1, h⟩ := Option.bind_eq_some_iff.1 h
        obtain ⟨⟨r, ts2⟩, h2, h⟩ := Option.bind_eq_some_iff.1 h
        dsimp only at h
        split at h
        · obtain ⟨o', h3, h⟩ := Option.map_eq_some_iff.1 h
          cases h
          obtain ⟨g1, g2⟩ := parseArgs_typed hp h2
          refine build_typed hk g1 g2 ?_ h3
          unfold Func.parseAnnotsIf at h1
          split at h1
          · exact parseAnnots_typed hp h1
          · cases h1; exact nofun
        · cases h
      · cases h
    · cases h
  · cases h

theorem parseExp_typed {m : PMap} {p : Parser} (hp : TypedP p) {n : Nat} {c : Cat} {k : EntKind} (hc : ∀ i, Typed c (ent k i))
    {ts rest : List Tok} {o : Obj} (h : parseExp m p n c k ts = some (o, rest)) : Typed c o := by
  rw [Func.parseExp.eq_def] at h
  split at h
  · exact parseConstruct_typed hp h
  · obtain ⟨i, -, h⟩ := Option.map_eq_some_iff.1 h
    cases h; exact hc i
  · cases h

theorem parseStep_typed {m : PMap} {p : Parser} (hp : TypedP p) {n : Nat} : TypedP (parseStep m p n) := by
  intro c ts o rest h
  unfold parseStep at h
  split at h
  · obtain ⟨i, -, h⟩ := Option.map_eq_some_iff.1 h
    cases h; exact ⟨i, rfl⟩
  · obtain ⟨i, -, h⟩ := Option.map_eq_some_iff.1 h
    cases h; exact ⟨i, rfl⟩
  · rcases readAnonOr_typed h with ⟨s, rfl⟩ | ⟨i, rfl⟩
    · exact ⟨.anon s, rfl⟩
    · exact ⟨.named i, rfl⟩
  · exact readLit_typed h
  · exact parseExp_typed (c := .ope) (k := .objProp) hp (fun i => ⟨.prop i, rfl⟩) h
  · exact parseExp_typed (c := .dr) (k := .datatype) hp (fun i => ⟨.dt i, rfl, trivial⟩) h
  · exact parseExp_typed (c := .ce) (k := .cls) hp (fun i => ⟨.cls i, rfl, trivial⟩) h
  · obtain ⟨i, -, h⟩ := Option.bind_eq_some_iff.1 h
    obtain ⟨⟨l, ts1⟩, h1, h⟩ := Option.bind_eq_some_iff.1 h
    cases h
    obtain ⟨l, rfl, hl⟩ := readLit_typed h1
    exact ⟨(i, l), rfl, hl⟩
  · obtain ⟨l, rfl, hl⟩ := readLit_typed h
    exact ⟨.lit l, rfl, hl⟩
  · rcases readAnonOr_typed h with ⟨s, rfl⟩ | ⟨i, rfl⟩
    · exact ⟨.anon s, rfl, trivial⟩
    · exact ⟨.iri i, rfl, trivial⟩
  · rcases readAnonOr_typed h with ⟨s, rfl⟩ | ⟨i, rfl⟩
    · exact ⟨.anon s, rfl⟩
    · exact ⟨.iri i, rfl⟩
  · obtain ⟨e, -, h⟩ := Option.bind_eq_some_iff.1 h
    obtain ⟨i, -, h⟩ := Option.bind_eq_some_iff.1 h
    cases h; exact ⟨e, i, rfl⟩
  · obtain ⟨⟨xs, ts1⟩, h1, h⟩ := Option.bind_eq_some_iff.1 h
    dsimp only at h
    split at h
    · cases h
    · split at h
      · cases h
        obtain ⟨ps, rfl⟩ := all_plain (parseMany_typed hp h1)
        refine ⟨.chain ps, rfl, ?_, fun p _ => ope_meets p⟩
        rename_i hn
        rw [List.length_map] at hn
        exact Nat.le_of_not_lt hn
      · cases h
  · obtain ⟨p, rfl⟩ := hp _ _ _ _ h
    exact ⟨.ope p, rfl, ope_meets p, trivial⟩
  · exact parseConstruct_typed hp h
  · exact parseConstruct_typed hp h
  · cases h

theorem parseCat_typed {m : PMap} : ∀ n, TypedP (parseCat m n)
  | 0 => nofun
  | n + 1 => parseStep_typed (parseCat_typed n)

end Cowl.Ast
