import Verif.HeardSpec
import Verif.SaysLemmas
import Verif.TypedLemmas
/-! # Lemmas: what is read is spelled by the text -/
namespace Cowl.Says
open Ast XmlSpec FuncSpec
open Func (Cat Arg Tok Parser Parsed Kw Item readIri readLit readAnonOr parseMany parseAnnots parseArgs parseConstruct parseExp parseStep parseCat)

set_option linter.unusedSimpArgs false

variable {W : Ways} {ns : Str → Option Str} {m : Prefix.PMap}

/-! ## Spellings -/

theorem spelt_add : ∀ {xs ys : List Sym} {us vs : List Tok}, Spelt W ns xs us → Spelt W ns ys vs → Spelt W ns (xs ++ ys) (us ++ vs)
  | _, _, _, _, .nil, h => h
  | _, _, _, _, .tok h1, h => .tok (spelt_add h1 h)
  | _, _, _, _, .iri hi h1, h => .iri hi (spelt_add h1 h)
  | _, _, _, _, .lit hl h1, h => by rw [List.append_assoc]; exact .lit hl (spelt_add h1 h)

theorem put {xs ys : List Sym} {us : List Tok} (h : Spelt W ns xs us) (e : ys = xs) : Spelt W ns ys us := e ▸ h

theorem mk_paren {xs : List Sym} {us : List Tok} (h : Spelt W ns xs us) : Spelt W ns (paren xs) (.lpar :: (us ++ [.rpar])) :=
  .tok (spelt_add h (.tok .nil))

theorem mk_form {k : Kw} {xs : List Sym} {us : List Tok} (h : Spelt W ns xs us) :
    Spelt W ns (form k xs) (.kw k :: .lpar :: (us ++ [.rpar])) := .tok (mk_paren h)

/-- No language tag is empty. -/
def Fine (ts : List Tok) : Prop := ∀ t ∈ ts, t ≠ .lang []

theorem Fine.tail {t : Tok} {ts : List Tok} (h : Fine (t :: ts)) : Fine ts := fun u hu => h u (.tail _ hu)
theorem Fine.right {us ts : List Tok} (h : Fine (us ++ ts)) : Fine ts := fun u hu => h u (List.mem_append_right _ hu)

/-! ## Categories -/

/-- The tokens spell a part that is the object. -/
def Is (ns : Str → Option Str) {α : Type} (f : α → Obj) (M : α → Prop) (g : α → List Sym) (us : List Tok) (o : Obj) : Prop :=
  ∃ x, o = f x ∧ M x ∧ Spelt lax ns (g x) us

/-- The tokens spell a part of the nonterminal that is the object. -/
def T (ns : Str → Option Str) : Cat → List Tok → Obj → Prop
  | .iri => Is ns (fun i => .prim (.iri i)) counts.iri (fun i => [.iri i])
  | .ent k => Is ns (Ast.ent k) counts.iri (fun i => [.iri i])
  | .ind => Is ns Ind.toObj (Ind.Meets counts) indForm
  | .lit => Is ns Lit.toObj counts.lit (fun l => [.lit l])
  | .ope => Is ns Ope.toObj (Ope.Meets counts) opeForm
  | .dr => Is ns DR.toObj (DR.Meets counts) drForm
  | .ce => Is ns CE.toObj (CE.Meets counts) ceForm
  | .facet => Is ns facetObj (fun f => counts.iri f.1 ∧ counts.lit f.2) facetForm
  | .annotVal => Is ns AnnotVal.toObj (AnnotVal.Meets counts) valForm
  | .annotSubj => Is ns AnnotSubj.toObj (AnnotSubj.Meets counts) subjForm
  | .annotation => Is ns Annot.toObj (Annot.Meets counts) annotForm
  | .entity => Is ns (fun e : EntKind × Iri => Ast.ent e.1 e.2) (fun e => counts.iri e.2) (fun e => form (entKw e.1) [.iri e.2])
  | .subOpe => Is ns SubOpe.toObj (SubOpe.Meets counts) subForm
  | .ax => Is ns Axiom.toObj (Axiom.Meets counts) axiomForm

/-- What a parser returns is spelled by the tokens it takes. -/
def Heard (ns : Str → Option Str) (p : Parser) : Prop := ∀ c ts o rest, Fine ts → p c ts = some (o, rest) →
  ∃ us, ts = us ++ rest ∧ T ns c us o

/-- As `T`, one after another. -/
def Many (P : List Tok → Obj → Prop) : List Tok → List Obj → Prop
  | us, [] => us = []
  | us, x :: xs => ∃ a b, us = a ++ b ∧ P a x ∧ Many P b xs

theorem many_is {α : Type} {f : α → Obj} {M : α → Prop} {g : α → List Sym} : ∀ {us : List Tok} {xs : List Obj}, Many (Is ns f M g) us xs →
    ∃ ys : List α, xs = ys.map f ∧ (∀ y ∈ ys, M y) ∧ xs.length = ys.length ∧ Spelt lax ns (ys.flatMap g) us
  | _, [], h => by cases h; exact ⟨[], rfl, nofun, rfl, .nil⟩
  | _, x :: xs, h => by
    obtain ⟨a, b, rfl, ⟨y, rfl, h1, h2⟩, h3⟩ := h
    obtain ⟨ys, rfl, h4, h5, h6⟩ := many_is h3
    exact ⟨y :: ys, rfl, fun z hz => (List.mem_cons.1 hz).elim (fun e => e ▸ h1) (h4 z), by simp, by
      rw [List.flatMap_cons]; exact spelt_add h2 h6⟩

theorem many_dr : ∀ {us : List Tok} {xs : List Obj}, Many (T ns .dr) us xs →
    ∃ ys : List DR, xs = DR.toObjs ys ∧ DR.AllMeet counts ys ∧ xs.length = ys.length ∧ Spelt lax ns (drForms ys) us
  | _, [], h => by cases h; exact ⟨[], rfl, trivial, rfl, .nil⟩
  | _, x :: xs, h => by
    obtain ⟨a, b, rfl, ⟨y, rfl, h1, h2⟩, h3⟩ := h
    obtain ⟨ys, h0, h4, h5, h6⟩ := many_dr h3
    exact ⟨y :: ys, by rw [DR.toObjs, ← h0], ⟨h1, h4⟩, by simp [h5], by rw [drForms]; exact spelt_add h2 h6⟩

theorem many_ce : ∀ {us : List Tok} {xs : List Obj}, Many (T ns .ce) us xs →
    ∃ ys : List CE, xs = CE.toObjs ys ∧ CE.AllMeet counts ys ∧ xs.length = ys.length ∧ Spelt lax ns (ceForms ys) us
  | _, [], h => by cases h; exact ⟨[], rfl, trivial, rfl, .nil⟩
  | _, x :: xs, h => by
    obtain ⟨a, b, rfl, ⟨y, rfl, h1, h2⟩, h3⟩ := h
    obtain ⟨ys, h0, h4, h5, h6⟩ := many_ce h3
    exact ⟨y :: ys, by rw [CE.toObjs, ← h0], ⟨h1, h4⟩, by simp [h5], by rw [ceForms]; exact spelt_add h2 h6⟩

theorem many_annot : ∀ {us : List Tok} {xs : List Obj}, Many (T ns .annotation) us xs →
    ∃ ys : List Annot, xs = Annot.toObjs ys ∧ Annot.AllMeet counts ys ∧ xs.length = ys.length ∧ Spelt lax ns (annotForms ys) us
  | _, [], h => by cases h; exact ⟨[], rfl, trivial, rfl, .nil⟩
  | _, x :: xs, h => by
    obtain ⟨a, b, rfl, ⟨y, rfl, h1, h2⟩, h3⟩ := h
    obtain ⟨ys, h0, h4, h5, h6⟩ := many_annot h3
    exact ⟨y :: ys, by rw [Annot.toObjs, ← h0], ⟨h1, h4⟩, by simp [h5], by rw [annotForms]; exact spelt_add h2 h6⟩

/-! ## Leaves -/

theorem iri_heard {t : Tok} {i : Iri} (h : readIri m t = some i) : Names lax m.getNs i t := by
  rw [Func.readIri.eq_def] at h
  split at h
  · rename_i s
    obtain ⟨⟨a, b⟩, h1, rfl⟩ := Option.map_eq_some_iff.1 h
    have hne : s ≠ [] := by rintro rfl; rw [C02_empty] at h1; cases h1
    obtain ⟨a', b', e, hs⟩ := C02_split s hne
    rw [e] at h1
    cases h1
    have : s = a ++ b := hs.1
    rw [this]
    exact .full
  · rename_i s
    split at h
    · rename_i q hq
      cases h
      by_cases hc : 58 ∈ s
      · obtain ⟨p, l, rfl, hp⟩ := List.eq_append_cons_of_mem hc
        have h1 := parseShort_colon m l hp
        rw [show p ++ Prefix.colon :: l = p ++ 58 :: l from rfl, hq] at h1
        obtain ⟨n, hn, rfl⟩ := Option.map_eq_some_iff.1 (Option.some.inj h1).symm
        exact .short p l n hp hn (C03_lossless n l).symm trivial
      · unfold Prefix.PMap.parseShortIri at hq
        rw [indexOf_absent Prefix.colon _ hc] at hq
        simp only [Nat.lt_irrefl, if_false] at hq
        split at hq <;> cases hq
    · cases h
  · cases h

theorem spelt_one {t : Tok} {i : Iri} (h : readIri m t = some i) : Spelt lax m.getNs [.iri i] [t] := .iri (iri_heard h) .nil

theorem last_of_mem {c : UInt8} {s : Str} (h : c ∈ s) : ∃ a b, s = a ++ c :: b ∧ c ∉ b := by
  obtain ⟨a, b, e, hn⟩ := List.eq_append_cons_of_mem (List.mem_reverse.2 h)
  refine ⟨b.reverse, a.reverse, ?_, fun hm => hn (List.mem_reverse.1 hm)⟩
  have := congrArg List.reverse e
  simpa using this

theorem lit_heard {ts rest : List Tok} {o : Obj} (hf : Fine ts) (h : readLit m ts = some (o, rest)) :
    ∃ us, ts = us ++ rest ∧ T m.getNs .lit us o := by
  have fin : ∀ {l : Lit} {us : List Tok}, Literal lax m.getNs l us → T m.getNs .lit us l.toObj := fun {l us} hl =>
    ⟨l, rfl, trivial, by have := Spelt.lit hl .nil; rwa [List.append_nil] at this⟩
  rw [Func.readLit.eq_def] at h
  split at h
  · rename_i v t ts
    obtain ⟨i, hi, h⟩ := Option.bind_eq_some_iff.1 h
    split at h
    · rename_i v' t' e
      cases h
      refine ⟨[_, _, _], rfl, ?_⟩
      refine fin (l := ⟨v', t'⟩) ?_
      unfold Cowl.literal at e
      dsimp only at e
      split at e
      · rename_i hl
        unfold literalParseLang at e
        dsimp only at e
        split at e
        · cases e
        · rename_i hlen
          by_cases hc : 64 ∈ v
          · obtain ⟨w, l, rfl, hl2⟩ := last_of_mem hc
            rw [indexOfLast_append w hl2] at e hlen
            rw [Nat.add_sub_cancel, List.take_left, ← List.drop_drop, List.drop_left] at e
            cases e
            have hne : l ≠ [] := by
              rintro rfl
              simp at hlen
            simp only [isLangDatatype, Bool.or_eq_true, beq_iff_eq] at hl
            rcases hl with rfl | rfl
            · exact .langString _ l _ hne hl2 (iri_heard hi) trivial
            · exact .plain _ l _ hne hl2 (iri_heard hi)
          · have : indexOfLast v 64 = v.length := by
              unfold indexOfLast
              rw [List.findIdx?_eq_none_iff.2]
              intro x hx
              have : x ≠ 64 := by rintro rfl; exact hc (List.mem_reverse.1 hx)
              simpa using this
            rw [this] at hlen
            omega
      · rename_i hl
        cases e
        simp only [isLangDatatype, Bool.or_eq_true, beq_iff_eq, not_or] at hl
        exact .typed _ _ _ hl.1 hl.2 trivial (iri_heard hi)
    · cases h
  · cases h
  · rename_i v l ts
    split at h
    · rename_i v' t' e
      cases h
      refine ⟨[_, _], rfl, fin (l := ⟨v', t'⟩) ?_⟩
      have hl : l ≠ [] := fun e => hf (.lang l) (.tail _ (.head _)) (by rw [e])
      unfold Cowl.literal literalLang at e
      dsimp only at e
      rw [if_neg (by simpa using hl)] at e
      cases e
      exact .lang _ _ hl
    · cases h
  · split at h
    · rename_i v' t' e
      cases h
      refine ⟨[_], rfl, fin (l := ⟨v', t'⟩) ?_⟩
      cases e
      exact .string _
    · cases h
  · cases h

theorem anon_heard {f : Iri → Obj} {ts rest : List Tok} {o : Obj} (h : readAnonOr m f ts = some (o, rest)) :
    (∃ s, ts = .blank s :: rest ∧ o = .prim (.anon s)) ∨ ∃ t i, ts = t :: rest ∧ o = f i ∧ Spelt lax m.getNs [.iri i] [t] := by
  rw [Func.readAnonOr.eq_def] at h
  split at h
  · cases h; exact .inl ⟨_, rfl, rfl⟩
  · obtain ⟨i, hi, h⟩ := Option.map_eq_some_iff.1 h
    cases h; exact .inr ⟨_, i, rfl, rfl, spelt_one hi⟩
  · cases h

/-! ## Lists and arguments -/

theorem parseMany_heard {p : Parser} (hp : Heard ns p) {c : Cat} : ∀ {n : Nat} {ts rest : List Tok} {xs : List Obj}, Fine ts →
    parseMany p c n ts = some (xs, rest) → ∃ us, ts = us ++ rest ∧ Many (T ns c) us xs
  | 0, _, _, _, _, h => by cases h
  | n + 1, ts, rest, xs, hf, h => by
    rw [Func.parseMany.eq_def] at h
    dsimp only at h
    split at h
    · cases h; exact ⟨[], rfl, rfl⟩
    · obtain ⟨⟨x, ts1⟩, h1, h⟩ := Option.bind_eq_some_iff.1 h
      obtain ⟨⟨ys, ts2⟩, h2, h⟩ := Option.bind_eq_some_iff.1 h
      cases h
      obtain ⟨a, rfl, g1⟩ := hp _ _ _ _ hf h1
      obtain ⟨b, e, g2⟩ := parseMany_heard hp hf.right h2
      subst e
      exact ⟨a ++ b, (List.append_assoc ..).symm, a, b, rfl, g1, g2⟩

theorem parseAnnots_heard {p : Parser} (hp : Heard ns p) : ∀ {n : Nat} {ts rest : List Tok} {xs : List Obj}, Fine ts →
    parseAnnots p n ts = some (xs, rest) → ∃ us, ts = us ++ rest ∧ Many (T ns .annotation) us xs
  | 0, _, _, _, _, h => by cases h
  | n + 1, ts, rest, xs, hf, h => by
    rw [Func.parseAnnots.eq_def] at h
    dsimp only at h
    split at h
    · obtain ⟨⟨x, ts1⟩, h1, h⟩ := Option.bind_eq_some_iff.1 h
      obtain ⟨⟨ys, ts2⟩, h2, h⟩ := Option.bind_eq_some_iff.1 h
      cases h
      obtain ⟨a, e1, g1⟩ := hp _ _ _ _ hf h1
      rw [e1] at hf ⊢
      obtain ⟨b, e, g2⟩ := parseAnnots_heard hp hf.right h2
      subst e
      exact ⟨a ++ b, (List.append_assoc ..).symm, a, b, rfl, g1, g2⟩
    · cases h; exact ⟨[], rfl, rfl⟩

/-- Arguments: tokens, fields, the optional one, and the number. -/
def Args' (ns : Str → Option Str) : List Arg → List Tok → List Obj → Option Obj → Nat → Prop
  | [], us, fs, o, _ => us = [] ∧ fs = [] ∧ o = none
  | .one c :: as, us, fs, o, u => ∃ x fs' a b, us = a ++ b ∧ fs = x :: fs' ∧ T ns c a x ∧ Args' ns as b fs' o u
  | .many c k :: as, us, fs, o, u =>
    ∃ xs fs' a b, us = a ++ b ∧ fs = .vec false xs :: fs' ∧ k ≤ xs.length ∧ Many (T ns c) a xs ∧ Args' ns as b fs' o u
  | .opt c :: as, us, fs, o, u => Args' ns as us fs o u ∨ ∃ x o' a b, us = a ++ b ∧ o = some x ∧ T ns c a x ∧ Args' ns as b fs o' u
  | .group c :: as, us, fs, o, u =>
    ∃ xs fs' a b, us = (.lpar :: (a ++ [.rpar])) ++ b ∧ fs = .vec false xs :: fs' ∧ Many (T ns c) a xs ∧ Args' ns as b fs' o u
  | .card :: as, us, fs, o, u => ∃ (n : UInt32) (b : List Tok) (u' : Nat), us = .nat n :: b ∧ u = n.toNat ∧ Args' ns as b fs o u'

theorem parseArgs_heard {p : Parser} (hp : Heard ns p) {n : Nat} : ∀ {as : List Arg} {ts rest : List Tok} {r : Parsed}, Fine ts →
    parseArgs p n as ts = some (r, rest) → ∃ us, ts = us ++ rest ∧ Args' ns as us r.fields r.opt r.uint
  | [], _, _, _, _, h => by cases h; exact ⟨[], rfl, rfl, rfl, rfl⟩
  | .one c :: as, ts, rest, r, hf, h => by
    obtain ⟨⟨x, ts1⟩, h1, h⟩ := Option.bind_eq_some_iff.1 h
    obtain ⟨⟨r', ts2⟩, h2, h⟩ := Option.bind_eq_some_iff.1 h
    cases h
    obtain ⟨a, rfl, g1⟩ := hp _ _ _ _ hf h1
    obtain ⟨b, e, g2⟩ := parseArgs_heard hp hf.right h2
    subst e
    exact ⟨a ++ b, (List.append_assoc ..).symm, x, _, a, b, rfl, rfl, g1, g2⟩
  | .many c k :: as, ts, rest, r, hf, h => by
    obtain ⟨⟨xs, ts1⟩, h1, h⟩ := Option.bind_eq_some_iff.1 h
    dsimp only at h
    split at h
    · cases h
    · rename_i hk
      obtain ⟨⟨r', ts2⟩, h2, h⟩ := Option.bind_eq_some_iff.1 h
      cases h
      obtain ⟨a, rfl, g1⟩ := parseMany_heard hp hf h1
      obtain ⟨b, e, g2⟩ := parseArgs_heard hp hf.right h2
      subst e
      exact ⟨a ++ b, (List.append_assoc ..).symm, xs, _, a, b, rfl, rfl, by omega, g1, g2⟩
  | .opt c :: as, ts, rest, r, hf, h => by
    rw [Func.parseArgs.eq_def] at h
    dsimp only at h
    split at h
    · obtain ⟨b, e, g⟩ := parseArgs_heard hp hf h
      exact ⟨b, e, .inl g⟩
    · obtain ⟨⟨x, ts1⟩, h1, h⟩ := Option.bind_eq_some_iff.1 h
      obtain ⟨⟨r', ts2⟩, h2, h⟩ := Option.bind_eq_some_iff.1 h
      cases h
      obtain ⟨a, rfl, g1⟩ := hp _ _ _ _ hf h1
      obtain ⟨b, e, g2⟩ := parseArgs_heard hp hf.right h2
      subst e
      exact ⟨a ++ b, (List.append_assoc ..).symm, .inr ⟨x, _, a, b, rfl, rfl, g1, g2⟩⟩
  | .group c :: as, ts, rest, r, hf, h => by
    rw [Func.parseArgs.eq_def] at h
    dsimp only at h
    split at h
    · obtain ⟨⟨xs, ts1⟩, h1, h⟩ := Option.bind_eq_some_iff.1 h
      dsimp only at h
      split at h
      · obtain ⟨⟨r', ts2⟩, h2, h⟩ := Option.bind_eq_some_iff.1 h
        cases h
        obtain ⟨a, rfl, g1⟩ := parseMany_heard hp hf.tail h1
        obtain ⟨b, e, g2⟩ := parseArgs_heard hp hf.tail.right.tail h2
        subst e
        exact ⟨(.lpar :: (a ++ [.rpar])) ++ b, by simp, xs, _, a, b, rfl, rfl, g1, g2⟩
      · cases h
    · cases h
  | .card :: as, ts, rest, r, hf, h => by
    rw [Func.parseArgs.eq_def] at h
    dsimp only at h
    split at h
    · rename_i u ts
      obtain ⟨⟨r', ts2⟩, h2, h⟩ := Option.bind_eq_some_iff.1 h
      cases h
      obtain ⟨b, e, g2⟩ := parseArgs_heard hp hf.tail h2
      subst e
      exact ⟨.nat u :: b, rfl, u, b, _, rfl, rfl, g2⟩
    · cases h

/-! ## Constructs -/

theorem ax_is {k : Kw} {a us : List Tok} (x : Ax) (hx : x.Meets counts) (hk : (axForm x).1 = k) (hs : Spelt lax ns (axForm x).2 us)
    {as : List Obj} (has : Many (T ns .annotation) a as) :
    T ns .ax (.kw k :: .lpar :: ((a ++ us) ++ [.rpar])) (getImplAnnot x.type x.fields (if as = [] then none else some (false, as))) := by
  obtain ⟨ds, rfl, hd, -, hds⟩ := many_annot has
  subst hk
  exact ⟨⟨x, ds⟩, annot_obj _ _ _, ⟨hx, hd, trivial⟩, mk_form (spelt_add hds hs)⟩

/-- What an action of the grammar builds. -/
theorem build_heard {k : Kw} {pr : Func.Prod} (hk : Func.prod k = some pr) {r : Parsed} {a us : List Tok}
    (ha : Args' ns pr.args us r.fields r.opt r.uint) {as : List Obj} (has : Many (T ns .annotation) a as)
    (hann : pr.annotated = false → as = [] ∧ a = []) {o : Obj} (h : Func.build pr.type pr.annotated as r = some o) :
    T ns pr.cat (.kw k :: .lpar :: ((a ++ us) ++ [.rpar])) o := by
  obtain ⟨fs, un, op⟩ := r
  cases k <;> first | (cases hk; done) | skip
  case objectInverseOf =>
    cases hk
    obtain ⟨_, _, _, _, rfl, rfl, ⟨x1, rfl, m1, s1⟩, rfl, rfl, rfl⟩ := ha
    obtain ⟨rfl, rfl⟩ := hann rfl
    obtain rfl := Option.some.inj h
    have hs0 := (spelt_add s1 (Spelt.nil (W := lax) (ns := ns)))
    exact ⟨.inv x1, rfl, m1, mk_form (put hs0 (by simp [axForm, paren, map_flatMap]))⟩
  case dataIntersectionOf =>
    cases hk
    obtain ⟨y1, _, _, _, rfl, rfl, g1, h1, rfl, rfl, rfl⟩ := ha
    obtain ⟨x1, rfl, m1, l1, s1⟩ := many_dr h1
    obtain ⟨rfl, rfl⟩ := hann rfl
    obtain rfl := Option.some.inj h
    have hs0 := (spelt_add s1 (Spelt.nil (W := lax) (ns := ns)))
    exact ⟨.inter x1, rfl, ⟨l1 ▸ g1, m1⟩, mk_form (put hs0 (by simp [axForm, paren, map_flatMap]))⟩
  case dataUnionOf =>
    cases hk
    obtain ⟨y1, _, _, _, rfl, rfl, g1, h1, rfl, rfl, rfl⟩ := ha
    obtain ⟨x1, rfl, m1, l1, s1⟩ := many_dr h1
    obtain ⟨rfl, rfl⟩ := hann rfl
    obtain rfl := Option.some.inj h
    have hs0 := (spelt_add s1 (Spelt.nil (W := lax) (ns := ns)))
    exact ⟨.union x1, rfl, ⟨l1 ▸ g1, m1⟩, mk_form (put hs0 (by simp [axForm, paren, map_flatMap]))⟩
  case dataComplementOf =>
    cases hk
    obtain ⟨_, _, _, _, rfl, rfl, ⟨x1, rfl, m1, s1⟩, rfl, rfl, rfl⟩ := ha
    obtain ⟨rfl, rfl⟩ := hann rfl
    obtain rfl := Option.some.inj h
    have hs0 := (spelt_add s1 (Spelt.nil (W := lax) (ns := ns)))
    exact ⟨.compl x1, rfl, m1, mk_form (put hs0 (by simp [axForm, paren, map_flatMap]))⟩
  case dataOneOf =>
    cases hk
    obtain ⟨y1, _, _, _, rfl, rfl, g1, h1, rfl, rfl, rfl⟩ := ha
    obtain ⟨x1, rfl, m1, l1, s1⟩ := many_is h1
    obtain ⟨rfl, rfl⟩ := hann rfl
    obtain rfl := Option.some.inj h
    have hs0 := (spelt_add s1 (Spelt.nil (W := lax) (ns := ns)))
    exact ⟨.oneOf x1, rfl, ⟨l1 ▸ g1, m1⟩, mk_form (put hs0 (by simp [axForm, paren, map_flatMap]))⟩
  case datatypeRestriction =>
    cases hk
    obtain ⟨_, _, _, _, rfl, rfl, ⟨x1, rfl, m1, s1⟩, y2, _, _, _, rfl, rfl, g2, h2, rfl, rfl, rfl⟩ := ha
    obtain ⟨x2, rfl, m2, l2, s2⟩ := many_is h2
    obtain ⟨rfl, rfl⟩ := hann rfl
    obtain rfl := Option.some.inj h
    have hs0 := (spelt_add s1 (spelt_add s2 (Spelt.nil (W := lax) (ns := ns))))
    exact ⟨.restr x1 x2, rfl, ⟨m1, l2 ▸ g2, m2⟩, mk_form (put hs0 (by simp [axForm, paren, map_flatMap]))⟩
  case objectIntersectionOf =>
    cases hk
    obtain ⟨y1, _, _, _, rfl, rfl, g1, h1, rfl, rfl, rfl⟩ := ha
    obtain ⟨x1, rfl, m1, l1, s1⟩ := many_ce h1
    obtain ⟨rfl, rfl⟩ := hann rfl
    obtain rfl := Option.some.inj h
    have hs0 := (spelt_add s1 (Spelt.nil (W := lax) (ns := ns)))
    exact ⟨.inter x1, rfl, ⟨l1 ▸ g1, m1⟩, mk_form (put hs0 (by simp [axForm, paren, map_flatMap]))⟩
  case objectUnionOf =>
    cases hk
    obtain ⟨y1, _, _, _, rfl, rfl, g1, h1, rfl, rfl, rfl⟩ := ha
    obtain ⟨x1, rfl, m1, l1, s1⟩ := many_ce h1
    obtain ⟨rfl, rfl⟩ := hann rfl
    obtain rfl := Option.some.inj h
    have hs0 := (spelt_add s1 (Spelt.nil (W := lax) (ns := ns)))
    exact ⟨.union x1, rfl, ⟨l1 ▸ g1, m1⟩, mk_form (put hs0 (by simp [axForm, paren, map_flatMap]))⟩
  case objectComplementOf =>
    cases hk
    obtain ⟨_, _, _, _, rfl, rfl, ⟨x1, rfl, m1, s1⟩, rfl, rfl, rfl⟩ := ha
    obtain ⟨rfl, rfl⟩ := hann rfl
    obtain rfl := Option.some.inj h
    have hs0 := (spelt_add s1 (Spelt.nil (W := lax) (ns := ns)))
    exact ⟨.compl x1, rfl, m1, mk_form (put hs0 (by simp [axForm, paren, map_flatMap]))⟩
  case objectOneOf =>
    cases hk
    obtain ⟨y1, _, _, _, rfl, rfl, g1, h1, rfl, rfl, rfl⟩ := ha
    obtain ⟨x1, rfl, m1, l1, s1⟩ := many_is h1
    obtain ⟨rfl, rfl⟩ := hann rfl
    obtain rfl := Option.some.inj h
    have hs0 := (spelt_add s1 (Spelt.nil (W := lax) (ns := ns)))
    exact ⟨.oneOf x1, rfl, ⟨l1 ▸ g1, m1⟩, mk_form (put hs0 (by simp [axForm, paren, map_flatMap]))⟩
  case objectSomeValuesFrom =>
    cases hk
    obtain ⟨_, _, _, _, rfl, rfl, ⟨x1, rfl, m1, s1⟩, _, _, _, _, rfl, rfl, ⟨x2, rfl, m2, s2⟩, rfl, rfl, rfl⟩ := ha
    obtain ⟨rfl, rfl⟩ := hann rfl
    obtain rfl := Option.some.inj h
    have hs0 := (spelt_add s1 (spelt_add s2 (Spelt.nil (W := lax) (ns := ns))))
    exact ⟨.objSome x1 x2, (quant_obj _ _ _).trans (by rw [CE.toObj]; rfl), ⟨m1, m2⟩, mk_form (put hs0 (by simp [axForm, paren, map_flatMap]))⟩
  case objectAllValuesFrom =>
    cases hk
    obtain ⟨_, _, _, _, rfl, rfl, ⟨x1, rfl, m1, s1⟩, _, _, _, _, rfl, rfl, ⟨x2, rfl, m2, s2⟩, rfl, rfl, rfl⟩ := ha
    obtain ⟨rfl, rfl⟩ := hann rfl
    obtain rfl := Option.some.inj h
    have hs0 := (spelt_add s1 (spelt_add s2 (Spelt.nil (W := lax) (ns := ns))))
    exact ⟨.objAll x1 x2, (quant_obj _ _ _).trans (by rw [CE.toObj]; rfl), ⟨m1, m2⟩, mk_form (put hs0 (by simp [axForm, paren, map_flatMap]))⟩
  case objectHasValue =>
    cases hk
    obtain ⟨_, _, _, _, rfl, rfl, ⟨x1, rfl, m1, s1⟩, _, _, _, _, rfl, rfl, ⟨x2, rfl, m2, s2⟩, rfl, rfl, rfl⟩ := ha
    obtain ⟨rfl, rfl⟩ := hann rfl
    obtain rfl := Option.some.inj h
    have hs0 := (spelt_add s1 (spelt_add s2 (Spelt.nil (W := lax) (ns := ns))))
    exact ⟨.objHasValue x1 x2, rfl, ⟨m1, m2⟩, mk_form (put hs0 (by simp [axForm, paren, map_flatMap]))⟩
  case objectHasSelf =>
    cases hk
    obtain ⟨_, _, _, _, rfl, rfl, ⟨x1, rfl, m1, s1⟩, rfl, rfl, rfl⟩ := ha
    obtain ⟨rfl, rfl⟩ := hann rfl
    obtain rfl := Option.some.inj h
    have hs0 := (spelt_add s1 (Spelt.nil (W := lax) (ns := ns)))
    exact ⟨.objHasSelf x1, rfl, m1, mk_form (put hs0 (by simp [axForm, paren, map_flatMap]))⟩
  case objectMinCardinality =>
    cases hk
    obtain ⟨n0, _, _, rfl, hu, _, _, _, _, rfl, rfl, ⟨x2, rfl, m2, s2⟩, hop⟩ := ha
    obtain ⟨rfl, rfl⟩ := hann rfl
    rcases hop with ⟨rfl, rfl, rfl⟩ | ⟨_, _, _, _, rfl, rfl, ⟨x3, rfl, m3, s3⟩, rfl, rfl, _⟩
    · obtain rfl := Option.some.inj h
      subst hu
      have hs0 := (Spelt.tok (t := .nat n0) (spelt_add s2 (Spelt.nil (W := lax) (ns := ns))))
      exact ⟨.objCard .min n0 x2, rfl, ⟨m2, trivial⟩, mk_form (put hs0 (by simp [axForm, paren, map_flatMap]))⟩
    · obtain rfl := Option.some.inj h
      subst hu
      have hs0 := (Spelt.tok (t := .nat n0) (spelt_add s2 (spelt_add s3 (Spelt.nil (W := lax) (ns := ns)))))
      exact ⟨.objCardQ .min n0 x2 x3, rfl, ⟨m2, m3, trivial⟩, mk_form (put hs0 (by simp [axForm, paren, map_flatMap]))⟩
  case objectMaxCardinality =>
    cases hk
    obtain ⟨n0, _, _, rfl, hu, _, _, _, _, rfl, rfl, ⟨x2, rfl, m2, s2⟩, hop⟩ := ha
    obtain ⟨rfl, rfl⟩ := hann rfl
    rcases hop with ⟨rfl, rfl, rfl⟩ | ⟨_, _, _, _, rfl, rfl, ⟨x3, rfl, m3, s3⟩, rfl, rfl, _⟩
    · obtain rfl := Option.some.inj h
      subst hu
      have hs0 := (Spelt.tok (t := .nat n0) (spelt_add s2 (Spelt.nil (W := lax) (ns := ns))))
      exact ⟨.objCard .max n0 x2, rfl, ⟨m2, trivial⟩, mk_form (put hs0 (by simp [axForm, paren, map_flatMap]))⟩
    · obtain rfl := Option.some.inj h
      subst hu
      have hs0 := (Spelt.tok (t := .nat n0) (spelt_add s2 (spelt_add s3 (Spelt.nil (W := lax) (ns := ns)))))
      exact ⟨.objCardQ .max n0 x2 x3, rfl, ⟨m2, m3, trivial⟩, mk_form (put hs0 (by simp [axForm, paren, map_flatMap]))⟩
  case objectExactCardinality =>
    cases hk
    obtain ⟨n0, _, _, rfl, hu, _, _, _, _, rfl, rfl, ⟨x2, rfl, m2, s2⟩, hop⟩ := ha
    obtain ⟨rfl, rfl⟩ := hann rfl
    rcases hop with ⟨rfl, rfl, rfl⟩ | ⟨_, _, _, _, rfl, rfl, ⟨x3, rfl, m3, s3⟩, rfl, rfl, _⟩
    · obtain rfl := Option.some.inj h
      subst hu
      have hs0 := (Spelt.tok (t := .nat n0) (spelt_add s2 (Spelt.nil (W := lax) (ns := ns))))
      exact ⟨.objCard .exact n0 x2, rfl, ⟨m2, trivial⟩, mk_form (put hs0 (by simp [axForm, paren, map_flatMap]))⟩
    · obtain rfl := Option.some.inj h
      subst hu
      have hs0 := (Spelt.tok (t := .nat n0) (spelt_add s2 (spelt_add s3 (Spelt.nil (W := lax) (ns := ns)))))
      exact ⟨.objCardQ .exact n0 x2 x3, rfl, ⟨m2, m3, trivial⟩, mk_form (put hs0 (by simp [axForm, paren, map_flatMap]))⟩
  case dataSomeValuesFrom =>
    cases hk
    obtain ⟨_, _, _, _, rfl, rfl, ⟨x1, rfl, m1, s1⟩, _, _, _, _, rfl, rfl, ⟨x2, rfl, m2, s2⟩, rfl, rfl, rfl⟩ := ha
    obtain ⟨rfl, rfl⟩ := hann rfl
    obtain rfl := Option.some.inj h
    have hs0 := (spelt_add s1 (spelt_add s2 (Spelt.nil (W := lax) (ns := ns))))
    exact ⟨.dataSome x1 x2, (quant_data _ _ _).trans (by rw [CE.toObj]; rfl), ⟨m1, m2⟩, mk_form (put hs0 (by simp [axForm, paren, map_flatMap]))⟩
  case dataAllValuesFrom =>
    cases hk
    obtain ⟨_, _, _, _, rfl, rfl, ⟨x1, rfl, m1, s1⟩, _, _, _, _, rfl, rfl, ⟨x2, rfl, m2, s2⟩, rfl, rfl, rfl⟩ := ha
    obtain ⟨rfl, rfl⟩ := hann rfl
    obtain rfl := Option.some.inj h
    have hs0 := (spelt_add s1 (spelt_add s2 (Spelt.nil (W := lax) (ns := ns))))
    exact ⟨.dataAll x1 x2, (quant_data _ _ _).trans (by rw [CE.toObj]; rfl), ⟨m1, m2⟩, mk_form (put hs0 (by simp [axForm, paren, map_flatMap]))⟩
  case dataHasValue =>
    cases hk
    obtain ⟨_, _, _, _, rfl, rfl, ⟨x1, rfl, m1, s1⟩, _, _, _, _, rfl, rfl, ⟨x2, rfl, m2, s2⟩, rfl, rfl, rfl⟩ := ha
    obtain ⟨rfl, rfl⟩ := hann rfl
    obtain rfl := Option.some.inj h
    have hs0 := (spelt_add s1 (spelt_add s2 (Spelt.nil (W := lax) (ns := ns))))
    exact ⟨.dataHasValue x1 x2, rfl, ⟨m1, m2⟩, mk_form (put hs0 (by simp [axForm, paren, map_flatMap]))⟩
  case dataMinCardinality =>
    cases hk
    obtain ⟨n0, _, _, rfl, hu, _, _, _, _, rfl, rfl, ⟨x2, rfl, m2, s2⟩, hop⟩ := ha
    obtain ⟨rfl, rfl⟩ := hann rfl
    rcases hop with ⟨rfl, rfl, rfl⟩ | ⟨_, _, _, _, rfl, rfl, ⟨x3, rfl, m3, s3⟩, rfl, rfl, _⟩
    · obtain rfl := Option.some.inj h
      subst hu
      have hs0 := (Spelt.tok (t := .nat n0) (spelt_add s2 (Spelt.nil (W := lax) (ns := ns))))
      exact ⟨.dataCard .min n0 x2, rfl, ⟨m2, trivial⟩, mk_form (put hs0 (by simp [axForm, paren, map_flatMap]))⟩
    · obtain rfl := Option.some.inj h
      subst hu
      have hs0 := (Spelt.tok (t := .nat n0) (spelt_add s2 (spelt_add s3 (Spelt.nil (W := lax) (ns := ns)))))
      exact ⟨.dataCardQ .min n0 x2 x3, rfl, ⟨m2, m3, trivial⟩, mk_form (put hs0 (by simp [axForm, paren, map_flatMap]))⟩
  case dataMaxCardinality =>
    cases hk
    obtain ⟨n0, _, _, rfl, hu, _, _, _, _, rfl, rfl, ⟨x2, rfl, m2, s2⟩, hop⟩ := ha
    obtain ⟨rfl, rfl⟩ := hann rfl
    rcases hop with ⟨rfl, rfl, rfl⟩ | ⟨_, _, _, _, rfl, rfl, ⟨x3, rfl, m3, s3⟩, rfl, rfl, _⟩
    · obtain rfl := Option.some.inj h
      subst hu
      have hs0 := (Spelt.tok (t := .nat n0) (spelt_add s2 (Spelt.nil (W := lax) (ns := ns))))
      exact ⟨.dataCard .max n0 x2, rfl, ⟨m2, trivial⟩, mk_form (put hs0 (by simp [axForm, paren, map_flatMap]))⟩
    · obtain rfl := Option.some.inj h
      subst hu
      have hs0 := (Spelt.tok (t := .nat n0) (spelt_add s2 (spelt_add s3 (Spelt.nil (W := lax) (ns := ns)))))
      exact ⟨.dataCardQ .max n0 x2 x3, rfl, ⟨m2, m3, trivial⟩, mk_form (put hs0 (by simp [axForm, paren, map_flatMap]))⟩
  case dataExactCardinality =>
    cases hk
    obtain ⟨n0, _, _, rfl, hu, _, _, _, _, rfl, rfl, ⟨x2, rfl, m2, s2⟩, hop⟩ := ha
    obtain ⟨rfl, rfl⟩ := hann rfl
    rcases hop with ⟨rfl, rfl, rfl⟩ | ⟨_, _, _, _, rfl, rfl, ⟨x3, rfl, m3, s3⟩, rfl, rfl, _⟩
    · obtain rfl := Option.some.inj h
      subst hu
      have hs0 := (Spelt.tok (t := .nat n0) (spelt_add s2 (Spelt.nil (W := lax) (ns := ns))))
      exact ⟨.dataCard .exact n0 x2, rfl, ⟨m2, trivial⟩, mk_form (put hs0 (by simp [axForm, paren, map_flatMap]))⟩
    · obtain rfl := Option.some.inj h
      subst hu
      have hs0 := (Spelt.tok (t := .nat n0) (spelt_add s2 (spelt_add s3 (Spelt.nil (W := lax) (ns := ns)))))
      exact ⟨.dataCardQ .exact n0 x2 x3, rfl, ⟨m2, m3, trivial⟩, mk_form (put hs0 (by simp [axForm, paren, map_flatMap]))⟩
  case declaration =>
    cases hk
    obtain ⟨_, _, _, _, rfl, rfl, ⟨x1, rfl, m1, s1⟩, rfl, rfl, rfl⟩ := ha
    obtain rfl := Option.some.inj h
    have hs0 := (spelt_add s1 (Spelt.nil (W := lax) (ns := ns)))
    exact ax_is (.decl x1.1 x1.2) m1 rfl (put hs0 (by simp [axForm, paren, map_flatMap])) has
  case subClassOf =>
    cases hk
    obtain ⟨_, _, _, _, rfl, rfl, ⟨x1, rfl, m1, s1⟩, _, _, _, _, rfl, rfl, ⟨x2, rfl, m2, s2⟩, rfl, rfl, rfl⟩ := ha
    obtain rfl := Option.some.inj h
    have hs0 := (spelt_add s1 (spelt_add s2 (Spelt.nil (W := lax) (ns := ns))))
    exact ax_is (.subClass x1 x2) ⟨m1, m2⟩ rfl (put hs0 (by simp [axForm, paren, map_flatMap])) has
  case equivalentClasses =>
    cases hk
    obtain ⟨y1, _, _, _, rfl, rfl, g1, h1, rfl, rfl, rfl⟩ := ha
    obtain ⟨x1, rfl, m1, l1, s1⟩ := many_ce h1
    obtain rfl := Option.some.inj h
    have hs0 := (spelt_add s1 (Spelt.nil (W := lax) (ns := ns)))
    exact ax_is (.equivClasses x1) ⟨l1 ▸ g1, m1⟩ rfl (put hs0 (by simp [axForm, paren, map_flatMap])) has
  case disjointClasses =>
    cases hk
    obtain ⟨y1, _, _, _, rfl, rfl, g1, h1, rfl, rfl, rfl⟩ := ha
    obtain ⟨x1, rfl, m1, l1, s1⟩ := many_ce h1
    obtain rfl := Option.some.inj h
    have hs0 := (spelt_add s1 (Spelt.nil (W := lax) (ns := ns)))
    exact ax_is (.disjClasses x1) ⟨l1 ▸ g1, m1⟩ rfl (put hs0 (by simp [axForm, paren, map_flatMap])) has
  case disjointUnion =>
    cases hk
    obtain ⟨_, _, _, _, rfl, rfl, ⟨x1, rfl, m1, s1⟩, y2, _, _, _, rfl, rfl, g2, h2, rfl, rfl, rfl⟩ := ha
    obtain ⟨x2, rfl, m2, l2, s2⟩ := many_ce h2
    obtain rfl := Option.some.inj h
    have hs0 := (spelt_add s1 (spelt_add s2 (Spelt.nil (W := lax) (ns := ns))))
    exact ax_is (.disjUnion x1 x2) ⟨m1, l2 ▸ g2, m2⟩ rfl (put hs0 (by simp [axForm, paren, map_flatMap])) has
  case subObjectPropertyOf =>
    cases hk
    obtain ⟨_, _, _, _, rfl, rfl, ⟨x1, rfl, m1, s1⟩, _, _, _, _, rfl, rfl, ⟨x2, rfl, m2, s2⟩, rfl, rfl, rfl⟩ := ha
    obtain rfl := Option.some.inj h
    have hs0 := (spelt_add s1 (spelt_add s2 (Spelt.nil (W := lax) (ns := ns))))
    exact ax_is (.subObjProp x1 x2) ⟨m1, m2⟩ rfl (put hs0 (by simp [axForm, paren, map_flatMap])) has
  case equivalentObjectProperties =>
    cases hk
    obtain ⟨y1, _, _, _, rfl, rfl, g1, h1, rfl, rfl, rfl⟩ := ha
    obtain ⟨x1, rfl, m1, l1, s1⟩ := many_is h1
    obtain rfl := Option.some.inj h
    have hs0 := (spelt_add s1 (Spelt.nil (W := lax) (ns := ns)))
    exact ax_is (.equivObjProp x1) ⟨l1 ▸ g1, m1⟩ rfl (put hs0 (by simp [axForm, paren, map_flatMap])) has
  case disjointObjectProperties =>
    cases hk
    obtain ⟨y1, _, _, _, rfl, rfl, g1, h1, rfl, rfl, rfl⟩ := ha
    obtain ⟨x1, rfl, m1, l1, s1⟩ := many_is h1
    obtain rfl := Option.some.inj h
    have hs0 := (spelt_add s1 (Spelt.nil (W := lax) (ns := ns)))
    exact ax_is (.disjObjProp x1) ⟨l1 ▸ g1, m1⟩ rfl (put hs0 (by simp [axForm, paren, map_flatMap])) has
  case inverseObjectProperties =>
    cases hk
    obtain ⟨_, _, _, _, rfl, rfl, ⟨x1, rfl, m1, s1⟩, _, _, _, _, rfl, rfl, ⟨x2, rfl, m2, s2⟩, rfl, rfl, rfl⟩ := ha
    obtain rfl := Option.some.inj h
    have hs0 := (spelt_add s1 (spelt_add s2 (Spelt.nil (W := lax) (ns := ns))))
    exact ax_is (.invObjProp x1 x2) ⟨m1, m2⟩ rfl (put hs0 (by simp [axForm, paren, map_flatMap])) has
  case objectPropertyDomain =>
    cases hk
    obtain ⟨_, _, _, _, rfl, rfl, ⟨x1, rfl, m1, s1⟩, _, _, _, _, rfl, rfl, ⟨x2, rfl, m2, s2⟩, rfl, rfl, rfl⟩ := ha
    obtain rfl := Option.some.inj h
    have hs0 := (spelt_add s1 (spelt_add s2 (Spelt.nil (W := lax) (ns := ns))))
    exact ax_is (.objPropDomain x1 x2) ⟨m1, m2⟩ rfl (put hs0 (by simp [axForm, paren, map_flatMap])) has
  case objectPropertyRange =>
    cases hk
    obtain ⟨_, _, _, _, rfl, rfl, ⟨x1, rfl, m1, s1⟩, _, _, _, _, rfl, rfl, ⟨x2, rfl, m2, s2⟩, rfl, rfl, rfl⟩ := ha
    obtain rfl := Option.some.inj h
    have hs0 := (spelt_add s1 (spelt_add s2 (Spelt.nil (W := lax) (ns := ns))))
    exact ax_is (.objPropRange x1 x2) ⟨m1, m2⟩ rfl (put hs0 (by simp [axForm, paren, map_flatMap])) has
  case functionalObjectProperty =>
    cases hk
    obtain ⟨_, _, _, _, rfl, rfl, ⟨x1, rfl, m1, s1⟩, rfl, rfl, rfl⟩ := ha
    obtain rfl := Option.some.inj h
    have hs0 := (spelt_add s1 (Spelt.nil (W := lax) (ns := ns)))
    exact ax_is (.objPropChar .func x1) m1 rfl (put hs0 (by simp [axForm, paren, map_flatMap])) has
  case inverseFunctionalObjectProperty =>
    cases hk
    obtain ⟨_, _, _, _, rfl, rfl, ⟨x1, rfl, m1, s1⟩, rfl, rfl, rfl⟩ := ha
    obtain rfl := Option.some.inj h
    have hs0 := (spelt_add s1 (Spelt.nil (W := lax) (ns := ns)))
    exact ax_is (.objPropChar .invFunc x1) m1 rfl (put hs0 (by simp [axForm, paren, map_flatMap])) has
  case reflexiveObjectProperty =>
    cases hk
    obtain ⟨_, _, _, _, rfl, rfl, ⟨x1, rfl, m1, s1⟩, rfl, rfl, rfl⟩ := ha
    obtain rfl := Option.some.inj h
    have hs0 := (spelt_add s1 (Spelt.nil (W := lax) (ns := ns)))
    exact ax_is (.objPropChar .refl x1) m1 rfl (put hs0 (by simp [axForm, paren, map_flatMap])) has
  case irreflexiveObjectProperty =>
    cases hk
    obtain ⟨_, _, _, _, rfl, rfl, ⟨x1, rfl, m1, s1⟩, rfl, rfl, rfl⟩ := ha
    obtain rfl := Option.some.inj h
    have hs0 := (spelt_add s1 (Spelt.nil (W := lax) (ns := ns)))
    exact ax_is (.objPropChar .irrefl x1) m1 rfl (put hs0 (by simp [axForm, paren, map_flatMap])) has
  case symmetricObjectProperty =>
    cases hk
    obtain ⟨_, _, _, _, rfl, rfl, ⟨x1, rfl, m1, s1⟩, rfl, rfl, rfl⟩ := ha
    obtain rfl := Option.some.inj h
    have hs0 := (spelt_add s1 (Spelt.nil (W := lax) (ns := ns)))
    exact ax_is (.objPropChar .symm x1) m1 rfl (put hs0 (by simp [axForm, paren, map_flatMap])) has
  case asymmetricObjectProperty =>
    cases hk
    obtain ⟨_, _, _, _, rfl, rfl, ⟨x1, rfl, m1, s1⟩, rfl, rfl, rfl⟩ := ha
    obtain rfl := Option.some.inj h
    have hs0 := (spelt_add s1 (Spelt.nil (W := lax) (ns := ns)))
    exact ax_is (.objPropChar .asymm x1) m1 rfl (put hs0 (by simp [axForm, paren, map_flatMap])) has
  case transitiveObjectProperty =>
    cases hk
    obtain ⟨_, _, _, _, rfl, rfl, ⟨x1, rfl, m1, s1⟩, rfl, rfl, rfl⟩ := ha
    obtain rfl := Option.some.inj h
    have hs0 := (spelt_add s1 (Spelt.nil (W := lax) (ns := ns)))
    exact ax_is (.objPropChar .trans x1) m1 rfl (put hs0 (by simp [axForm, paren, map_flatMap])) has
  case subDataPropertyOf =>
    cases hk
    obtain ⟨_, _, _, _, rfl, rfl, ⟨x1, rfl, m1, s1⟩, _, _, _, _, rfl, rfl, ⟨x2, rfl, m2, s2⟩, rfl, rfl, rfl⟩ := ha
    obtain rfl := Option.some.inj h
    have hs0 := (spelt_add s1 (spelt_add s2 (Spelt.nil (W := lax) (ns := ns))))
    exact ax_is (.subDataProp x1 x2) ⟨m1, m2⟩ rfl (put hs0 (by simp [axForm, paren, map_flatMap])) has
  case equivalentDataProperties =>
    cases hk
    obtain ⟨y1, _, _, _, rfl, rfl, g1, h1, rfl, rfl, rfl⟩ := ha
    obtain ⟨x1, rfl, m1, l1, s1⟩ := many_is h1
    obtain rfl := Option.some.inj h
    have hs0 := (spelt_add s1 (Spelt.nil (W := lax) (ns := ns)))
    exact ax_is (.equivDataProp x1) ⟨l1 ▸ g1, m1⟩ rfl (put hs0 (by simp [axForm, paren, map_flatMap])) has
  case disjointDataProperties =>
    cases hk
    obtain ⟨y1, _, _, _, rfl, rfl, g1, h1, rfl, rfl, rfl⟩ := ha
    obtain ⟨x1, rfl, m1, l1, s1⟩ := many_is h1
    obtain rfl := Option.some.inj h
    have hs0 := (spelt_add s1 (Spelt.nil (W := lax) (ns := ns)))
    exact ax_is (.disjDataProp x1) ⟨l1 ▸ g1, m1⟩ rfl (put hs0 (by simp [axForm, paren, map_flatMap])) has
  case dataPropertyDomain =>
    cases hk
    obtain ⟨_, _, _, _, rfl, rfl, ⟨x1, rfl, m1, s1⟩, _, _, _, _, rfl, rfl, ⟨x2, rfl, m2, s2⟩, rfl, rfl, rfl⟩ := ha
    obtain rfl := Option.some.inj h
    have hs0 := (spelt_add s1 (spelt_add s2 (Spelt.nil (W := lax) (ns := ns))))
    exact ax_is (.dataPropDomain x1 x2) ⟨m1, m2⟩ rfl (put hs0 (by simp [axForm, paren, map_flatMap])) has
  case dataPropertyRange =>
    cases hk
    obtain ⟨_, _, _, _, rfl, rfl, ⟨x1, rfl, m1, s1⟩, _, _, _, _, rfl, rfl, ⟨x2, rfl, m2, s2⟩, rfl, rfl, rfl⟩ := ha
    obtain rfl := Option.some.inj h
    have hs0 := (spelt_add s1 (spelt_add s2 (Spelt.nil (W := lax) (ns := ns))))
    exact ax_is (.dataPropRange x1 x2) ⟨m1, m2⟩ rfl (put hs0 (by simp [axForm, paren, map_flatMap])) has
  case functionalDataProperty =>
    cases hk
    obtain ⟨_, _, _, _, rfl, rfl, ⟨x1, rfl, m1, s1⟩, rfl, rfl, rfl⟩ := ha
    obtain rfl := Option.some.inj h
    have hs0 := (spelt_add s1 (Spelt.nil (W := lax) (ns := ns)))
    exact ax_is (.funcDataProp x1) m1 rfl (put hs0 (by simp [axForm, paren, map_flatMap])) has
  case datatypeDefinition =>
    cases hk
    obtain ⟨_, _, _, _, rfl, rfl, ⟨x1, rfl, m1, s1⟩, _, _, _, _, rfl, rfl, ⟨x2, rfl, m2, s2⟩, rfl, rfl, rfl⟩ := ha
    obtain rfl := Option.some.inj h
    have hs0 := (spelt_add s1 (spelt_add s2 (Spelt.nil (W := lax) (ns := ns))))
    exact ax_is (.datatypeDef x1 x2) ⟨m1, m2⟩ rfl (put hs0 (by simp [axForm, paren, map_flatMap])) has
  case hasKey =>
    cases hk
    obtain ⟨_, _, _, _, rfl, rfl, ⟨x1, rfl, m1, s1⟩, y2, _, _, _, rfl, rfl, h2, y3, _, _, _, rfl, rfl, h3, rfl, rfl, rfl⟩ := ha
    obtain ⟨x2, rfl, m2, l2, s2⟩ := many_is h2
    obtain ⟨x3, rfl, m3, l3, s3⟩ := many_is h3
    obtain rfl := Option.some.inj h
    have hs0 := (spelt_add s1 (spelt_add (mk_paren s2) (spelt_add (mk_paren s3) (Spelt.nil (W := lax) (ns := ns)))))
    exact ax_is (.hasKey x1 x2 x3) ⟨m1, m2, m3, trivial, trivial⟩ rfl (put hs0 (by simp [axForm, paren, map_flatMap])) has
  case sameIndividual =>
    cases hk
    obtain ⟨y1, _, _, _, rfl, rfl, g1, h1, rfl, rfl, rfl⟩ := ha
    obtain ⟨x1, rfl, m1, l1, s1⟩ := many_is h1
    obtain rfl := Option.some.inj h
    have hs0 := (spelt_add s1 (Spelt.nil (W := lax) (ns := ns)))
    exact ax_is (.sameInd x1) ⟨l1 ▸ g1, m1⟩ rfl (put hs0 (by simp [axForm, paren, map_flatMap])) has
  case differentIndividuals =>
    cases hk
    obtain ⟨y1, _, _, _, rfl, rfl, g1, h1, rfl, rfl, rfl⟩ := ha
    obtain ⟨x1, rfl, m1, l1, s1⟩ := many_is h1
    obtain rfl := Option.some.inj h
    have hs0 := (spelt_add s1 (Spelt.nil (W := lax) (ns := ns)))
    exact ax_is (.diffInd x1) ⟨l1 ▸ g1, m1⟩ rfl (put hs0 (by simp [axForm, paren, map_flatMap])) has
  case classAssertion =>
    cases hk
    obtain ⟨_, _, _, _, rfl, rfl, ⟨x1, rfl, m1, s1⟩, _, _, _, _, rfl, rfl, ⟨x2, rfl, m2, s2⟩, rfl, rfl, rfl⟩ := ha
    obtain rfl := Option.some.inj h
    have hs0 := (spelt_add s1 (spelt_add s2 (Spelt.nil (W := lax) (ns := ns))))
    exact ax_is (.classAssert x1 x2) ⟨m1, m2⟩ rfl (put hs0 (by simp [axForm, paren, map_flatMap])) has
  case objectPropertyAssertion =>
    cases hk
    obtain ⟨_, _, _, _, rfl, rfl, ⟨x1, rfl, m1, s1⟩, _, _, _, _, rfl, rfl, ⟨x2, rfl, m2, s2⟩, _, _, _, _, rfl, rfl, ⟨x3, rfl, m3, s3⟩, rfl, rfl, rfl⟩ := ha
    obtain rfl := Option.some.inj h
    have hs0 := (spelt_add s1 (spelt_add s2 (spelt_add s3 (Spelt.nil (W := lax) (ns := ns)))))
    exact ax_is (.objPropAssert x1 x2 x3) ⟨m1, m2, m3⟩ rfl (put hs0 (by simp [axForm, paren, map_flatMap])) has
  case negativeObjectPropertyAssertion =>
    cases hk
    obtain ⟨_, _, _, _, rfl, rfl, ⟨x1, rfl, m1, s1⟩, _, _, _, _, rfl, rfl, ⟨x2, rfl, m2, s2⟩, _, _, _, _, rfl, rfl, ⟨x3, rfl, m3, s3⟩, rfl, rfl, rfl⟩ := ha
    obtain rfl := Option.some.inj h
    have hs0 := (spelt_add s1 (spelt_add s2 (spelt_add s3 (Spelt.nil (W := lax) (ns := ns)))))
    exact ax_is (.negObjPropAssert x1 x2 x3) ⟨m1, m2, m3⟩ rfl (put hs0 (by simp [axForm, paren, map_flatMap])) has
  case dataPropertyAssertion =>
    cases hk
    obtain ⟨_, _, _, _, rfl, rfl, ⟨x1, rfl, m1, s1⟩, _, _, _, _, rfl, rfl, ⟨x2, rfl, m2, s2⟩, _, _, _, _, rfl, rfl, ⟨x3, rfl, m3, s3⟩, rfl, rfl, rfl⟩ := ha
    obtain rfl := Option.some.inj h
    have hs0 := (spelt_add s1 (spelt_add s2 (spelt_add s3 (Spelt.nil (W := lax) (ns := ns)))))
    exact ax_is (.dataPropAssert x1 x2 x3) ⟨m1, m2, m3⟩ rfl (put hs0 (by simp [axForm, paren, map_flatMap])) has
  case negativeDataPropertyAssertion =>
    cases hk
    obtain ⟨_, _, _, _, rfl, rfl, ⟨x1, rfl, m1, s1⟩, _, _, _, _, rfl, rfl, ⟨x2, rfl, m2, s2⟩, _, _, _, _, rfl, rfl, ⟨x3, rfl, m3, s3⟩, rfl, rfl, rfl⟩ := ha
    obtain rfl := Option.some.inj h
    have hs0 := (spelt_add s1 (spelt_add s2 (spelt_add s3 (Spelt.nil (W := lax) (ns := ns)))))
    exact ax_is (.negDataPropAssert x1 x2 x3) ⟨m1, m2, m3⟩ rfl (put hs0 (by simp [axForm, paren, map_flatMap])) has
  case annotation =>
    cases hk
    obtain ⟨_, _, _, _, rfl, rfl, ⟨x1, rfl, m1, s1⟩, _, _, _, _, rfl, rfl, ⟨x2, rfl, m2, s2⟩, rfl, rfl, rfl⟩ := ha
    obtain rfl := Option.some.inj h
    obtain ⟨ds, rfl, hd, -, hs⟩ := many_annot has
    have hs0 := (spelt_add hs (spelt_add s1 (spelt_add s2 (Spelt.nil (W := lax) (ns := ns)))))
    exact ⟨.mk x1 x2 ds, annot_obj _ _ _, ⟨m1, m2, hd, trivial⟩, mk_form (put hs0 (by simp))⟩
  case annotationAssertion =>
    cases hk
    obtain ⟨_, _, _, _, rfl, rfl, ⟨x1, rfl, m1, s1⟩, _, _, _, _, rfl, rfl, ⟨x2, rfl, m2, s2⟩, _, _, _, _, rfl, rfl, ⟨x3, rfl, m3, s3⟩, rfl, rfl, rfl⟩ := ha
    obtain rfl := Option.some.inj h
    have hs0 := (spelt_add s1 (spelt_add s2 (spelt_add s3 (Spelt.nil (W := lax) (ns := ns)))))
    exact ax_is (.annotAssert x1 x2 x3) ⟨m1, m2, m3⟩ rfl (put hs0 (by simp [axForm, paren, map_flatMap])) has
  case subAnnotationPropertyOf =>
    cases hk
    obtain ⟨_, _, _, _, rfl, rfl, ⟨x1, rfl, m1, s1⟩, _, _, _, _, rfl, rfl, ⟨x2, rfl, m2, s2⟩, rfl, rfl, rfl⟩ := ha
    obtain rfl := Option.some.inj h
    have hs0 := (spelt_add s1 (spelt_add s2 (Spelt.nil (W := lax) (ns := ns))))
    exact ax_is (.subAnnotProp x1 x2) ⟨m1, m2⟩ rfl (put hs0 (by simp [axForm, paren, map_flatMap])) has
  case annotationPropertyDomain =>
    cases hk
    obtain ⟨_, _, _, _, rfl, rfl, ⟨x1, rfl, m1, s1⟩, _, _, _, _, rfl, rfl, ⟨x2, rfl, m2, s2⟩, rfl, rfl, rfl⟩ := ha
    obtain rfl := Option.some.inj h
    have hs0 := (spelt_add s1 (spelt_add s2 (Spelt.nil (W := lax) (ns := ns))))
    exact ax_is (.annotPropDomain x1 x2) ⟨m1, m2⟩ rfl (put hs0 (by simp [axForm, paren, map_flatMap])) has
  case annotationPropertyRange =>
    cases hk
    obtain ⟨_, _, _, _, rfl, rfl, ⟨x1, rfl, m1, s1⟩, _, _, _, _, rfl, rfl, ⟨x2, rfl, m2, s2⟩, rfl, rfl, rfl⟩ := ha
    obtain rfl := Option.some.inj h
    have hs0 := (spelt_add s1 (spelt_add s2 (Spelt.nil (W := lax) (ns := ns))))
    exact ax_is (.annotPropRange x1 x2) ⟨m1, m2⟩ rfl (put hs0 (by simp [axForm, paren, map_flatMap])) has

theorem parseConstruct_heard {p : Parser} (hp : Heard ns p) {n : Nat} {c : Cat} {ts rest : List Tok} {o : Obj} (hf : Fine ts)
    (h : parseConstruct p n c ts = some (o, rest)) : ∃ us, ts = us ++ rest ∧ T ns c us o := by
  rw [Func.parseConstruct.eq_def] at h
  split at h
  · rename_i k ts
    split at h
    · rename_i pr hk
      split at h
      · rename_i hc
        subst hc
        obtain ⟨⟨as, ts1⟩, h1, h⟩ := Option.bind_eq_some_iff.1 h
        obtain ⟨⟨r, ts2⟩, h2, h⟩ := Option.bind_eq_some_iff.1 h
        dsimp only at h
        split at h
        · obtain ⟨o', h3, h⟩ := Option.map_eq_some_iff.1 h
          cases h
          have ⟨a, e, g1, g0⟩ : ∃ a, ts = a ++ ts1 ∧ Many (T ns .annotation) a as ∧ (pr.annotated = false → as = [] ∧ a = []) := by
            unfold Func.parseAnnotsIf at h1
            split at h1
            · rename_i ht
              obtain ⟨a, e, g⟩ := parseAnnots_heard hp hf.tail.tail h1
              exact ⟨a, e, g, fun e => by rw [ht] at e; cases e⟩
            · cases h1; exact ⟨[], rfl, rfl, fun _ => ⟨rfl, rfl⟩⟩
          subst e
          obtain ⟨b, e, g2⟩ := parseArgs_heard hp hf.tail.tail.right h2
          subst e
          exact ⟨.kw k :: .lpar :: ((a ++ b) ++ [.rpar]), by simp, build_heard hk g2 g1 g0 h3⟩
        · cases h
      · cases h
    · cases h
  · cases h

theorem parseExp_heard {p : Parser} (hp : Heard m.getNs p) {n : Nat} {c : Cat} {k : EntKind}
    (hc : ∀ i us, Spelt lax m.getNs [.iri i] us → T m.getNs c us (Ast.ent k i))
    {ts rest : List Tok} {o : Obj} (hf : Fine ts) (h : parseExp m p n c k ts = some (o, rest)) : ∃ us, ts = us ++ rest ∧ T m.getNs c us o := by
  rw [Func.parseExp.eq_def] at h
  split at h
  · exact parseConstruct_heard hp hf h
  · obtain ⟨i, hi, h⟩ := Option.map_eq_some_iff.1 h
    cases h; exact ⟨[_], rfl, hc i _ (spelt_one hi)⟩
  · cases h

theorem parseStep_heard {p : Parser} (hp : Heard m.getNs p) {n : Nat} : Heard m.getNs (parseStep m p n) := by
  intro c ts o rest hf h
  unfold parseStep at h
  split at h
  · obtain ⟨i, hi, h⟩ := Option.map_eq_some_iff.1 h
    cases h; exact ⟨[_], rfl, i, rfl, trivial, spelt_one hi⟩
  · obtain ⟨i, hi, h⟩ := Option.map_eq_some_iff.1 h
    cases h; exact ⟨[_], rfl, i, rfl, trivial, spelt_one hi⟩
  · rcases anon_heard h with ⟨s, rfl, rfl⟩ | ⟨t, i, rfl, rfl, hs⟩
    · exact ⟨[_], rfl, .anon s, rfl, trivial, .tok .nil⟩
    · exact ⟨[_], rfl, .named i, rfl, trivial, hs⟩
  · exact lit_heard hf h
  · exact parseExp_heard (c := .ope) (k := .objProp) hp (fun i us hs => ⟨.prop i, rfl, trivial, hs⟩) hf h
  · exact parseExp_heard (c := .dr) (k := .datatype) hp (fun i us hs => ⟨.dt i, rfl, trivial, hs⟩) hf h
  · exact parseExp_heard (c := .ce) (k := .cls) hp (fun i us hs => ⟨.cls i, rfl, trivial, hs⟩) hf h
  · obtain ⟨i, hi, h⟩ := Option.bind_eq_some_iff.1 h
    obtain ⟨⟨l, ts1⟩, h1, h⟩ := Option.bind_eq_some_iff.1 h
    cases h
    obtain ⟨us, rfl, l, rfl, -, hl⟩ := lit_heard hf.tail h1
    exact ⟨_ :: us, rfl, (i, l), rfl, ⟨trivial, trivial⟩, .iri (iri_heard hi) hl⟩
  · obtain ⟨us, e, l, rfl, -, hl⟩ := lit_heard hf h
    exact ⟨us, e, .lit l, rfl, trivial, hl⟩
  · rcases anon_heard h with ⟨s, rfl, rfl⟩ | ⟨t, i, rfl, rfl, hs⟩
    · exact ⟨[_], rfl, .anon s, rfl, trivial, .tok .nil⟩
    · exact ⟨[_], rfl, .iri i, rfl, trivial, hs⟩
  · rcases anon_heard h with ⟨s, rfl, rfl⟩ | ⟨t, i, rfl, rfl, hs⟩
    · exact ⟨[_], rfl, .anon s, rfl, trivial, .tok .nil⟩
    · exact ⟨[_], rfl, .iri i, rfl, trivial, hs⟩
  · rename_i k t ts
    obtain ⟨e, he, h⟩ := Option.bind_eq_some_iff.1 h
    obtain ⟨i, hi, h⟩ := Option.bind_eq_some_iff.1 h
    cases h
    have : entKw e = k := by cases k <;> first | (cases he; done) | (cases he; rfl)
    subst this
    exact ⟨[_, _, _, _], rfl, (e, i), rfl, trivial, mk_form (us := [t]) (spelt_one hi)⟩
  · obtain ⟨⟨xs, ts1⟩, h1, h⟩ := Option.bind_eq_some_iff.1 h
    dsimp only at h
    split at h
    · cases h
    · rename_i hn
      split at h
      · cases h
        obtain ⟨us, rfl, g⟩ := parseMany_heard hp hf.tail.tail h1
        obtain ⟨ps, rfl, g1, g2, g3⟩ := many_is g
        refine ⟨.kw .objectPropertyChain :: .lpar :: (us ++ [Tok.rpar]), by simp, .chain ps, rfl, ⟨?_, g1⟩, mk_form g3⟩
        rw [g2] at hn
        exact Nat.le_of_not_lt hn
      · cases h
  · obtain ⟨us, e, p, rfl, h1, h2⟩ := hp _ _ _ _ hf h
    exact ⟨us, e, .ope p, rfl, ⟨h1, trivial⟩, h2⟩
  · exact parseConstruct_heard hp hf h
  · exact parseConstruct_heard hp hf h
  · cases h

theorem parseCat_heard : ∀ n, Heard m.getNs (parseCat m n)
  | 0 => nofun
  | n + 1 => parseStep_heard (parseCat_heard n)

end Cowl.Says
