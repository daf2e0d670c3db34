import Verif.RewriteLeaves
/-! # Lemmas: requirements on constructs and on the names and literals in them -/
namespace Cowl.Rewrite
open Cowl.Func Cowl.Ast

/-- Requirements `A` and `B` on a construct and `L` on its names and literals imply `R`. -/
structure Suits (A B L R : Req) : Prop where
  iri : ∀ i, A.iri i → B.iri i → L.iri i → R.iri i
  thing : R.iri owlThing
  literal : R.iri rdfsLiteral
  lit : ∀ l, A.lit l → B.lit l → L.lit l → R.lit l
  anon : ∀ s, A.anon s → B.anon s → L.anon s → R.anon s
  sub : ∀ p, A.sub p → B.sub p → R.sub p
  two : ∀ n, A.two n → B.two n → R.two n
  one : ∀ n, A.one n → B.one n → R.one n
  any : ∀ n, A.any n → B.any n → R.any n
  card : ∀ n, A.card n → B.card n → R.card n

variable {A B L R : Req}

theorem mem_leafs {α : Type} {f : α → Obj} : ∀ {xs : List α}, LeafsAll L (xs.map f) → ∀ x ∈ xs, Leafs L (f x)
  | [], _ => nofun
  | y :: ys, h => fun x hx => by
    rcases List.mem_cons.1 hx with rfl | hx
    · exact h.1
    · exact mem_leafs h.2 x hx

theorem ind_suits (S : Suits A B L R) {x : Ind} (a : x.Meets A) (b : x.Meets B) (l : Leafs L x.toObj) : x.Meets R := by
  cases x with
  | named i => exact S.iri _ a b l
  | anon s => exact S.anon _ a b l

theorem ope_suits (S : Suits A B L R) {x : Ope} (a : x.Meets A) (b : x.Meets B) (l : Leafs L x.toObj) : x.Meets R := by
  cases x with
  | prop i => exact S.iri _ a b l
  | inv i => exact S.iri _ a b l.1

theorem dr_top (S : Suits A B L R) {d : DR} (h : d.isTop = true) : d.Meets R := by
  cases d with
  | dt i => rw [DR.Meets, eq_of_beq (show (i == rdfsLiteral) = true from h)]; exact S.literal
  | _ => cases h

theorem ce_top (S : Suits A B L R) {c : CE} (h : c.isTop = true) : c.Meets R := by
  cases c with
  | cls i => rw [CE.Meets, eq_of_beq (show (i == owlThing) = true from h)]; exact S.thing
  | _ => cases h

mutual
theorem dr_suits (S : Suits A B L R) : ∀ (d : DR), d.Meets A → d.Meets B → Leafs L d.toObj → d.Meets R
  | .dt i, a, b, l => by rw [DR.Meets] at *; exact S.iri _ a b l
  | .inter ds, a, b, l => by
    rw [DR.Meets] at *; exact ⟨S.two _ a.1 b.1, drs_suits S ds a.2 b.2 l.1⟩
  | .union ds, a, b, l => by
    rw [DR.Meets] at *; exact ⟨S.two _ a.1 b.1, drs_suits S ds a.2 b.2 l.1⟩
  | .compl d, a, b, l => by
    rw [DR.Meets] at *; exact dr_suits S d a b l.1
  | .oneOf ls, a, b, l => by
    rw [DR.Meets] at *
    exact ⟨S.one _ a.1 b.1, fun x hx => S.lit _ (a.2 x hx) (b.2 x hx) (mem_leafs (f := Lit.toObj) l.1 x hx)⟩
  | .restr i fs, a, b, l => by
    rw [DR.Meets] at *
    refine ⟨S.iri _ a.1 b.1 l.1, S.one _ a.2.1 b.2.1, fun x hx => ?_⟩
    have k := mem_leafs (f := facetObj) l.2.1 x hx
    exact ⟨S.iri _ (a.2.2 x hx).1 (b.2.2 x hx).1 k.1, S.lit _ (a.2.2 x hx).2 (b.2.2 x hx).2 k.2.1⟩

theorem drs_suits (S : Suits A B L R) : ∀ (ds : List DR), DR.AllMeet A ds → DR.AllMeet B ds → LeafsAll L (DR.toObjs ds) → DR.AllMeet R ds
  | [], _, _, _ => by rw [DR.AllMeet]; trivial
  | d :: ds, a, b, l => by
    rw [DR.AllMeet] at *
    exact ⟨dr_suits S d a.1 b.1 l.1, drs_suits S ds a.2 b.2 l.2⟩
end

mutual
theorem ce_suits (S : Suits A B L R) : ∀ (c : CE), c.Meets A → c.Meets B → Leafs L c.toObj → c.Meets R
  | .cls i, a, b, l => by rw [CE.Meets] at *; exact S.iri _ a b l
  | .inter ds, a, b, l => by
    rw [CE.Meets] at *; exact ⟨S.two _ a.1 b.1, ces_suits S ds a.2 b.2 l.1⟩
  | .union ds, a, b, l => by
    rw [CE.Meets] at *; exact ⟨S.two _ a.1 b.1, ces_suits S ds a.2 b.2 l.1⟩
  | .compl d, a, b, l => by
    rw [CE.Meets] at *; exact ce_suits S d a b l.1
  | .oneOf ls, a, b, l => by
    rw [CE.Meets] at *
    exact ⟨S.one _ a.1 b.1, fun x hx => ind_suits S (a.2 x hx) (b.2 x hx) (mem_leafs (f := Ind.toObj) l.1 x hx)⟩
  | .objSome p c, a, b, l => by
    rw [CE.Meets] at *
    rw [CE.toObj] at l
    by_cases h : c.isTop = true
    · rw [if_pos h] at l
      exact ⟨ope_suits S a.1 b.1 l.1, ce_top S h⟩
    · rw [if_neg h] at l
      exact ⟨ope_suits S a.1 b.1 l.1, ce_suits S c a.2 b.2 l.2.1⟩
  | .objAll p c, a, b, l => by
    rw [CE.Meets] at *
    rw [CE.toObj] at l
    by_cases h : c.isTop = true
    · rw [if_pos h] at l
      exact ⟨ope_suits S a.1 b.1 l.1, ce_top S h⟩
    · rw [if_neg h] at l
      exact ⟨ope_suits S a.1 b.1 l.1, ce_suits S c a.2 b.2 l.2.1⟩
  | .objHasValue p i, a, b, l => by
    rw [CE.Meets] at *; exact ⟨ope_suits S a.1 b.1 l.1, ind_suits S a.2 b.2 l.2.1⟩
  | .objHasSelf p, a, b, l => by
    rw [CE.Meets] at *; exact ope_suits S a b l.1
  | .objCard k n p, a, b, l => by
    rw [CE.Meets] at *; exact ⟨ope_suits S a.1 b.1 l.1, S.card _ a.2 b.2⟩
  | .objCardQ k n p c, a, b, l => by
    rw [CE.Meets] at *; exact ⟨ope_suits S a.1 b.1 l.1, ce_suits S c a.2.1 b.2.1 l.2.1, S.card _ a.2.2 b.2.2⟩
  | .dataSome p d, a, b, l => by
    rw [CE.Meets] at *
    rw [CE.toObj] at l
    by_cases h : d.isTop = true
    · rw [if_pos h] at l
      exact ⟨S.iri _ a.1 b.1 l.1, dr_top S h⟩
    · rw [if_neg h] at l
      exact ⟨S.iri _ a.1 b.1 l.1, dr_suits S d a.2 b.2 l.2.1⟩
  | .dataAll p d, a, b, l => by
    rw [CE.Meets] at *
    rw [CE.toObj] at l
    by_cases h : d.isTop = true
    · rw [if_pos h] at l
      exact ⟨S.iri _ a.1 b.1 l.1, dr_top S h⟩
    · rw [if_neg h] at l
      exact ⟨S.iri _ a.1 b.1 l.1, dr_suits S d a.2 b.2 l.2.1⟩
  | .dataHasValue p i, a, b, l => by
    rw [CE.Meets] at *; exact ⟨S.iri _ a.1 b.1 l.1, S.lit _ a.2 b.2 l.2.1⟩
  | .dataCard k n p, a, b, l => by
    rw [CE.Meets] at *; exact ⟨S.iri _ a.1 b.1 l.1, S.card _ a.2 b.2⟩
  | .dataCardQ k n p d, a, b, l => by
    rw [CE.Meets] at *; exact ⟨S.iri _ a.1 b.1 l.1, dr_suits S d a.2.1 b.2.1 l.2.1, S.card _ a.2.2 b.2.2⟩

theorem ces_suits (S : Suits A B L R) : ∀ (ds : List CE), CE.AllMeet A ds → CE.AllMeet B ds → LeafsAll L (CE.toObjs ds) → CE.AllMeet R ds
  | [], _, _, _ => by rw [CE.AllMeet]; trivial
  | d :: ds, a, b, l => by
    rw [CE.AllMeet] at *
    exact ⟨ce_suits S d a.1 b.1 l.1, ces_suits S ds a.2 b.2 l.2⟩

end

theorem value_suits (S : Suits A B L R) {x : AnnotVal} (a : x.Meets A) (b : x.Meets B) (l : Leafs L x.toObj) : x.Meets R := by
  cases x with
  | iri i => exact S.iri _ a b l
  | anon s => exact S.anon _ a b l
  | lit v => exact S.lit _ a b l

theorem subj_suits (S : Suits A B L R) {x : AnnotSubj} (a : x.Meets A) (b : x.Meets B) (l : Leafs L x.toObj) : x.Meets R := by
  cases x with
  | iri i => exact S.iri _ a b l
  | anon s => exact S.anon _ a b l

theorem leafs_annotated {t : OType} {fs as : List Obj} (l : Leafs L (annotated t fs as)) : LeafsAll L fs ∧ LeafsAll L as := by
  cases as with
  | nil => exact ⟨l, trivial⟩
  | cons a as =>
    have key : ∀ {xs ys : List Obj}, LeafsAll L (xs ++ ys) → LeafsAll L xs ∧ LeafsAll L ys := by
      intro xs ys
      induction xs with
      | nil => exact fun h => ⟨trivial, h⟩
      | cons x xs ih => exact fun h => ⟨⟨h.1, (ih h.2).1⟩, (ih h.2).2⟩
    have := key (show LeafsAll L (fs ++ [.vec false (a :: as)]) from l)
    exact ⟨this.1, this.2.1⟩

mutual
theorem annot_suits (S : Suits A B L R) : ∀ (x : Annot), x.Meets A → x.Meets B → Leafs L x.toObj → x.Meets R
  | .mk p v as, a, b, l => by
    rw [Annot.Meets] at *
    obtain ⟨l1, l2⟩ := leafs_annotated (show Leafs L (annotated .annotation [ent .annotProp p, v.toObj] (Annot.toObjs as)) from l)
    exact ⟨S.iri _ a.1 b.1 l1.1, value_suits S a.2.1 b.2.1 l1.2.1, annots_suits S as a.2.2.1 b.2.2.1 l2, S.any _ a.2.2.2 b.2.2.2⟩

theorem annots_suits (S : Suits A B L R) : ∀ (as : List Annot), Annot.AllMeet A as → Annot.AllMeet B as → LeafsAll L (Annot.toObjs as) → Annot.AllMeet R as
  | [], _, _, _ => by rw [Annot.AllMeet]; trivial
  | d :: ds, a, b, l => by
    rw [Annot.AllMeet] at *
    exact ⟨annot_suits S d a.1 b.1 l.1, annots_suits S ds a.2 b.2 l.2⟩
end

theorem opes_suits (S : Suits A B L R) {ps : List Ope} (a : ∀ p ∈ ps, p.Meets A) (b : ∀ p ∈ ps, p.Meets B) (l : LeafsAll L (ps.map Ope.toObj)) :
    ∀ p ∈ ps, p.Meets R := fun p hp => ope_suits S (a p hp) (b p hp) (mem_leafs l p hp)

theorem inds_suits (S : Suits A B L R) {ps : List Ind} (a : ∀ p ∈ ps, p.Meets A) (b : ∀ p ∈ ps, p.Meets B) (l : LeafsAll L (ps.map Ind.toObj)) :
    ∀ p ∈ ps, p.Meets R := fun p hp => ind_suits S (a p hp) (b p hp) (mem_leafs l p hp)

theorem iris_suits (S : Suits A B L R) {k : EntKind} {ps : List Iri} (a : ∀ p ∈ ps, A.iri p) (b : ∀ p ∈ ps, B.iri p) (l : LeafsAll L (ps.map (ent k))) :
    ∀ p ∈ ps, R.iri p := fun p hp => S.iri _ (a p hp) (b p hp) (mem_leafs (f := ent k) l p hp)

theorem sub_suits (S : Suits A B L R) {x : SubOpe} (a : x.Meets A) (b : x.Meets B) (l : Leafs L x.toObj) : x.Meets R := by
  cases x with
  | ope p => exact ⟨ope_suits S a.1 b.1 l, S.sub _ a.2 b.2⟩
  | chain ps => exact ⟨S.two _ a.1 b.1, opes_suits S a.2 b.2 l⟩

theorem ax_suits (S : Suits A B L R) {x : Ax} (a : x.Meets A) (b : x.Meets B) (l : LeafsAll L x.fields) : x.Meets R := by
  cases x with
  | decl k i => exact S.iri _ a b l.1
  | subClass c d => exact ⟨ce_suits S _ a.1 b.1 l.1, ce_suits S _ a.2 b.2 l.2.1⟩
  | equivClasses cs => exact ⟨S.two _ a.1 b.1, ces_suits S _ a.2 b.2 l.1⟩
  | disjClasses cs => exact ⟨S.two _ a.1 b.1, ces_suits S _ a.2 b.2 l.1⟩
  | disjUnion c cs => exact ⟨S.iri _ a.1 b.1 l.1, S.two _ a.2.1 b.2.1, ces_suits S _ a.2.2 b.2.2 l.2.1⟩
  | subObjProp p q => exact ⟨sub_suits S a.1 b.1 l.1, ope_suits S a.2 b.2 l.2.1⟩
  | equivObjProp ps => exact ⟨S.two _ a.1 b.1, opes_suits S a.2 b.2 l.1⟩
  | disjObjProp ps => exact ⟨S.two _ a.1 b.1, opes_suits S a.2 b.2 l.1⟩
  | invObjProp p q => exact ⟨ope_suits S a.1 b.1 l.1, ope_suits S a.2 b.2 l.2.1⟩
  | objPropDomain p c => exact ⟨ope_suits S a.1 b.1 l.1, ce_suits S _ a.2 b.2 l.2.1⟩
  | objPropRange p c => exact ⟨ope_suits S a.1 b.1 l.1, ce_suits S _ a.2 b.2 l.2.1⟩
  | objPropChar k p => exact ope_suits S a b l.1
  | subDataProp p q => exact ⟨S.iri _ a.1 b.1 l.1, S.iri _ a.2 b.2 l.2.1⟩
  | equivDataProp ps => exact ⟨S.two _ a.1 b.1, iris_suits S (k := .dataProp) a.2 b.2 l.1⟩
  | disjDataProp ps => exact ⟨S.two _ a.1 b.1, iris_suits S (k := .dataProp) a.2 b.2 l.1⟩
  | dataPropDomain p c => exact ⟨S.iri _ a.1 b.1 l.1, ce_suits S _ a.2 b.2 l.2.1⟩
  | dataPropRange p d => exact ⟨S.iri _ a.1 b.1 l.1, dr_suits S _ a.2 b.2 l.2.1⟩
  | funcDataProp p => exact S.iri _ a b l.1
  | datatypeDef i d => exact ⟨S.iri _ a.1 b.1 l.1, dr_suits S _ a.2 b.2 l.2.1⟩
  | hasKey c ps ds =>
    exact ⟨ce_suits S _ a.1 b.1 l.1, opes_suits S a.2.1 b.2.1 l.2.1, iris_suits S (k := .dataProp) a.2.2.1 b.2.2.1 l.2.2.1,
      S.any _ a.2.2.2.1 b.2.2.2.1, S.any _ a.2.2.2.2 b.2.2.2.2⟩
  | sameInd is => exact ⟨S.two _ a.1 b.1, inds_suits S a.2 b.2 l.1⟩
  | diffInd is => exact ⟨S.two _ a.1 b.1, inds_suits S a.2 b.2 l.1⟩
  | classAssert c i => exact ⟨ce_suits S _ a.1 b.1 l.1, ind_suits S a.2 b.2 l.2.1⟩
  | objPropAssert p i j => exact ⟨ope_suits S a.1 b.1 l.1, ind_suits S a.2.1 b.2.1 l.2.1, ind_suits S a.2.2 b.2.2 l.2.2.1⟩
  | negObjPropAssert p i j => exact ⟨ope_suits S a.1 b.1 l.1, ind_suits S a.2.1 b.2.1 l.2.1, ind_suits S a.2.2 b.2.2 l.2.2.1⟩
  | dataPropAssert p i v => exact ⟨S.iri _ a.1 b.1 l.1, ind_suits S a.2.1 b.2.1 l.2.1, S.lit _ a.2.2 b.2.2 l.2.2.1⟩
  | negDataPropAssert p i v => exact ⟨S.iri _ a.1 b.1 l.1, ind_suits S a.2.1 b.2.1 l.2.1, S.lit _ a.2.2 b.2.2 l.2.2.1⟩
  | annotAssert p s v => exact ⟨S.iri _ a.1 b.1 l.1, subj_suits S a.2.1 b.2.1 l.2.1, value_suits S a.2.2 b.2.2 l.2.2.1⟩
  | subAnnotProp p q => exact ⟨S.iri _ a.1 b.1 l.1, S.iri _ a.2 b.2 l.2.1⟩
  | annotPropDomain p i => exact ⟨S.iri _ a.1 b.1 l.1, S.iri _ a.2 b.2 l.2.1⟩
  | annotPropRange p i => exact ⟨S.iri _ a.1 b.1 l.1, S.iri _ a.2 b.2 l.2.1⟩

theorem axiom_suits (S : Suits A B L R) {x : Axiom} (a : x.Meets A) (b : x.Meets B) (l : Leafs L x.toObj) : x.Meets R := by
  obtain ⟨l1, l2⟩ := leafs_annotated l
  exact ⟨ax_suits S a.1 b.1 l1, annots_suits S _ a.2.1 b.2.1 l2, S.any _ a.2.2 b.2.2⟩

end Cowl.Rewrite
