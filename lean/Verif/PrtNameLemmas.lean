import Verif.PrtOkLemmas
import Verif.AstLemmas
/-!
# Lemmas: requirements on the names of a construct

A requirement on every name that occurs in a construct is a requirement on its leaves.
-/
namespace Cowl.Prt
open Ast IterSpec

/-- The field is the first, second or third one. -/
local macro "at_field" : tactic =>
  `(tactic| first | exact .head _ | exact .tail _ (.head _) | exact .tail _ (.tail _ (.head _)))

/-- All names that occur in the object. -/
def Names (K : Id → Prop) (o : Obj) : Prop := ∀ p, Occurs p o → K (idOf p)

/-- A requirement follows from another one and a requirement on names. -/
structure Carry (K : Id → Prop) (R S : Req) : Prop where
  iri : ∀ i, K (.iri i) → S.iri i
  anon : ∀ s, K (.anon s) → S.anon s
  lit : ∀ l, R.lit l → Names K l.toObj → S.lit l
  sub : ∀ p, R.sub p → S.sub p
  two : ∀ n, R.two n → S.two n
  one : ∀ n, R.one n → S.one n
  any : ∀ n, R.any n → S.any n
  card : ∀ n, R.card n → S.card n

variable {K : Id → Prop} {R S : Req}

theorem Names.fields {t : OType} {b : Bool} {fs : List Obj} {n : Nat} (h : Names K (.comp t b fs n)) :
    ∀ x ∈ fs, Names K x := fun _ hx p hp => h p (.field hx hp)

theorem Names.items {o : Bool} {xs : List Obj} (h : Names K (.vec o xs)) : ∀ x ∈ xs, Names K x :=
  fun _ hx p hp => h p (.item hx hp)

theorem Names.ent {k : EntKind} {i : Iri} (h : Names K (ent k i)) : K (.iri i) := h _ (.self _)

variable (c : Carry K R S)
include c

theorem carry_iri {k : EntKind} {i : Iri} (h : Names K (ent k i)) : S.iri i := c.iri i h.ent

theorem carry_ind {i : Ind} (h : Names K i.toObj) : i.Meets S := by
  cases i with
  | named i => exact c.iri i (h _ (.self _))
  | anon s => exact c.anon s (h _ (.self _))

theorem carry_ope {p : Ope} (h : Names K p.toObj) : p.Meets S := by
  cases p with
  | prop i => exact c.iri i (h _ (.self _))
  | inv i => exact c.iri i (h.fields (ent .objProp i) (by at_field) _ (.self _))

theorem carry_inds {is : List Ind} {o : Bool} (h : Names K (.vec o (is.map Ind.toObj))) : ∀ i ∈ is, i.Meets S :=
  fun _ hi => carry_ind c (h.items _ (List.mem_map_of_mem hi))

theorem carry_opes {ps : List Ope} {o : Bool} (h : Names K (.vec o (ps.map Ope.toObj))) : ∀ p ∈ ps, p.Meets S :=
  fun _ hp => carry_ope c (h.items _ (List.mem_map_of_mem hp))

theorem carry_iris {k : EntKind} {ps : List Iri} {o : Bool} (h : Names K (.vec o (ps.map (ent k)))) :
    ∀ p ∈ ps, S.iri p :=
  fun _ hp => carry_iri c (h.items _ (List.mem_map_of_mem (f := ent k) hp))

mutual
theorem carry_dr : ∀ d : DR, d.Meets R → Names K d.toObj → d.Meets S
  | .dt i, _, h => by rw [DR.toObj] at h; rw [DR.Meets]; exact carry_iri c h
  | .inter ds, hm, h => by
    rw [DR.toObj] at h; rw [DR.Meets] at hm ⊢
    exact ⟨c.two _ hm.1, carry_drs ds hm.2 (h.fields _ (by at_field)).items⟩
  | .union ds, hm, h => by
    rw [DR.toObj] at h; rw [DR.Meets] at hm ⊢
    exact ⟨c.two _ hm.1, carry_drs ds hm.2 (h.fields _ (by at_field)).items⟩
  | .compl d, hm, h => by
    rw [DR.toObj] at h; rw [DR.Meets] at hm ⊢
    exact carry_dr d hm (h.fields _ (by at_field))
  | .oneOf ls, hm, h => by
    rw [DR.toObj] at h; rw [DR.Meets] at hm ⊢
    exact ⟨c.one _ hm.1, fun l hl => c.lit l (hm.2 l hl) ((h.fields _ (by at_field)).items _ (List.mem_map_of_mem hl))⟩
  | .restr i fs, hm, h => by
    rw [DR.toObj] at h; rw [DR.Meets] at hm ⊢
    refine ⟨carry_iri c (h.fields _ (by at_field)), c.one _ hm.2.1, fun f hf => ?_⟩
    have hn := ((h.fields (.vec false (fs.map facetObj)) (by at_field)).items _ (List.mem_map_of_mem hf)).fields
    exact ⟨c.iri _ (hn (.prim (.iri f.1)) (by at_field) _ (.self _)), c.lit _ (hm.2.2 f hf).2 (hn _ (by at_field))⟩
theorem carry_drs : ∀ ds : List DR, DR.AllMeet R ds → (∀ o ∈ DR.toObjs ds, Names K o) → DR.AllMeet S ds
  | [], _, _ => by rw [DR.AllMeet]; trivial
  | d :: ds, hm, h => by
    rw [DR.toObjs] at h; rw [DR.AllMeet] at hm ⊢
    exact ⟨carry_dr d hm.1 (h _ (by simp)), carry_drs ds hm.2 fun o ho => h o (by simp [ho])⟩
end

theorem carry_drFiller {t : OType} (ht : t = .ceDataSome ∨ t = .ceDataAll) {p : Iri} {d : DR} (hm : d.Meets R)
    (h : Names K (if d.isTop then .comp t false [ent .dataProp p] 0 else .comp t true [ent .dataProp p, d.toObj] 0)) :
    S.iri p ∧ d.Meets S := by
  split at h
  · next hd =>
    rw [dr_top hd, DR.Meets]
    exact ⟨carry_iri c (h.fields _ (by at_field)), c.iri _ (h _ (.defaultRange ht))⟩
  · exact ⟨carry_iri c (h.fields _ (by at_field)), carry_dr c d hm (h.fields _ (by at_field))⟩

mutual
theorem carry_ce : ∀ d : CE, d.Meets R → Names K d.toObj → d.Meets S
  | .cls i, _, h => by rw [CE.toObj] at h; rw [CE.Meets]; exact carry_iri c h
  | .inter ds, hm, h => by
    rw [CE.toObj] at h; rw [CE.Meets] at hm ⊢
    exact ⟨c.two _ hm.1, carry_ces ds hm.2 (h.fields _ (by at_field)).items⟩
  | .union ds, hm, h => by
    rw [CE.toObj] at h; rw [CE.Meets] at hm ⊢
    exact ⟨c.two _ hm.1, carry_ces ds hm.2 (h.fields _ (by at_field)).items⟩
  | .compl d, hm, h => by
    rw [CE.toObj] at h; rw [CE.Meets] at hm ⊢
    exact carry_ce d hm (h.fields _ (by at_field))
  | .oneOf is, hm, h => by
    rw [CE.toObj] at h; rw [CE.Meets] at hm ⊢
    exact ⟨c.one _ hm.1, carry_inds c (h.fields _ (by at_field))⟩
  | .objSome p d, hm, h => by
    rw [CE.toObj] at h; rw [CE.Meets] at hm ⊢
    split at h
    · next hd =>
      rw [ce_top hd, CE.Meets]
      exact ⟨carry_ope c (h.fields _ (by at_field)), c.iri _ (h _ (.defaultFiller (.inl rfl)))⟩
    · exact ⟨carry_ope c (h.fields _ (by at_field)), carry_ce d hm.2 (h.fields _ (by at_field))⟩
  | .objAll p d, hm, h => by
    rw [CE.toObj] at h; rw [CE.Meets] at hm ⊢
    split at h
    · next hd =>
      rw [ce_top hd, CE.Meets]
      exact ⟨carry_ope c (h.fields _ (by at_field)), c.iri _ (h _ (.defaultFiller (.inr rfl)))⟩
    · exact ⟨carry_ope c (h.fields _ (by at_field)), carry_ce d hm.2 (h.fields _ (by at_field))⟩
  | .objHasValue p i, hm, h => by
    rw [CE.toObj] at h; rw [CE.Meets] at hm ⊢
    exact ⟨carry_ope c (h.fields _ (by at_field)), carry_ind c (h.fields _ (by at_field))⟩
  | .objHasSelf p, hm, h => by
    rw [CE.toObj] at h; rw [CE.Meets] at hm ⊢
    exact carry_ope c (h.fields _ (by at_field))
  | .objCard k n p, hm, h => by
    rw [CE.toObj] at h; rw [CE.Meets] at hm ⊢
    exact ⟨carry_ope c (h.fields _ (by at_field)), c.card _ hm.2⟩
  | .objCardQ k n p d, hm, h => by
    rw [CE.toObj] at h; rw [CE.Meets] at hm ⊢
    exact ⟨carry_ope c (h.fields _ (by at_field)), carry_ce d hm.2.1 (h.fields _ (by at_field)), c.card _ hm.2.2⟩
  | .dataSome p d, hm, h => by
    rw [CE.toObj] at h; rw [CE.Meets] at hm ⊢
    exact carry_drFiller c (.inl rfl) hm.2 h
  | .dataAll p d, hm, h => by
    rw [CE.toObj] at h; rw [CE.Meets] at hm ⊢
    exact carry_drFiller c (.inr rfl) hm.2 h
  | .dataHasValue p l, hm, h => by
    rw [CE.toObj] at h; rw [CE.Meets] at hm ⊢
    exact ⟨carry_iri c (h.fields _ (by at_field)), c.lit _ hm.2 (h.fields _ (by at_field))⟩
  | .dataCard k n p, hm, h => by
    rw [CE.toObj] at h; rw [CE.Meets] at hm ⊢
    exact ⟨carry_iri c (h.fields _ (by at_field)), c.card _ hm.2⟩
  | .dataCardQ k n p d, hm, h => by
    rw [CE.toObj] at h; rw [CE.Meets] at hm ⊢
    exact ⟨carry_iri c (h.fields _ (by at_field)), carry_dr c d hm.2.1 (h.fields _ (by at_field)), c.card _ hm.2.2⟩
theorem carry_ces : ∀ ds : List CE, CE.AllMeet R ds → (∀ o ∈ CE.toObjs ds, Names K o) → CE.AllMeet S ds
  | [], _, _ => by rw [CE.AllMeet]; trivial
  | d :: ds, hm, h => by
    rw [CE.toObjs] at h; rw [CE.AllMeet] at hm ⊢
    exact ⟨carry_ce d hm.1 (h _ (by simp)), carry_ces ds hm.2 fun o ho => h o (by simp [ho])⟩
end

theorem carry_annotVal {v : AnnotVal} (hm : v.Meets R) (h : Names K v.toObj) : v.Meets S := by
  cases v with
  | iri i => exact c.iri _ (h _ (.self _))
  | anon s => exact c.anon _ (h _ (.self _))
  | lit l => exact c.lit _ hm h

theorem carry_annotSubj {v : AnnotSubj} (h : Names K v.toObj) : v.Meets S := by
  cases v with
  | iri i => exact c.iri _ (h _ (.self _))
  | anon s => exact c.anon _ (h _ (.self _))

omit c in
theorem Names.annotated {t : OType} {fs as : List Obj} (h : Names K (annotated t fs as)) :
    (∀ x ∈ fs, Names K x) ∧ ∀ x ∈ as, Names K x := by
  cases as with
  | nil => exact ⟨h.fields, by simp⟩
  | cons a as =>
    exact ⟨fun x hx => h.fields x (by simp [hx]), (h.fields (.vec false (a :: as)) (by simp)).items⟩

mutual
theorem carry_annot : ∀ a : Annot, a.Meets R → Names K a.toObj → a.Meets S
  | .mk p v as, hm, h => by
    rw [Annot.toObj] at h; rw [Annot.Meets] at hm ⊢
    have h := h.annotated
    exact ⟨carry_iri c (h.1 _ (by at_field)), carry_annotVal c hm.2.1 (h.1 _ (by at_field)), carry_annots as hm.2.2.1 h.2,
      c.any _ hm.2.2.2⟩
theorem carry_annots : ∀ as : List Annot, Annot.AllMeet R as → (∀ o ∈ Annot.toObjs as, Names K o) → Annot.AllMeet S as
  | [], _, _ => by rw [Annot.AllMeet]; trivial
  | a :: as, hm, h => by
    rw [Annot.toObjs] at h; rw [Annot.AllMeet] at hm ⊢
    exact ⟨carry_annot a hm.1 (h _ (by simp)), carry_annots as hm.2 fun o ho => h o (by simp [ho])⟩
end

theorem carry_subOpe {p : SubOpe} (hm : p.Meets R) (h : Names K p.toObj) : p.Meets S := by
  cases p with
  | ope p => exact ⟨carry_ope c h, c.sub _ hm.2⟩
  | chain ps => exact ⟨c.two _ hm.1, carry_opes c h⟩

theorem carry_ax {x : Ax} (hm : x.Meets R) (h : ∀ o ∈ x.fields, Names K o) : x.Meets S := by
  cases x with
  | decl k i => exact carry_iri c (h _ (by at_field))
  | subClass a b => exact ⟨carry_ce c _ hm.1 (h _ (by at_field)), carry_ce c _ hm.2 (h _ (by at_field))⟩
  | equivClasses cs => exact ⟨c.two _ hm.1, carry_ces c _ hm.2 (h _ (by at_field)).items⟩
  | disjClasses cs => exact ⟨c.two _ hm.1, carry_ces c _ hm.2 (h _ (by at_field)).items⟩
  | disjUnion i cs =>
    exact ⟨carry_iri c (k := .cls) (h _ (by at_field)), c.two _ hm.2.1,
      carry_ces c _ hm.2.2 (h (.vec false _) (by at_field)).items⟩
  | subObjProp p q => exact ⟨carry_subOpe c hm.1 (h _ (by at_field)), carry_ope c (h _ (by at_field))⟩
  | equivObjProp ps => exact ⟨c.two _ hm.1, carry_opes c (o := false) (h _ (by at_field))⟩
  | disjObjProp ps => exact ⟨c.two _ hm.1, carry_opes c (o := false) (h _ (by at_field))⟩
  | invObjProp p q => exact ⟨carry_ope c (h _ (by at_field)), carry_ope c (h _ (by at_field))⟩
  | objPropDomain p d => exact ⟨carry_ope c (h _ (by at_field)), carry_ce c _ hm.2 (h _ (by at_field))⟩
  | objPropRange p d => exact ⟨carry_ope c (h _ (by at_field)), carry_ce c _ hm.2 (h _ (by at_field))⟩
  | objPropChar k p => exact carry_ope c (h _ (by at_field))
  | subDataProp p q =>
    exact ⟨carry_iri c (k := .dataProp) (h _ (by at_field)), carry_iri c (k := .dataProp) (h _ (by at_field))⟩
  | equivDataProp ps => exact ⟨c.two _ hm.1, carry_iris c (k := .dataProp) (o := false) (h _ (by at_field))⟩
  | disjDataProp ps => exact ⟨c.two _ hm.1, carry_iris c (k := .dataProp) (o := false) (h _ (by at_field))⟩
  | dataPropDomain p d =>
    exact ⟨carry_iri c (k := .dataProp) (h _ (by at_field)), carry_ce c _ hm.2 (h _ (by at_field))⟩
  | dataPropRange p d =>
    exact ⟨carry_iri c (k := .dataProp) (h _ (by at_field)), carry_dr c _ hm.2 (h _ (by at_field))⟩
  | funcDataProp p => exact carry_iri c (k := .dataProp) (h _ (by at_field))
  | datatypeDef i d =>
    exact ⟨carry_iri c (k := .datatype) (h _ (by at_field)), carry_dr c _ hm.2 (h _ (by at_field))⟩
  | hasKey d ps ds =>
    exact ⟨carry_ce c _ hm.1 (h _ (by at_field)), carry_opes c (o := false) (h _ (by at_field)),
      carry_iris c (k := .dataProp) (o := false) (h _ (by at_field)), c.any _ hm.2.2.2.1, c.any _ hm.2.2.2.2⟩
  | sameInd is => exact ⟨c.two _ hm.1, carry_inds c (o := false) (h _ (by at_field))⟩
  | diffInd is => exact ⟨c.two _ hm.1, carry_inds c (o := false) (h _ (by at_field))⟩
  | classAssert d i => exact ⟨carry_ce c _ hm.1 (h _ (by at_field)), carry_ind c (h _ (by at_field))⟩
  | objPropAssert p i j =>
    exact ⟨carry_ope c (h _ (by at_field)), carry_ind c (h _ (by at_field)), carry_ind c (h _ (by at_field))⟩
  | negObjPropAssert p i j =>
    exact ⟨carry_ope c (h _ (by at_field)), carry_ind c (h _ (by at_field)), carry_ind c (h _ (by at_field))⟩
  | dataPropAssert p i l =>
    exact ⟨carry_iri c (k := .dataProp) (h _ (by at_field)), carry_ind c (h _ (by at_field)),
      c.lit _ hm.2.2 (h _ (by at_field))⟩
  | negDataPropAssert p i l =>
    exact ⟨carry_iri c (k := .dataProp) (h _ (by at_field)), carry_ind c (h _ (by at_field)),
      c.lit _ hm.2.2 (h _ (by at_field))⟩
  | annotAssert p s v =>
    exact ⟨carry_iri c (k := .annotProp) (h _ (by at_field)), carry_annotSubj c (h _ (by at_field)),
      carry_annotVal c hm.2.2 (h _ (by at_field))⟩
  | subAnnotProp p q =>
    exact ⟨carry_iri c (k := .annotProp) (h _ (by at_field)), carry_iri c (k := .annotProp) (h _ (by at_field))⟩
  | annotPropDomain p i =>
    exact ⟨carry_iri c (k := .annotProp) (h _ (by at_field)),
      c.iri _ (h (.prim (.iri i)) (by at_field) _ (.self _))⟩
  | annotPropRange p i =>
    exact ⟨carry_iri c (k := .annotProp) (h _ (by at_field)),
      c.iri _ (h (.prim (.iri i)) (by at_field) _ (.self _))⟩

theorem carry_axiom {a : Axiom} (hm : a.Meets R) (h : Names K a.toObj) : a.Meets S :=
  ⟨carry_ax c hm.1 h.annotated.1, carry_annots c _ hm.2.1 h.annotated.2, c.any _ hm.2.2⟩

end Cowl.Prt
