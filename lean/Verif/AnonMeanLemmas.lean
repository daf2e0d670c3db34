import Verif.AnonMeanSpec
import Verif.PrtAnonLemmas
import Verif.SemLemmas
import Verif.PrtNormLemmas
/-! # Lemmas: renaming anonymous individuals and meaning -/
namespace Cowl.Sem
open Ast IterSpec Prt

section
variable (r : Str → Str)

/-- The individual renamed. -/
def renInd : Ind → Ind
  | .named i => .named i
  | .anon s => .anon (r s)

mutual
/-- The class expression with its anonymous individuals renamed. -/
def renCE : CE → CE
  | .cls i => .cls i
  | .inter cs => .inter (renCEs cs)
  | .union cs => .union (renCEs cs)
  | .compl c => .compl (renCE c)
  | .oneOf is => .oneOf (is.map (renInd r))
  | .objSome p c => .objSome p (renCE c)
  | .objAll p c => .objAll p (renCE c)
  | .objHasValue p i => .objHasValue p (renInd r i)
  | .objHasSelf p => .objHasSelf p
  | .objCard k n p => .objCard k n p
  | .objCardQ k n p c => .objCardQ k n p (renCE c)
  | .dataSome p d => .dataSome p d
  | .dataAll p d => .dataAll p d
  | .dataHasValue p l => .dataHasValue p l
  | .dataCard k n p => .dataCard k n p
  | .dataCardQ k n p d => .dataCardQ k n p d

/-- Those of a list. -/
def renCEs : List CE → List CE
  | [] => []
  | d :: ds => renCE d :: renCEs ds
end

/-- The value of an annotation, renamed. -/
def renVal : AnnotVal → AnnotVal
  | .anon s => .anon (r s)
  | v => v

/-- The subject of an annotation, renamed. -/
def renSubj : AnnotSubj → AnnotSubj
  | .anon s => .anon (r s)
  | v => v

mutual
/-- The annotation with its anonymous individuals renamed. -/
def renAnnot : Annot → Annot
  | .mk p v as => .mk p (renVal r v) (renAnnots as)

/-- Those of a list. -/
def renAnnots : List Annot → List Annot
  | [] => []
  | d :: ds => renAnnot d :: renAnnots ds
end

/-- The axiom with its anonymous individuals renamed. -/
def renAx : Ax → Ax
  | .decl k i => .decl k i
  | .subClass c d => .subClass (renCE r c) (renCE r d)
  | .equivClasses cs => .equivClasses (renCEs r cs)
  | .disjClasses cs => .disjClasses (renCEs r cs)
  | .disjUnion c cs => .disjUnion c (renCEs r cs)
  | .subObjProp p q => .subObjProp p q
  | .equivObjProp ps => .equivObjProp ps
  | .disjObjProp ps => .disjObjProp ps
  | .invObjProp p q => .invObjProp p q
  | .objPropDomain p c => .objPropDomain p (renCE r c)
  | .objPropRange p c => .objPropRange p (renCE r c)
  | .objPropChar k p => .objPropChar k p
  | .subDataProp p q => .subDataProp p q
  | .equivDataProp ps => .equivDataProp ps
  | .disjDataProp ps => .disjDataProp ps
  | .dataPropDomain p c => .dataPropDomain p (renCE r c)
  | .dataPropRange p d => .dataPropRange p d
  | .funcDataProp p => .funcDataProp p
  | .datatypeDef i d => .datatypeDef i d
  | .hasKey c ps ds => .hasKey (renCE r c) ps ds
  | .sameInd is => .sameInd (is.map (renInd r))
  | .diffInd is => .diffInd (is.map (renInd r))
  | .classAssert c i => .classAssert (renCE r c) (renInd r i)
  | .objPropAssert p i j => .objPropAssert p (renInd r i) (renInd r j)
  | .negObjPropAssert p i j => .negObjPropAssert p (renInd r i) (renInd r j)
  | .dataPropAssert p i l => .dataPropAssert p (renInd r i) l
  | .negDataPropAssert p i l => .negDataPropAssert p (renInd r i) l
  | .annotAssert p s v => .annotAssert p (renSubj r s) (renVal r v)
  | .subAnnotProp p q => .subAnnotProp p q
  | .annotPropDomain p i => .annotPropDomain p i
  | .annotPropRange p i => .annotPropRange p i

/-- The annotated axiom with its anonymous individuals renamed. -/
def renAxiom (a : Axiom) : Axiom := ⟨renAx r a.ax, renAnnots r a.annots⟩
end

/-! ## Objects -/

section
variable {r : Str → Str}

theorem ren_ent (k : EntKind) (i : Iri) : (ent k i).rename r = ent k i := rename_ent r k i

theorem ren_ind (i : Ind) : (renInd r i).toObj = i.toObj.rename r := by
  cases i
  · exact (rename_ent r _ _).symm
  · exact (rename_anon r _).symm

theorem ren_ope (p : Ope) : p.toObj.rename r = p.toObj := by
  cases p
  · exact rename_ent r _ _
  · simp only [Ope.toObj, rename_comp, List.map_cons, List.map_nil, ren_ent]

theorem ren_sub (p : SubOpe) : p.toObj.rename r = p.toObj := by
  cases p with
  | ope p => exact ren_ope p
  | chain ps =>
    simp only [SubOpe.toObj, rename_vec, List.map_map]
    congr 1
    exact List.map_congr_left fun p _ => ren_ope p

theorem ren_lit (l : Lit) : l.toObj.rename r = l.toObj := rename_lit r _ _

theorem ren_facet (f : Iri × Lit) : (facetObj f).rename r = facetObj f := by
  simp only [facetObj, rename_comp, List.map_cons, List.map_nil, rename_iri, ren_lit]

theorem ren_all {α : Type} {g : α → Obj} (h : ∀ x, (g x).rename r = g x) (xs : List α) : (xs.map g).map (Obj.rename r) = xs.map g := by
  rw [List.map_map]; exact List.map_congr_left fun x _ => h x

mutual
theorem ren_dr : ∀ d : DR, d.toObj.rename r = d.toObj
  | .dt i => by simp only [DR.toObj, ren_ent]
  | .inter ds | .union ds => by simp only [DR.toObj, rename_comp, rename_vec, List.map_cons, List.map_nil, ren_drs ds]
  | .compl d => by simp only [DR.toObj, rename_comp, List.map_cons, List.map_nil, ren_dr d]
  | .oneOf ls => by simp only [DR.toObj, rename_comp, rename_vec, List.map_cons, List.map_nil, ren_all ren_lit ls]
  | .restr i fs => by simp only [DR.toObj, rename_comp, rename_vec, List.map_cons, List.map_nil, ren_ent, ren_all ren_facet fs]

theorem ren_drs : ∀ ds : List DR, (DR.toObjs ds).map (Obj.rename r) = DR.toObjs ds
  | [] => rfl
  | d :: ds => by simp only [DR.toObjs, List.map_cons, ren_dr d, ren_drs ds]
end

theorem ren_top (c : CE) : (renCE r c).isTop = c.isTop := by cases c <;> simp [renCE, CE.isTop]

theorem ren_inds (is : List Ind) : (is.map (renInd r)).map Ind.toObj = (is.map Ind.toObj).map (Obj.rename r) := by
  simp only [List.map_map]; exact List.map_congr_left fun i _ => ren_ind i

mutual
theorem ren_ce : ∀ c : CE, (renCE r c).toObj = c.toObj.rename r
  | .cls i => by simp only [renCE, CE.toObj, ren_ent]
  | .inter cs | .union cs => by simp only [renCE, CE.toObj, rename_comp, rename_vec, List.map_cons, List.map_nil, ren_ces cs]
  | .compl c => by simp only [renCE, CE.toObj, rename_comp, List.map_cons, List.map_nil, ren_ce c]
  | .oneOf is => by simp only [renCE, CE.toObj, rename_comp, rename_vec, List.map_cons, List.map_nil, ren_inds is]
  | .objSome p c | .objAll p c => by
    simp only [renCE, CE.toObj, ren_top]
    split <;> simp only [rename_comp, List.map_cons, List.map_nil, ren_ope, ren_ce c]
  | .objHasValue p i => by simp only [renCE, CE.toObj, rename_comp, List.map_cons, List.map_nil, ren_ope, ren_ind]
  | .objHasSelf p => by simp only [renCE, CE.toObj, rename_comp, List.map_cons, List.map_nil, ren_ope]
  | .objCard k n p => by simp only [renCE, CE.toObj, rename_comp, List.map_cons, List.map_nil, ren_ope]
  | .objCardQ k n p c => by simp only [renCE, CE.toObj, rename_comp, List.map_cons, List.map_nil, ren_ope, ren_ce c]
  | .dataSome p d | .dataAll p d => by
    simp only [renCE, CE.toObj]
    split <;> simp only [rename_comp, List.map_cons, List.map_nil, ren_ent, ren_dr]
  | .dataHasValue p l => by simp only [renCE, CE.toObj, rename_comp, List.map_cons, List.map_nil, ren_ent, ren_lit]
  | .dataCard k n p => by simp only [renCE, CE.toObj, rename_comp, List.map_cons, List.map_nil, ren_ent]
  | .dataCardQ k n p d => by simp only [renCE, CE.toObj, rename_comp, List.map_cons, List.map_nil, ren_ent, ren_dr]

theorem ren_ces : ∀ cs : List CE, CE.toObjs (renCEs r cs) = (CE.toObjs cs).map (Obj.rename r)
  | [] => by simp only [renCEs, CE.toObjs, List.map_nil]
  | c :: cs => by simp only [renCEs, CE.toObjs, List.map_cons, ren_ce c, ren_ces cs]
end

theorem ren_val (v : AnnotVal) : (renVal r v).toObj = v.toObj.rename r := by
  cases v
  · exact (rename_iri r _).symm
  · exact (rename_anon r _).symm
  · exact (ren_lit _).symm

theorem ren_subj (v : AnnotSubj) : (renSubj r v).toObj = v.toObj.rename r := by
  cases v
  · exact (rename_iri r _).symm
  · exact (rename_anon r _).symm

theorem ren_annotated (t : OType) (fs as : List Obj) :
    annotated t (fs.map (Obj.rename r)) (as.map (Obj.rename r)) = (annotated t fs as).rename r := by
  cases as with
  | nil => simp only [List.map_nil, annotated, rename_comp]
  | cons a as => simp [annotated, rename_comp, rename_vec]

mutual
theorem ren_annot : ∀ a : Annot, (renAnnot r a).toObj = a.toObj.rename r
  | .mk p v as => by
    simp only [renAnnot, Annot.toObj, ← ren_annotated, List.map_cons, List.map_nil, ren_annots as, ren_ent, ren_val]

theorem ren_annots : ∀ as : List Annot, Annot.toObjs (renAnnots r as) = (Annot.toObjs as).map (Obj.rename r)
  | [] => by simp only [renAnnots, Annot.toObjs, List.map_nil]
  | a :: as => by simp only [renAnnots, Annot.toObjs, List.map_cons, ren_annot a, ren_annots as]
end

theorem ren_type (a : Ax) : (renAx r a).type = a.type := by cases a <;> rfl

theorem ren_fields (a : Ax) : (renAx r a).fields = a.fields.map (Obj.rename r) := by
  cases a <;> simp only [renAx, Ax.fields, List.map_cons, List.map_nil, rename_vec, rename_iri, ren_ce, ren_ces, ren_dr, ren_lit, ren_val,
    ren_ent, ren_ope, ren_ind, ren_inds, ren_sub, ren_subj, ren_all ren_ope, ren_all (ren_ent _)]

/-- The renamed axiom stands for the renamed object. -/
theorem ren_axiom (a : Axiom) : (renAxiom r a).toObj = a.toObj.rename r := by
  simp only [Axiom.toObj, renAxiom, ren_type, ren_fields, ren_annots, ren_annotated]

end

/-! ## Meaning -/

section
variable {I : Interp} {r : Str → Str} {an an' : Str → I.Thing}

theorem ren_ope_mean (p : Ope) : ope (I.withAnon an') p = ope (I.withAnon an) p := by cases p <;> rfl

theorem ren_lit_mean (l : Lit) : lit (I.withAnon an') l = lit (I.withAnon an) l := rfl

mutual
theorem ren_dr_mean : ∀ d : DR, dr (I.withAnon an') d = dr (I.withAnon an) d
  | .dt i => rfl
  | .inter ds => by simp only [dr, ren_drs_mean ds]; rfl
  | .union ds => by simp only [dr, ren_drs_mean ds]; rfl
  | .compl d => by simp only [dr, ren_dr_mean d]; rfl
  | .oneOf ls => rfl
  | .restr i fs => rfl

theorem ren_drs_mean : ∀ ds : List DR, drs (I.withAnon an') ds = drs (I.withAnon an) ds
  | [] => rfl
  | d :: ds => by simp only [drs, ren_dr_mean d, ren_drs_mean ds]; rfl
end

theorem ren_ind_mean {i : Ind} (h : ∀ s, Occurs (.anon s) i.toObj → an' (r s) = an s) :
    ind (I.withAnon an') (renInd r i) = ind (I.withAnon an) i := by
  cases i with
  | named i => rfl
  | anon s => exact h s (.self _)

theorem ren_inds_mean {is : List Ind} (h : ∀ i ∈ is, ∀ s, Occurs (.anon s) i.toObj → an' (r s) = an s) :
    (is.map (renInd r)).map (ind (I.withAnon an')) = is.map (ind (I.withAnon an)) := by
  rw [List.map_map]
  exact List.map_congr_left fun i hi => ren_ind_mean (h i hi)

/-- The filler of a restriction, which may be left out. -/
theorem filler_occurs {t : OType} {p : Obj} {c : CE} {s : Str} (h : Occurs (.anon s) c.toObj) :
    Occurs (.anon s) (if c.isTop then .comp t false [p] 0 else .comp t true [p, c.toObj] 0) := by
  by_cases hc : c.isTop = true
  · cases c <;> simp [CE.isTop] at hc
    simp only [CE.toObj, ent] at h
    cases h
  · rw [if_neg hc]; exact .field (by simp) h

mutual
theorem ren_ce_mean : ∀ c : CE, (∀ s, Occurs (.anon s) c.toObj → an' (r s) = an s) →
    ce (I.withAnon an') (renCE r c) = ce (I.withAnon an) c
  | .cls i, _ => by simp only [renCE]; rfl
  | .inter cs, h => by
    have := ren_ces_mean cs fun c hc s hs => h s (by simp only [CE.toObj]; exact .field (List.mem_singleton.2 rfl) (.item hc hs))
    simp only [renCE, ce, this]; rfl
  | .union cs, h => by
    have := ren_ces_mean cs fun c hc s hs => h s (by simp only [CE.toObj]; exact .field (List.mem_singleton.2 rfl) (.item hc hs))
    simp only [renCE, ce, this]; rfl
  | .compl c, h => by
    have := ren_ce_mean c fun s hs => h s (by simp only [CE.toObj]; exact .field (by simp) hs)
    simp only [renCE, ce, this]; rfl
  | .oneOf is, h => by
    have := ren_inds_mean (I := I) (is := is) fun i hi s hs =>
      h s (by simp only [CE.toObj]; exact .field (List.mem_singleton.2 rfl) (.item (List.mem_map_of_mem hi) hs))
    simp only [renCE, ce, this]; rfl
  | .objSome p c, h => by
    have := ren_ce_mean c fun s hs => h s (by simp only [CE.toObj]; exact filler_occurs hs)
    simp only [renCE, ce, this, ren_ope_mean p (an' := an') (an := an)]; rfl
  | .objAll p c, h => by
    have := ren_ce_mean c fun s hs => h s (by simp only [CE.toObj]; exact filler_occurs hs)
    simp only [renCE, ce, this, ren_ope_mean p (an' := an') (an := an)]; rfl
  | .objHasValue p i, h => by
    have := ren_ind_mean (I := I) (i := i) fun s hs => h s (by simp only [CE.toObj]; exact .field (by simp) hs)
    simp only [renCE, ce, this, ren_ope_mean p (an' := an') (an := an)]; rfl
  | .objHasSelf p, _ => by simp only [renCE, ce, ren_ope_mean p (an' := an') (an := an)]; rfl
  | .objCard k n p, _ => by simp only [renCE, ce, ren_ope_mean p (an' := an') (an := an)]; rfl
  | .objCardQ k n p c, h => by
    have := ren_ce_mean c fun s hs => h s (by simp only [CE.toObj]; exact .field (by simp) hs)
    simp only [renCE, ce, this, ren_ope_mean p (an' := an') (an := an)]; rfl
  | .dataSome p d, _ => by simp only [renCE, ce, ren_dr_mean d (an' := an') (an := an)]; rfl
  | .dataAll p d, _ => by simp only [renCE, ce, ren_dr_mean d (an' := an') (an := an)]; rfl
  | .dataHasValue p l, _ => by simp only [renCE]; rfl
  | .dataCard k n p, _ => by simp only [renCE]; rfl
  | .dataCardQ k n p d, _ => by simp only [renCE, ce, ren_dr_mean d (an' := an') (an := an)]; rfl

theorem ren_ces_mean : ∀ cs : List CE, (∀ x ∈ CE.toObjs cs, ∀ s, Occurs (.anon s) x → an' (r s) = an s) →
    ces (I.withAnon an') (renCEs r cs) = ces (I.withAnon an) cs
  | [], _ => by simp only [renCEs]; rfl
  | c :: cs, h => by
    simp only [CE.toObjs, List.mem_cons, forall_eq_or_imp] at h
    simp only [renCEs, ces, ren_ce_mean c h.1, ren_ces_mean cs h.2]; rfl
end

/-- A renamed axiom holds if the axiom does with the individuals named accordingly. -/
theorem ren_sat (a : Ax) (h : ∀ x ∈ a.fields, ∀ s, Occurs (.anon s) x → an' (r s) = an s) :
    sat (I.withAnon an') (renAx r a) ↔ sat (I.withAnon an) a := by
  have C := fun c => ren_ce_mean (I := I) (r := r) (an := an) (an' := an') c
  have Cs := fun c => ren_ces_mean (I := I) (r := r) (an := an) (an' := an') c
  have D := fun d => ren_dr_mean (I := I) (an := an) (an' := an') d
  have P := fun p => ren_ope_mean (I := I) (an := an) (an' := an') p
  have N := fun {i} => ren_ind_mean (I := I) (r := r) (an := an) (an' := an') (i := i)
  have Ns := fun {i} => ren_inds_mean (I := I) (r := r) (an := an) (an' := an') (is := i)
  have hm : (fun p => ope (I.withAnon an') p) = fun p => ope (I.withAnon an) p := funext P
  have hm' : ope (I.withAnon an') = ope (I.withAnon an) := hm
  cases a <;> simp only [Ax.fields, List.mem_cons, List.not_mem_nil, or_false, forall_eq_or_imp, forall_eq] at h <;>
    simp only [renAx, sat]
  case subClass => rw [C _ h.1, C _ h.2] <;> exact .rfl
  case equivClasses | disjClasses => rw [Cs _ fun x hx s hs => h s (.item hx hs)] <;> exact .rfl
  case disjUnion => rw [Cs _ fun x hx s hs => h.2 s (.item hx hs)] <;> exact .rfl
  case subObjProp p q => cases p <;> simp only [subOpe, hm'] <;> exact .rfl
  case equivObjProp | disjObjProp => rw [hm'] <;> exact .rfl
  case invObjProp => rw [hm'] <;> exact .rfl
  case objPropDomain | objPropRange => rw [C _ h.2, hm'] <;> exact .rfl
  case objPropChar => rw [hm'] <;> exact .rfl
  case subDataProp | equivDataProp | disjDataProp | funcDataProp => exact .rfl
  case dataPropDomain => rw [C _ h.2] <;> exact .rfl
  case dataPropRange | datatypeDef => rw [D] <;> exact .rfl
  case hasKey => rw [C _ h.1, hm'] <;> exact .rfl
  case sameInd | diffInd => rw [Ns fun i hi s hs => h s (.item (List.mem_map_of_mem hi) hs)] <;> exact .rfl
  case classAssert => rw [C _ h.1, N h.2] <;> exact .rfl
  case objPropAssert | negObjPropAssert => rw [hm', N h.2.1, N h.2.2] <;> exact .rfl
  case dataPropAssert | negDataPropAssert => rw [N h.2.1] <;> exact .rfl

end
end Cowl.Sem
