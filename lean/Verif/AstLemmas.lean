import Verif.Ast
import Verif.OntoSpec
/-! # Lemmas: the objects of constructs are well-formed -/
namespace Cowl.Ast
open Cowl.ObjSpec Cowl.OntoSpec

theorem wf_map {α : Type} {f : α → Obj} (h : ∀ x, WellFormed (f x)) : ∀ xs : List α, WellFormedAll (xs.map f)
  | [] => by simp [WellFormedAll]
  | x :: xs => by rw [List.map_cons, WellFormedAll]; exact ⟨h x, wf_map h xs⟩

theorem wf_append : ∀ {xs ys : List Obj}, WellFormedAll xs → WellFormedAll ys → WellFormedAll (xs ++ ys)
  | [], _, _, h => h
  | x :: xs, ys, h, h' => by
    rw [WellFormedAll] at h
    rw [List.cons_append, WellFormedAll]
    exact ⟨h.1, wf_append h.2 h'⟩

theorem wf_ent (k : EntKind) (i : Iri) : WellFormed (ent k i) := by simp [ent, WellFormed]
theorem wf_ind (i : Ind) : WellFormed i.toObj := by cases i <;> simp [Ind.toObj, ent, WellFormed]
theorem wf_lit (l : Lit) : WellFormed l.toObj := by simp [Lit.toObj, WellFormed]
theorem wf_ope (p : Ope) : WellFormed p.toObj := by
  cases p <;> simp [Ope.toObj, ent, WellFormed, WellFormedAll] <;> rfl
theorem wf_facet (f : Iri × Lit) : WellFormed (facetObj f) := by
  simp [facetObj, WellFormed, WellFormedAll, wf_lit]; rfl

mutual
theorem wf_dr : ∀ d : DR, WellFormed d.toObj
  | .dt i => by rw [DR.toObj]; exact wf_ent _ _
  | .inter ds => by simp only [DR.toObj, WellFormed, WellFormedAll]; exact ⟨rfl, wf_drs ds, trivial⟩
  | .union ds => by simp only [DR.toObj, WellFormed, WellFormedAll]; exact ⟨rfl, wf_drs ds, trivial⟩
  | .compl d => by simp only [DR.toObj, WellFormed, WellFormedAll]; exact ⟨rfl, wf_dr d, trivial⟩
  | .oneOf ls => by simp only [DR.toObj, WellFormed, WellFormedAll]; exact ⟨rfl, wf_map wf_lit ls, trivial⟩
  | .restr i fs => by
    simp only [DR.toObj, WellFormed, WellFormedAll]
    exact ⟨rfl, wf_ent _ _, wf_map wf_facet fs, trivial⟩
theorem wf_drs : ∀ ds : List DR, WellFormedAll (DR.toObjs ds)
  | [] => by simp [DR.toObjs, WellFormedAll]
  | d :: ds => by rw [DR.toObjs, WellFormedAll]; exact ⟨wf_dr d, wf_drs ds⟩
end

mutual
theorem wf_ce : ∀ c : CE, WellFormed c.toObj
  | .cls i => by rw [CE.toObj]; exact wf_ent _ _
  | .inter cs => by simp only [CE.toObj, WellFormed, WellFormedAll]; exact ⟨rfl, wf_ces cs, trivial⟩
  | .union cs => by simp only [CE.toObj, WellFormed, WellFormedAll]; exact ⟨rfl, wf_ces cs, trivial⟩
  | .compl c => by simp only [CE.toObj, WellFormed, WellFormedAll]; exact ⟨rfl, wf_ce c, trivial⟩
  | .oneOf is => by simp only [CE.toObj, WellFormed, WellFormedAll]; exact ⟨rfl, wf_map wf_ind is, trivial⟩
  | .objSome p c => by
    rw [CE.toObj]
    split <;> simp only [WellFormed, WellFormedAll]
    · exact ⟨rfl, wf_ope p, trivial⟩
    · exact ⟨rfl, wf_ope p, wf_ce c, trivial⟩
  | .objAll p c => by
    rw [CE.toObj]
    split <;> simp only [WellFormed, WellFormedAll]
    · exact ⟨rfl, wf_ope p, trivial⟩
    · exact ⟨rfl, wf_ope p, wf_ce c, trivial⟩
  | .objHasValue p i => by
    simp only [CE.toObj, WellFormed, WellFormedAll]; exact ⟨rfl, wf_ope p, wf_ind i, trivial⟩
  | .objHasSelf p => by simp only [CE.toObj, WellFormed, WellFormedAll]; exact ⟨rfl, wf_ope p, trivial⟩
  | .objCard k n p => by
    simp only [CE.toObj, WellFormed, WellFormedAll]; exact ⟨by cases k <;> rfl, wf_ope p, trivial⟩
  | .objCardQ k n p c => by
    simp only [CE.toObj, WellFormed, WellFormedAll]; exact ⟨by cases k <;> rfl, wf_ope p, wf_ce c, trivial⟩
  | .dataSome p d => by
    rw [CE.toObj]
    split <;> simp only [WellFormed, WellFormedAll]
    · exact ⟨rfl, wf_ent _ _, trivial⟩
    · exact ⟨rfl, wf_ent _ _, wf_dr d, trivial⟩
  | .dataAll p d => by
    rw [CE.toObj]
    split <;> simp only [WellFormed, WellFormedAll]
    · exact ⟨rfl, wf_ent _ _, trivial⟩
    · exact ⟨rfl, wf_ent _ _, wf_dr d, trivial⟩
  | .dataHasValue p l => by
    simp only [CE.toObj, WellFormed, WellFormedAll]; exact ⟨rfl, wf_ent _ _, wf_lit l, trivial⟩
  | .dataCard k n p => by
    simp only [CE.toObj, WellFormed, WellFormedAll]; exact ⟨by cases k <;> rfl, wf_ent _ _, trivial⟩
  | .dataCardQ k n p d => by
    simp only [CE.toObj, WellFormed, WellFormedAll]; exact ⟨by cases k <;> rfl, wf_ent _ _, wf_dr d, trivial⟩
theorem wf_ces : ∀ cs : List CE, WellFormedAll (CE.toObjs cs)
  | [] => by simp [CE.toObjs, WellFormedAll]
  | c :: cs => by rw [CE.toObjs, WellFormedAll]; exact ⟨wf_ce c, wf_ces cs⟩
end

theorem wf_annotVal (v : AnnotVal) : WellFormed v.toObj := by
  cases v <;> simp [AnnotVal.toObj, WellFormed, wf_lit]
theorem wf_annotSubj (v : AnnotSubj) : WellFormed v.toObj := by
  cases v <;> simp [AnnotSubj.toObj, WellFormed]

theorem wf_annotated {t : OType} {fs as : List Obj} (hl : fs.length = t.fieldCount) (hf : WellFormedAll fs)
    (ha : WellFormedAll as) : WellFormed (annotated t fs as) := by
  cases as with
  | nil => simp only [annotated, WellFormed]; exact ⟨by simp [hl, nFields], hf⟩
  | cons a as =>
    simp only [annotated, WellFormed]
    refine ⟨by simp [hl, nFields], wf_append hf ?_⟩
    simp only [WellFormedAll, WellFormed, and_true]
    rwa [WellFormedAll] at ha

mutual
theorem wf_annot : ∀ a : Annot, WellFormed a.toObj
  | .mk p v as => by
    rw [Annot.toObj]
    exact wf_annotated rfl (by simp only [WellFormedAll]; exact ⟨wf_ent _ _, wf_annotVal v, trivial⟩) (wf_annots as)
theorem wf_annots : ∀ as : List Annot, WellFormedAll (Annot.toObjs as)
  | [] => by simp [Annot.toObjs, WellFormedAll]
  | a :: as => by rw [Annot.toObjs, WellFormedAll]; exact ⟨wf_annot a, wf_annots as⟩
end

theorem wf_subOpe (s : SubOpe) : WellFormed s.toObj := by
  cases s with
  | ope p => exact wf_ope p
  | chain ps => simp only [SubOpe.toObj, WellFormed]; exact wf_map wf_ope ps

theorem fields_length (x : Ax) : x.fields.length = x.type.fieldCount := by
  cases x <;> first | rfl | (rename_i k p; cases k <;> rfl)

theorem wf_fields (x : Ax) : WellFormedAll x.fields := by
  cases x <;> simp [Ax.fields, WellFormedAll, WellFormed, wf_ent, wf_ce, wf_ces, wf_ope, wf_dr, wf_ind, wf_lit,
    wf_subOpe, wf_annotVal, wf_annotSubj, wf_map wf_ope, wf_map wf_ind, wf_map (wf_ent _)]

theorem type_isAxiom (x : Ax) : x.type.isAxiom = true := by
  cases x <;> first | rfl | (rename_i k p; cases k <;> rfl)

/-- Every axiom of the syntax is an axiom in the sense of C11. -/
theorem isAxiom_toObj (a : Axiom) : IsAxiom a.toObj := by
  refine ⟨wf_annotated (fields_length _) (wf_fields _) (wf_annots _), ?_⟩
  unfold Axiom.toObj annotated
  cases Annot.toObjs a.annots <;> exact type_isAxiom _

theorem ce_top {c : CE} (h : c.isTop = true) : c = .cls owlThing := by
  cases c <;> simp_all [CE.isTop]

theorem ce_not_top {c : CE} (h : ¬ c.isTop = true) :
    dropDefault (.ent .cls owlThing) (some c.toObj) = some c.toObj := by
  cases c with
  | cls i =>
    simp only [CE.isTop, beq_iff_eq] at h
    simp [CE.toObj, ent, dropDefault, h]
  | objSome p c => rw [CE.toObj]; split <;> rfl
  | objAll p c => rw [CE.toObj]; split <;> rfl
  | dataSome p c => rw [CE.toObj]; split <;> rfl
  | dataAll p c => rw [CE.toObj]; split <;> rfl
  | _ => rw [CE.toObj]; rfl

theorem dr_top {d : DR} (h : d.isTop = true) : d = .dt rdfsLiteral := by
  cases d <;> simp_all [DR.isTop]

theorem dr_not_top {d : DR} (h : ¬ d.isTop = true) :
    dropDefault (.ent .datatype rdfsLiteral) (some d.toObj) = some d.toObj := by
  cases d with
  | dt i =>
    simp only [DR.isTop, beq_iff_eq] at h
    simp [DR.toObj, ent, dropDefault, h]
  | _ => rw [DR.toObj]; rfl

theorem drop_self (p : Prim) : dropDefault p (some (.prim p)) = none := by simp [dropDefault]

end Cowl.Ast
