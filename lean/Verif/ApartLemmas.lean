import Verif.Ast
/-!
# Lemmas: objects determine the constructs they stand for
-/
namespace Cowl.Ast

theorem map_inj {α β : Type} {f : α → β} (h : ∀ {x y}, f x = f y → x = y) : ∀ {xs ys : List α}, xs.map f = ys.map f → xs = ys
  | [], [], _ => rfl
  | [], _ :: _, e => by cases e
  | _ :: _, [], e => by cases e
  | x :: xs, y :: ys, e => by
    rw [List.map_cons, List.map_cons] at e
    obtain ⟨e1, e2⟩ := List.cons.inj e
    rw [h e1, map_inj h e2]

theorem ent_inj {k k' : EntKind} {i i' : Iri} (e : ent k i = ent k' i') : k = k' ∧ i = i' := by
  have := Obj.prim.inj e
  exact ⟨(Prim.ent.inj this).1, (Prim.ent.inj this).2⟩

theorem Ind.inj {a b : Ind} (e : a.toObj = b.toObj) : a = b := by
  cases a <;> cases b
  · rw [(ent_inj e).2]
  · cases e
  · cases e
  · rw [Prim.anon.inj (Obj.prim.inj e)]

theorem Ope.inj {a b : Ope} (e : a.toObj = b.toObj) : a = b := by
  cases a <;> cases b
  · rw [(ent_inj e).2]
  · cases e
  · cases e
  · simp only [Ope.toObj, Obj.comp.injEq, List.cons.injEq] at e
    rw [(ent_inj e.2.2.1.1).2]

theorem Lit.inj {a b : Lit} (e : a.toObj = b.toObj) : a = b := by
  cases a; cases b; cases e; rfl

theorem facet_inj {a b : Iri × Lit} (e : facetObj a = facetObj b) : a = b := by
  obtain ⟨i, l⟩ := a
  obtain ⟨j, m⟩ := b
  simp only [facetObj, Obj.comp.injEq, List.cons.injEq, Obj.prim.injEq, Prim.iri.injEq] at e
  rw [e.2.2.1.1, Lit.inj e.2.2.1.2.1]

mutual
theorem DR.inj : ∀ {a b : DR}, a.toObj = b.toObj → a = b := by
  intro a b e
  cases a with
  | dt i =>
    cases b <;> simp only [DR.toObj] at e <;> first | (rw [(ent_inj e).2]; done) | cases e
  | inter ds =>
    cases b <;> simp only [DR.toObj, Obj.comp.injEq, List.cons.injEq, Obj.vec.injEq, reduceCtorEq, false_and, and_true, true_and] at e
    · cases e
    · rw [DR.injs e]
  | union ds =>
    cases b <;> simp only [DR.toObj, Obj.comp.injEq, List.cons.injEq, Obj.vec.injEq, reduceCtorEq, false_and, and_true, true_and] at e
    · cases e
    · rw [DR.injs e]
  | compl d =>
    cases b <;> simp only [DR.toObj, Obj.comp.injEq, List.cons.injEq, Obj.vec.injEq, reduceCtorEq, false_and, and_true, true_and] at e
    · cases e
    · rw [DR.inj e]
  | oneOf ls =>
    cases b <;> simp only [DR.toObj, Obj.comp.injEq, List.cons.injEq, Obj.vec.injEq, reduceCtorEq, false_and, and_true, true_and] at e
    · cases e
    · rw [map_inj Lit.inj e]
  | restr i fs =>
    cases b <;> simp only [DR.toObj, Obj.comp.injEq, List.cons.injEq, Obj.vec.injEq, reduceCtorEq, false_and, and_true, true_and] at e
    · cases e
    · rw [(ent_inj e.1).2, map_inj facet_inj e.2]

theorem DR.injs : ∀ {as bs : List DR}, DR.toObjs as = DR.toObjs bs → as = bs := by
  intro as bs e
  cases as with
  | nil =>
    cases bs with
    | nil => rfl
    | cons => simp only [DR.toObjs] at e; cases e
  | cons a as =>
    cases bs with
    | nil => simp only [DR.toObjs] at e; cases e
    | cons b bs =>
      simp only [DR.toObjs, List.cons.injEq] at e
      rw [DR.inj e.1, DR.injs e.2]
end

theorem DR.top {d : DR} (h : d.isTop = true) : d = .dt rdfsLiteral := by
  cases d <;> simp_all [DR.isTop]

theorem CE.top {c : CE} (h : c.isTop = true) : c = .cls owlThing := by
  cases c <;> simp_all [CE.isTop]

theorem CardKind.obj_inj {k k' : CardKind} (e : k.objType = k'.objType) : k = k' := by cases k <;> cases k' <;> first | rfl | cases e
theorem CardKind.data_inj {k k' : CardKind} (e : k.dataType = k'.dataType) : k = k' := by cases k <;> cases k' <;> first | rfl | cases e

/-- What tells the kinds of class expressions apart. -/
def kindOf : CE → Nat
  | .cls _ => 0
  | .inter _ => 1
  | .union _ => 2
  | .compl _ => 3
  | .oneOf _ => 4
  | .objSome .. => 5
  | .objAll .. => 6
  | .objHasValue .. => 7
  | .objHasSelf .. => 8
  | .objCard .. => 9
  | .objCardQ .. => 10
  | .dataSome .. => 11
  | .dataAll .. => 12
  | .dataHasValue .. => 13
  | .dataCard .. => 14
  | .dataCardQ .. => 15

/-- The same of objects. -/
def kindObj : Obj → Nat
  | .comp t bit _ _ =>
    match t with
    | .ceObjIntersect => 1
    | .ceObjUnion => 2
    | .ceObjCompl => 3
    | .ceObjOneOf => 4
    | .ceObjSome => 5
    | .ceObjAll => 6
    | .ceObjHasValue => 7
    | .ceObjHasSelf => 8
    | .ceObjMinCard | .ceObjMaxCard | .ceObjExactCard => if bit then 10 else 9
    | .ceDataSome => 11
    | .ceDataAll => 12
    | .ceDataHasValue => 13
    | .ceDataMinCard | .ceDataMaxCard | .ceDataExactCard => if bit then 15 else 14
    | _ => 16
  | _ => 0

theorem kind_obj (c : CE) : kindObj c.toObj = kindOf c := by
  cases c <;> simp only [CE.toObj] <;> first | rfl | (split <;> rfl) | (rename_i k _ _; cases k <;> rfl) | (rename_i k _ _ _; cases k <;> rfl)

mutual
theorem CE.inj : ∀ {a b : CE}, a.toObj = b.toObj → a = b := by
  intro a b e
  have hk : kindOf a = kindOf b := by rw [← kind_obj, e, kind_obj]
  cases a with
  | cls i =>
    cases b <;> first | (cases hk; done) | skip
    simp only [CE.toObj] at e
    rw [(ent_inj e).2]
  | inter cs =>
    cases b <;> first | (cases hk; done) | skip
    simp only [CE.toObj, Obj.comp.injEq, List.cons.injEq, Obj.vec.injEq, and_true, true_and] at e
    rw [CE.injs e]
  | union cs =>
    cases b <;> first | (cases hk; done) | skip
    simp only [CE.toObj, Obj.comp.injEq, List.cons.injEq, Obj.vec.injEq, and_true, true_and] at e
    rw [CE.injs e]
  | compl c =>
    cases b <;> first | (cases hk; done) | skip
    simp only [CE.toObj, Obj.comp.injEq, List.cons.injEq, and_true, true_and] at e
    rw [CE.inj e]
  | oneOf is =>
    cases b <;> first | (cases hk; done) | skip
    simp only [CE.toObj, Obj.comp.injEq, List.cons.injEq, Obj.vec.injEq, and_true, true_and] at e
    rw [map_inj Ind.inj e]
  | objSome p c =>
    cases b <;> first | (cases hk; done) | skip
    rename_i q d
    simp only [CE.toObj] at e
    split at e <;> split at e <;>
      simp only [Obj.comp.injEq, List.cons.injEq, and_true, true_and, reduceCtorEq, false_and, and_false] at e
    · rename_i h1 h2; rw [Ope.inj e, CE.top h1, CE.top h2]
    · rw [Ope.inj e.1, CE.inj e.2]
  | objAll p c =>
    cases b <;> first | (cases hk; done) | skip
    rename_i q d
    simp only [CE.toObj] at e
    split at e <;> split at e <;>
      simp only [Obj.comp.injEq, List.cons.injEq, and_true, true_and, reduceCtorEq, false_and, and_false] at e
    · rename_i h1 h2; rw [Ope.inj e, CE.top h1, CE.top h2]
    · rw [Ope.inj e.1, CE.inj e.2]
  | objHasValue p i =>
    cases b <;> first | (cases hk; done) | skip
    simp only [CE.toObj, Obj.comp.injEq, List.cons.injEq, and_true, true_and] at e
    rw [Ope.inj e.1, Ind.inj e.2]
  | objHasSelf p =>
    cases b <;> first | (cases hk; done) | skip
    simp only [CE.toObj, Obj.comp.injEq, List.cons.injEq, and_true, true_and] at e
    rw [Ope.inj e]
  | objCard k n p =>
    cases b <;> first | (cases hk; done) | skip
    simp only [CE.toObj, Obj.comp.injEq, List.cons.injEq, and_true, true_and] at e
    rw [CardKind.obj_inj e.1, Ope.inj e.2.1, UInt32.toNat_inj.1 e.2.2]
  | objCardQ k n p c =>
    cases b <;> first | (cases hk; done) | skip
    simp only [CE.toObj, Obj.comp.injEq, List.cons.injEq, and_true, true_and] at e
    rw [CardKind.obj_inj e.1, Ope.inj e.2.1.1, CE.inj e.2.1.2, UInt32.toNat_inj.1 e.2.2]
  | dataSome p c =>
    cases b <;> first | (cases hk; done) | skip
    rename_i q d
    simp only [CE.toObj] at e
    split at e <;> split at e <;>
      simp only [Obj.comp.injEq, List.cons.injEq, and_true, true_and, reduceCtorEq, false_and, and_false] at e
    · rename_i h1 h2; rw [(ent_inj e).2, DR.top h1, DR.top h2]
    · rw [(ent_inj e.1).2, DR.inj e.2]
  | dataAll p c =>
    cases b <;> first | (cases hk; done) | skip
    rename_i q d
    simp only [CE.toObj] at e
    split at e <;> split at e <;>
      simp only [Obj.comp.injEq, List.cons.injEq, and_true, true_and, reduceCtorEq, false_and, and_false] at e
    · rename_i h1 h2; rw [(ent_inj e).2, DR.top h1, DR.top h2]
    · rw [(ent_inj e.1).2, DR.inj e.2]
  | dataHasValue p l =>
    cases b <;> first | (cases hk; done) | skip
    simp only [CE.toObj, Obj.comp.injEq, List.cons.injEq, and_true, true_and] at e
    rw [(ent_inj e.1).2, Lit.inj e.2]
  | dataCard k n p =>
    cases b <;> first | (cases hk; done) | skip
    simp only [CE.toObj, Obj.comp.injEq, List.cons.injEq, and_true, true_and] at e
    rw [CardKind.data_inj e.1, (ent_inj e.2.1).2, UInt32.toNat_inj.1 e.2.2]
  | dataCardQ k n p d =>
    cases b <;> first | (cases hk; done) | skip
    simp only [CE.toObj, Obj.comp.injEq, List.cons.injEq, and_true, true_and] at e
    rw [CardKind.data_inj e.1, (ent_inj e.2.1.1).2, DR.inj e.2.1.2, UInt32.toNat_inj.1 e.2.2]

theorem CE.injs : ∀ {as bs : List CE}, CE.toObjs as = CE.toObjs bs → as = bs := by
  intro as bs e
  cases as with
  | nil =>
    cases bs with
    | nil => rfl
    | cons => simp only [CE.toObjs] at e; cases e
  | cons a as =>
    cases bs with
    | nil => simp only [CE.toObjs] at e; cases e
    | cons b bs =>
      simp only [CE.toObjs, List.cons.injEq] at e
      rw [CE.inj e.1, CE.injs e.2]
end

theorem AnnotVal.inj {a b : AnnotVal} (e : a.toObj = b.toObj) : a = b := by
  cases a <;> cases b <;> simp only [AnnotVal.toObj, Lit.toObj, Obj.prim.injEq, Prim.iri.injEq, Prim.anon.injEq, reduceCtorEq] at e
  · rw [e]
  · rw [e]
  · rw [Lit.inj e]

theorem AnnotSubj.inj {a b : AnnotSubj} (e : a.toObj = b.toObj) : a = b := by
  cases a <;> cases b <;> simp only [AnnotSubj.toObj, Obj.prim.injEq, Prim.iri.injEq, Prim.anon.injEq, reduceCtorEq] at e
  · rw [e]
  · rw [e]

theorem annotated_inj {t t' : OType} {fs fs' as as' : List Obj} (e : annotated t fs as = annotated t' fs' as') :
    t = t' ∧ fs = fs' ∧ as = as' := by
  unfold annotated at e
  split at e <;> split at e
  · obtain ⟨e1, -, e2, -⟩ := Obj.comp.inj e; exact ⟨e1, e2, rfl⟩
  · cases e
  · cases e
  · obtain ⟨e1, -, e2, -⟩ := Obj.comp.inj e
    obtain ⟨e3, e4⟩ := List.append_inj' e2 rfl
    simp only [List.cons.injEq, Obj.vec.injEq, and_true, true_and] at e4
    exact ⟨e1, e3, by rw [e4.1, e4.2]⟩

mutual
theorem Annot.inj : ∀ {a b : Annot}, a.toObj = b.toObj → a = b := by
  intro a b e
  cases a with
  | mk p v as =>
    cases b with
    | mk q w bs =>
      simp only [Annot.toObj] at e
      obtain ⟨-, e1, e2⟩ := annotated_inj e
      simp only [List.cons.injEq, and_true] at e1
      rw [(ent_inj e1.1).2, AnnotVal.inj e1.2, Annot.injs e2]

theorem Annot.injs : ∀ {as bs : List Annot}, Annot.toObjs as = Annot.toObjs bs → as = bs := by
  intro as bs e
  cases as with
  | nil =>
    cases bs with
    | nil => rfl
    | cons => simp only [Annot.toObjs] at e; cases e
  | cons a as =>
    cases bs with
    | nil => simp only [Annot.toObjs] at e; cases e
    | cons b bs =>
      simp only [Annot.toObjs, List.cons.injEq] at e
      rw [Annot.inj e.1, Annot.injs e.2]
end

theorem SubOpe.inj {a b : SubOpe} (e : a.toObj = b.toObj) : a = b := by
  cases a with
  | ope p =>
    cases b with
    | ope q => rw [Ope.inj e]
    | chain qs => cases p <;> cases e
  | chain ps =>
    cases b with
    | ope q => cases q <;> cases e
    | chain qs => rw [map_inj Ope.inj (Obj.vec.inj e).2]

theorem OpeChar.inj {k k' : OpeChar} (e : k.type = k'.type) : k = k' := by cases k <;> cases k' <;> first | rfl | cases e

theorem data_inj {ps qs : List Iri} (e : ps.map (ent .dataProp) = qs.map (ent .dataProp)) : ps = qs :=
  map_inj (fun h => (ent_inj h).2) e

theorem Ax.inj {a b : Ax} (ht : a.type = b.type) (e : a.fields = b.fields) : a = b := by
  cases a <;> cases b <;> first | (cases ht; done) | (rename_i k _; cases k <;> cases ht; done) | (rename_i k _ _; cases k <;> cases ht; done) |
    (rename_i k _ _ _; cases k <;> cases ht; done) | (rename_i k _ _ _ _; cases k <;> cases ht; done) | skip
  all_goals simp only [Ax.fields, List.cons.injEq, Obj.vec.injEq, Obj.prim.injEq, Prim.iri.injEq, and_true, true_and] at e
  · rw [(ent_inj e).1, (ent_inj e).2]
  · rw [CE.inj e.1, CE.inj e.2]
  · rw [CE.injs e]
  · rw [CE.injs e]
  · rw [(ent_inj e.1).2, CE.injs e.2]
  · rw [SubOpe.inj e.1, Ope.inj e.2]
  · rw [map_inj Ope.inj e]
  · rw [map_inj Ope.inj e]
  · rw [Ope.inj e.1, Ope.inj e.2]
  · rw [Ope.inj e.1, CE.inj e.2]
  · rw [Ope.inj e.1, CE.inj e.2]
  · rw [OpeChar.inj ht, Ope.inj e]
  · rw [(ent_inj e.1).2, (ent_inj e.2).2]
  · rw [data_inj e]
  · rw [data_inj e]
  · rw [(ent_inj e.1).2, CE.inj e.2]
  · rw [(ent_inj e.1).2, DR.inj e.2]
  · rw [(ent_inj e).2]
  · rw [(ent_inj e.1).2, DR.inj e.2]
  · rw [CE.inj e.1, map_inj Ope.inj e.2.1, data_inj e.2.2]
  · rw [map_inj Ind.inj e]
  · rw [map_inj Ind.inj e]
  · rw [CE.inj e.1, Ind.inj e.2]
  · rw [Ope.inj e.1, Ind.inj e.2.1, Ind.inj e.2.2]
  · rw [Ope.inj e.1, Ind.inj e.2.1, Ind.inj e.2.2]
  · rw [(ent_inj e.1).2, Ind.inj e.2.1, Lit.inj e.2.2]
  · rw [(ent_inj e.1).2, Ind.inj e.2.1, Lit.inj e.2.2]
  · rw [(ent_inj e.1).2, AnnotSubj.inj e.2.1, AnnotVal.inj e.2.2]
  · rw [(ent_inj e.1).2, (ent_inj e.2).2]
  · rw [(ent_inj e.1).2, e.2]
  · rw [(ent_inj e.1).2, e.2]

theorem Axiom.inj {a b : Axiom} (e : a.toObj = b.toObj) : a = b := by
  obtain ⟨a, as⟩ := a
  obtain ⟨b, bs⟩ := b
  obtain ⟨e1, e2, e3⟩ := annotated_inj e
  have h1 : a = b := Ax.inj e1 e2
  have h2 : as = bs := Annot.injs e3
  rw [h1, h2]

end Cowl.Ast
