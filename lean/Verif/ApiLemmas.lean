import Verif.ApiSpec
/-! # Lemmas on constructors and accessors -/
namespace Cowl.Ast
open Cowl.Api

/-! ## Putting together -/

theorem Ope.build_eq (p : Ope) : p.build = p.toObj := by cases p <;> rfl

theorem ope_map (ps : List Ope) : ps.map Ope.build = ps.map Ope.toObj :=
  List.map_congr_left fun p _ => p.build_eq

mutual
theorem DR.build_eq : (d : DR) → d.build = some d.toObj
  | .dt _ => rfl
  | .inter ds => by rw [DR.build, DR.buildAll_eq ds]; rfl
  | .union ds => by rw [DR.build, DR.buildAll_eq ds]; rfl
  | .compl d => by rw [DR.build, DR.build_eq d]; rfl
  | .oneOf _ => rfl
  | .restr _ _ => rfl
theorem DR.buildAll_eq : (ds : List DR) → DR.buildAll ds = some (DR.toObjs ds)
  | [] => rfl
  | d :: ds => by rw [DR.buildAll, DR.build_eq d, DR.buildAll_eq ds]; rfl
end

theorem drop_dr (d : DR) :
    dropDefault (.ent .datatype rdfsLiteral) (some d.toObj) = if d.isTop then none else some d.toObj := by
  cases d <;> simp [DR.toObj, dropDefault, DR.isTop, ent]

theorem drop_ce (c : CE) :
    dropDefault (.ent .cls owlThing) (some c.toObj) = if c.isTop then none else some c.toObj := by
  cases c with
  | objSome | objAll | dataSome | dataAll => rw [CE.toObj]; split <;> rfl
  | cls => simp [CE.toObj, dropDefault, CE.isTop, ent]
  | _ => rfl

mutual
theorem CE.build_eq : (c : CE) → c.build = some c.toObj
  | .cls _ => rfl
  | .inter cs => by rw [CE.build, CE.buildAll_eq cs]; rfl
  | .union cs => by rw [CE.build, CE.buildAll_eq cs]; rfl
  | .compl c => by rw [CE.build, CE.build_eq c]; rfl
  | .oneOf _ => rfl
  | .objSome p c => by
    rw [CE.build, CE.build_eq c, p.build_eq, CE.toObj]
    show some (getImpl .ceObjSome [p.toObj] (dropDefault (.ent .cls owlThing) (some c.toObj))) = _
    rw [drop_ce]; split <;> rfl
  | .objAll p c => by
    rw [CE.build, CE.build_eq c, p.build_eq, CE.toObj]
    show some (getImpl .ceObjAll [p.toObj] (dropDefault (.ent .cls owlThing) (some c.toObj))) = _
    rw [drop_ce]; split <;> rfl
  | .objHasValue p i => by rw [CE.build, p.build_eq]; rfl
  | .objHasSelf p => by rw [CE.build, p.build_eq]; rfl
  | .objCard k n p => by rw [CE.build, p.build_eq]; cases k <;> rfl
  | .objCardQ k n p c => by rw [CE.build, CE.build_eq c, p.build_eq]; cases k <;> rfl
  | .dataSome p d => by
    rw [CE.build, d.build_eq, CE.toObj]
    show some (getImpl .ceDataSome [ent .dataProp p] (dropDefault (.ent .datatype rdfsLiteral) (some d.toObj))) = _
    rw [drop_dr]; split <;> rfl
  | .dataAll p d => by
    rw [CE.build, d.build_eq, CE.toObj]
    show some (getImpl .ceDataAll [ent .dataProp p] (dropDefault (.ent .datatype rdfsLiteral) (some d.toObj))) = _
    rw [drop_dr]; split <;> rfl
  | .dataHasValue _ _ => rfl
  | .dataCard k _ _ => by cases k <;> rfl
  | .dataCardQ k _ _ d => by rw [CE.build, d.build_eq]; cases k <;> rfl
theorem CE.buildAll_eq : (cs : List CE) → CE.buildAll cs = some (CE.toObjs cs)
  | [] => rfl
  | c :: cs => by rw [CE.buildAll, CE.build_eq c, CE.buildAll_eq cs]; rfl
end

theorem implAnnot (t : OType) (fs as : List Obj) :
    getImplAnnot t fs (some (false, as)) = annotated t fs as := by cases as <;> rfl

mutual
theorem Annot.build_eq : (a : Annot) → a.build = a.toObj
  | .mk p v as => by
    rw [Annot.build, Annot.toObj, Annot.buildAll_eq as]; exact implAnnot _ _ _
theorem Annot.buildAll_eq : (as : List Annot) → Annot.buildAll as = Annot.toObjs as
  | [] => rfl
  | a :: as => by rw [Annot.buildAll, Annot.toObjs, Annot.build_eq a, Annot.buildAll_eq as]
end

theorem Ax.build_eq (a : Ax) (as : List Obj) :
    a.build (some (false, as)) = some (annotated a.type a.fields as) := by
  rw [← implAnnot]
  cases a with
  | subObjProp p q => cases p <;> simp only [Ax.build, Ope.build_eq, ope_map] <;> rfl
  | objPropChar k p => cases k <;> simp only [Ax.build, Ope.build_eq] <;> rfl
  | _ =>
    simp only [Ax.build, Ope.build_eq, ope_map, CE.build_eq, CE.buildAll_eq, DR.build_eq]
    rfl

/-! ## Taking apart -/

theorem readInd_eq (i : Ind) : readInd i.toObj = some i := by cases i <;> rfl

theorem readOpe_eq (p : Ope) : readOpe p.toObj = some p := by cases p <;> rfl

theorem readDpe_eq (p : Iri) : readDpe (ent .dataProp p) = some p := rfl

theorem readLit_eq (l : Lit) : readLit l.toObj = some l := by
  rcases l with ⟨v, t⟩; cases t <;> rfl

theorem readFacet_eq (f : Iri × Lit) : readFacet (facetObj f) = some f := by
  show (readLit f.2.toObj).map _ = _
  rw [readLit_eq]; rfl

theorem mapM_map {α β} (f : Obj → Option α) (g : β → Obj) (h : β → α) (e : ∀ b, f (g b) = some (h b))
    (bs : List β) : (bs.map g).mapM f = some (bs.map h) := by
  induction bs with
  | nil => rfl
  | cons b bs ih => simp [List.mapM_cons, e, ih]

theorem mapM_id {α} (f : Obj → Option α) (g : α → Obj) (e : ∀ b, f (g b) = some b) (bs : List α) :
    (bs.map g).mapM f = some bs := by
  have := mapM_map f g id e bs
  simpa using this

/-- Read whenever the depth allowed is large enough. -/
def Reads {α} (f : Nat → Obj → Option α) (o : Obj) (a : α) : Prop := ∃ m, ∀ n, m ≤ n → f n o = some a

/-- The same for the members of a list. -/
def ReadsAll {α} (f : Nat → Obj → Option α) (os : List Obj) (as : List α) : Prop :=
  ∃ m, ∀ n, m ≤ n → os.mapM (f n) = some as

theorem reads_all {α} {f : Nat → Obj → Option α} {o : Obj} {os : List Obj} {a : α} {as : List α}
    (h : Reads f o a) (hs : ReadsAll f os as) : ReadsAll f (o :: os) (a :: as) := by
  obtain ⟨m, h⟩ := h
  obtain ⟨k, hs⟩ := hs
  refine ⟨max m k, fun n hn => ?_⟩
  rw [List.mapM_cons, h n (by omega), hs n (by omega)]
  rfl

theorem reads_succ {α} {f : Nat → Obj → Option α} {o : Obj} {a : α} (m : Nat)
    (h : ∀ n, m ≤ n → f (n + 1) o = some a) : Reads f o a := by
  refine ⟨m + 1, fun n hn => ?_⟩
  obtain ⟨k, rfl⟩ : ∃ k, n = k + 1 := ⟨n - 1, by omega⟩
  exact h k (by omega)

mutual
theorem readDR_eq : (d : DR) → Reads readDR d.toObj d
  | .dt _ => reads_succ 0 fun _ _ => rfl
  | .inter ds => by
    obtain ⟨m, h⟩ := readDRs_eq ds
    refine reads_succ m fun n hn => ?_
    show ((DR.toObjs ds).mapM (readDR n)).bind _ = _
    rw [h n hn]; rfl
  | .union ds => by
    obtain ⟨m, h⟩ := readDRs_eq ds
    refine reads_succ m fun n hn => ?_
    show ((DR.toObjs ds).mapM (readDR n)).bind _ = _
    rw [h n hn]; rfl
  | .compl d => by
    obtain ⟨m, h⟩ := readDR_eq d
    refine reads_succ m fun n hn => ?_
    show (readDR n d.toObj).map _ = _
    rw [h n hn]; rfl
  | .oneOf ls => reads_succ 0 fun n _ => by
    show ((ls.map Lit.toObj).mapM readLit).map _ = _
    rw [mapM_id _ _ readLit_eq]; rfl
  | .restr i fs => reads_succ 0 fun n _ => by
    show ((fs.map facetObj).mapM readFacet).map _ = _
    rw [mapM_id _ _ readFacet_eq]; rfl
theorem readDRs_eq : (ds : List DR) → ReadsAll readDR (DR.toObjs ds) ds
  | [] => ⟨0, fun _ _ => rfl⟩
  | d :: ds => reads_all (readDR_eq d) (readDRs_eq ds)
end

theorem top_dr {d : DR} (h : d.isTop = true) : d = .dt rdfsLiteral := by
  cases d <;> simp [DR.isTop] at h
  rw [h]

theorem top_ce {c : CE} (h : c.isTop = true) : c = .cls owlThing := by
  cases c <;> simp [CE.isTop] at h
  rw [h]

mutual
theorem readCE_eq : (c : CE) → Reads readCE c.toObj c
  | .cls _ => reads_succ 0 fun _ _ => rfl
  | .inter cs => by
    obtain ⟨m, h⟩ := readCEs_eq cs
    refine reads_succ m fun n hn => ?_
    show ((CE.toObjs cs).mapM (readCE n)).bind _ = _
    rw [h n hn]; rfl
  | .union cs => by
    obtain ⟨m, h⟩ := readCEs_eq cs
    refine reads_succ m fun n hn => ?_
    show ((CE.toObjs cs).mapM (readCE n)).bind _ = _
    rw [h n hn]; rfl
  | .compl c => by
    obtain ⟨m, h⟩ := readCE_eq c
    refine reads_succ m fun n hn => ?_
    show (readCE n c.toObj).map _ = _
    rw [h n hn]; rfl
  | .oneOf is => reads_succ 0 fun n _ => by
    show ((is.map Ind.toObj).mapM readInd).map _ = _
    rw [mapM_id _ _ readInd_eq]; rfl
  | .objSome p c => by
    obtain ⟨m, h⟩ := readCE_eq c
    refine reads_succ (m + 1) fun n hn => ?_
    obtain ⟨k, rfl⟩ : ∃ k, n = k + 1 := ⟨n - 1, by omega⟩
    rw [CE.toObj]
    by_cases ht : c.isTop = true
    · rw [if_pos ht]
      show (readOpe p.toObj).bind _ = _
      rw [readOpe_eq, top_ce ht]; rfl
    · rw [if_neg ht]
      show (readOpe p.toObj).bind (fun p => (readCE (k + 1) c.toObj).bind _) = _
      rw [readOpe_eq, h _ (by omega)]; rfl
  | .objAll p c => by
    obtain ⟨m, h⟩ := readCE_eq c
    refine reads_succ (m + 1) fun n hn => ?_
    obtain ⟨k, rfl⟩ : ∃ k, n = k + 1 := ⟨n - 1, by omega⟩
    rw [CE.toObj]
    by_cases ht : c.isTop = true
    · rw [if_pos ht]
      show (readOpe p.toObj).bind _ = _
      rw [readOpe_eq, top_ce ht]; rfl
    · rw [if_neg ht]
      show (readOpe p.toObj).bind (fun p => (readCE (k + 1) c.toObj).bind _) = _
      rw [readOpe_eq, h _ (by omega)]; rfl
  | .objHasValue p i => reads_succ 0 fun n _ => by
    show (readOpe p.toObj).bind (fun p => (readInd i.toObj).map _) = _
    rw [readOpe_eq, readInd_eq]; rfl
  | .objHasSelf p => reads_succ 0 fun n _ => by
    show (readOpe p.toObj).map _ = _
    rw [readOpe_eq]; rfl
  | .objCard k u p => reads_succ 0 fun n _ => by
    cases k
    all_goals
      show (readOpe p.toObj).bind _ = _
      rw [readOpe_eq]
      show some (CE.objCard _ (UInt32.ofNat u.toNat) p) = _
      rw [UInt32.ofNat_toNat]; rfl
  | .objCardQ k u p c => by
    obtain ⟨m, h⟩ := readCE_eq c
    refine reads_succ m fun n hn => ?_
    cases k
    all_goals
      show (readOpe p.toObj).bind (fun p => (readCE n c.toObj).map fun c =>
        CE.objCardQ _ (UInt32.ofNat u.toNat) p c) = _
      rw [readOpe_eq, h n hn, UInt32.ofNat_toNat]; rfl
  | .dataSome p d => by
    obtain ⟨m, h⟩ := readDR_eq d
    refine reads_succ (m + 1) fun n hn => ?_
    obtain ⟨k, rfl⟩ : ∃ k, n = k + 1 := ⟨n - 1, by omega⟩
    rw [CE.toObj]
    by_cases ht : d.isTop = true
    · rw [if_pos ht, top_dr ht]; rfl
    · rw [if_neg ht]
      show (readDR (k + 1) d.toObj).bind _ = _
      rw [h _ (by omega)]; rfl
  | .dataAll p d => by
    obtain ⟨m, h⟩ := readDR_eq d
    refine reads_succ (m + 1) fun n hn => ?_
    obtain ⟨k, rfl⟩ : ∃ k, n = k + 1 := ⟨n - 1, by omega⟩
    rw [CE.toObj]
    by_cases ht : d.isTop = true
    · rw [if_pos ht, top_dr ht]; rfl
    · rw [if_neg ht]
      show (readDR (k + 1) d.toObj).bind _ = _
      rw [h _ (by omega)]; rfl
  | .dataHasValue p l => reads_succ 0 fun n _ => by
    show (readLit l.toObj).map _ = _
    rw [readLit_eq]; rfl
  | .dataCard k u p => reads_succ 0 fun n _ => by
    cases k
    all_goals
      show some (CE.dataCard _ (UInt32.ofNat u.toNat) p) = _
      rw [UInt32.ofNat_toNat]; rfl
  | .dataCardQ k u p d => by
    obtain ⟨m, h⟩ := readDR_eq d
    refine reads_succ m fun n hn => ?_
    cases k
    all_goals
      show (readDR n d.toObj).map (fun c => CE.dataCardQ _ (UInt32.ofNat u.toNat) p c) = _
      rw [h n hn, UInt32.ofNat_toNat]; rfl
theorem readCEs_eq : (cs : List CE) → ReadsAll readCE (CE.toObjs cs) cs
  | [] => ⟨0, fun _ _ => rfl⟩
  | c :: cs => reads_all (readCE_eq c) (readCEs_eq cs)
end

theorem readVal_eq (v : AnnotVal) : readVal v.toObj = some v := by
  cases v with
  | lit l =>
    show (readLit l.toObj).map _ = _
    rw [readLit_eq]; rfl
  | _ => rfl

theorem readSubj_eq (v : AnnotSubj) : readSubj v.toObj = some v := by cases v <;> rfl

theorem annots_of (t : OType) (fs as : List Obj) (hl : fs.length = t.fieldCount) :
    optField (annotated t fs as) = some (if as = [] then none else some (.vec false as)) := by
  cases as with
  | nil => rfl
  | cons a as =>
    show ((fs ++ [Obj.vec false (a :: as)])[t.fieldCount]?).map some = _
    rw [← hl, List.getElem?_append_right (Nat.le_refl _), Nat.sub_self]
    rfl

theorem readAnnots_eq {f : Obj → Option Annot} {os : List Obj} {as : List Annot}
    (h : os.mapM f = some as) :
    readAnnots f (if os = [] then none else some (.vec false os)) = some as := by
  cases os with
  | nil => exact h
  | cons o os => exact h

theorem field_of (t : OType) (fs as : List Obj) {i : Nat} (h : i < fs.length) :
    getField (annotated t fs as) i = fs[i]? := by
  cases as with
  | nil => rfl
  | cons a as =>
    show (fs ++ [Obj.vec false (a :: as)])[i]? = _
    rw [List.getElem?_append_left h]

theorem otype_of (t : OType) (fs as : List Obj) : (annotated t fs as).otype = t := by cases as <;> rfl

mutual
theorem readAnnot_eq : (a : Annot) → Reads readAnnot a.toObj a
  | .mk p v as => by
    obtain ⟨m, h⟩ := readAnnotList_eq as
    refine reads_succ m fun n hn => ?_
    rw [Annot.toObj, readAnnot, otype_of, if_neg (by simp), annotationGetProp, annotationGetValue,
      annotationGetAnnot, field_of _ _ _ (by simp), field_of _ _ _ (by simp), annots_of _ _ _ rfl]
    show (readVal v.toObj).bind (fun v => (readAnnots (readAnnot n) _).map fun as => Annot.mk p v as) = _
    rw [readVal_eq, readAnnots_eq (h n hn)]; rfl
theorem readAnnotList_eq : (as : List Annot) → ReadsAll readAnnot (Annot.toObjs as) as
  | [] => ⟨0, fun _ _ => rfl⟩
  | a :: as => reads_all (readAnnot_eq a) (readAnnotList_eq as)
end

theorem readSub_eq (p : SubOpe) : readSub p.toObj = some p := by
  cases p with
  | ope p =>
    show (if p.toObj.otype = .vector then _ else (readOpe p.toObj).map SubOpe.ope) = _
    rw [if_neg (by cases p <;> simp [Ope.toObj, ent, Obj.otype, Prim.otype, EntKind.otype]), readOpe_eq]; rfl
  | chain ps =>
    show ((ps.map Ope.toObj).mapM readOpe).map _ = _
    rw [mapM_id _ _ readOpe_eq]; rfl

theorem readAx_eq (a : Ax) : ∃ m, ∀ n, m ≤ n → ∀ as, readAx n (annotated a.type a.fields as) = some a := by
  cases a with
  | decl k i => exact ⟨0, fun n _ as => by cases as <;> rfl⟩
  | subClass c d =>
    obtain ⟨m, h⟩ := readCE_eq c
    obtain ⟨m', h'⟩ := readCE_eq d
    refine ⟨max m m', fun n hn as => ?_⟩
    cases as
    all_goals
      show (readCE n c.toObj).bind (fun c => (readCE n d.toObj).map fun d => Ax.subClass c d) = _
      rw [h n (by omega), h' n (by omega)]; rfl
  | equivClasses cs | disjClasses cs =>
    obtain ⟨m, h⟩ := readCEs_eq cs
    refine ⟨m, fun n hn as => ?_⟩
    cases as
    all_goals
      show ((CE.toObjs cs).mapM (readCE n)).bind _ = _
      rw [h n hn]; rfl
  | disjUnion c cs =>
    obtain ⟨m, h⟩ := readCEs_eq cs
    refine ⟨m, fun n hn as => ?_⟩
    cases as
    all_goals
      show ((CE.toObjs cs).mapM (readCE n)).map _ = _
      rw [h n hn]; rfl
  | subObjProp p q =>
    refine ⟨0, fun n _ as => ?_⟩
    cases as
    all_goals
      show (readSub p.toObj).bind (fun p => (readOpe q.toObj).map fun q => Ax.subObjProp p q) = _
      rw [readSub_eq, readOpe_eq]; rfl
  | equivObjProp ps | disjObjProp ps =>
    refine ⟨0, fun n _ as => ?_⟩
    cases as
    all_goals
      show ((ps.map Ope.toObj).mapM readOpe).bind _ = _
      rw [mapM_id _ _ readOpe_eq]; rfl
  | invObjProp p q =>
    refine ⟨0, fun n _ as => ?_⟩
    cases as
    all_goals
      show (readOpe p.toObj).bind (fun p => (readOpe q.toObj).map fun q => Ax.invObjProp p q) = _
      rw [readOpe_eq, readOpe_eq]; rfl
  | objPropDomain p c =>
    obtain ⟨m, h⟩ := readCE_eq c
    refine ⟨m, fun n hn as => ?_⟩
    cases as
    all_goals
      show (readOpe p.toObj).bind (fun p => (readCE n c.toObj).map fun c => Ax.objPropDomain p c) = _
      rw [readOpe_eq, h n hn]; rfl
  | objPropRange p c =>
    obtain ⟨m, h⟩ := readCE_eq c
    refine ⟨m, fun n hn as => ?_⟩
    cases as
    all_goals
      show (readOpe p.toObj).bind (fun p => (readCE n c.toObj).map fun c => Ax.objPropRange p c) = _
      rw [readOpe_eq, h n hn]; rfl
  | objPropChar k p =>
    refine ⟨0, fun n _ as => ?_⟩
    cases k <;> cases as
    all_goals
      show (readOpe p.toObj).map _ = _
      rw [readOpe_eq]; rfl
  | subDataProp p q => exact ⟨0, fun n _ as => by cases as <;> rfl⟩
  | equivDataProp ps | disjDataProp ps =>
    refine ⟨0, fun n _ as => ?_⟩
    cases as
    all_goals
      show ((ps.map (ent .dataProp)).mapM readDpe).bind _ = _
      rw [mapM_id _ _ readDpe_eq]; rfl
  | dataPropDomain p c =>
    obtain ⟨m, h⟩ := readCE_eq c
    refine ⟨m, fun n hn as => ?_⟩
    cases as
    all_goals
      show (readCE n c.toObj).map (fun c => Ax.dataPropDomain p c) = _
      rw [h n hn]; rfl
  | dataPropRange p d =>
    obtain ⟨m, h⟩ := readDR_eq d
    refine ⟨m, fun n hn as => ?_⟩
    cases as
    all_goals
      show (readDR n d.toObj).map (fun d => Ax.dataPropRange p d) = _
      rw [h n hn]; rfl
  | funcDataProp p => exact ⟨0, fun n _ as => by cases as <;> rfl⟩
  | datatypeDef i d =>
    obtain ⟨m, h⟩ := readDR_eq d
    refine ⟨m, fun n hn as => ?_⟩
    cases as
    all_goals
      show (readDR n d.toObj).map (fun d => Ax.datatypeDef i d) = _
      rw [h n hn]; rfl
  | hasKey c ps ds =>
    obtain ⟨m, h⟩ := readCE_eq c
    refine ⟨m, fun n hn as => ?_⟩
    cases as
    all_goals
      show (readCE n c.toObj).bind (fun c => ((ps.map Ope.toObj).mapM readOpe).bind fun ps =>
        ((ds.map (ent .dataProp)).mapM readDpe).map fun ds => Ax.hasKey c ps ds) = _
      rw [h n hn, mapM_id _ _ readOpe_eq, mapM_id _ _ readDpe_eq]; rfl
  | sameInd is | diffInd is =>
    refine ⟨0, fun n _ as => ?_⟩
    cases as
    all_goals
      show ((is.map Ind.toObj).mapM readInd).bind _ = _
      rw [mapM_id _ _ readInd_eq]; rfl
  | classAssert c i =>
    obtain ⟨m, h⟩ := readCE_eq c
    refine ⟨m, fun n hn as => ?_⟩
    cases as
    all_goals
      show (readCE n c.toObj).bind (fun c => (readInd i.toObj).map fun i => Ax.classAssert c i) = _
      rw [h n hn, readInd_eq]; rfl
  | objPropAssert p i j | negObjPropAssert p i j =>
    refine ⟨0, fun n _ as => ?_⟩
    cases as
    all_goals
      show (readOpe p.toObj).bind (fun p => (readInd i.toObj).bind fun i =>
        (readInd j.toObj).map _) = _
      rw [readOpe_eq, readInd_eq, readInd_eq]; rfl
  | dataPropAssert p i l | negDataPropAssert p i l =>
    refine ⟨0, fun n _ as => ?_⟩
    cases as
    all_goals
      show (readInd i.toObj).bind (fun i => (readLit l.toObj).map _) = _
      rw [readInd_eq, readLit_eq]; rfl
  | annotAssert p s v =>
    refine ⟨0, fun n _ as => ?_⟩
    cases as
    all_goals
      show (readSubj s.toObj).bind (fun s => (readVal v.toObj).map fun v => Ax.annotAssert p s v) = _
      rw [readSubj_eq, readVal_eq]; rfl
  | subAnnotProp p q => exact ⟨0, fun n _ as => by cases as <;> rfl⟩
  | annotPropDomain p i => exact ⟨0, fun n _ as => by cases as <;> rfl⟩
  | annotPropRange p i => exact ⟨0, fun n _ as => by cases as <;> rfl⟩

theorem Ax.fields_length (a : Ax) : a.fields.length = a.type.fieldCount := by
  cases a with
  | objPropChar k _ => cases k <;> rfl
  | _ => rfl

theorem readAxiom_eq (a : Axiom) : Reads readAxiom a.toObj a := by
  obtain ⟨m, h⟩ := readAx_eq a.ax
  obtain ⟨k, hk⟩ := readAnnotList_eq a.annots
  refine ⟨max m k, fun n hn => ?_⟩
  rw [readAxiom, Axiom.toObj, h n (by omega), axiomGetAnnot, annots_of _ _ _ a.ax.fields_length]
  show (readAnnots (readAnnot n) _).map _ = _
  rw [readAnnots_eq (hk n (by omega))]; rfl

end Cowl.Ast
