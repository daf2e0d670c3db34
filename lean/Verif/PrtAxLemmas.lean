import Verif.PrtRtLemmas
/-! # Lemmas: reading the annotations and axioms that were written -/
namespace Cowl.Prt
open Ast

section
variable {E : Env} (hu : E.u.Lawful) {ids : Id → Option Nat} {ix : DIndex}

/-- The bytes of annotations. -/
def annotBytes (u : Ulib) (ids : Id → Option Nat) : List Obj → Str
  | [] => []
  | a :: as => (encObj u ids (.vec false (a :: as))).bytes

theorem encList_append (u : Ulib) : ∀ xs ys : List Obj, encList u ids (xs ++ ys) = encList u ids xs ++ encList u ids ys
  | [], ys => by simp only [encList, List.nil_append]
  | x :: xs, ys => by simp only [encList, List.cons_append, encList_append u xs ys]

theorem encList_length (u : Ulib) : ∀ xs : List Obj, (encList u ids xs).length = xs.length
  | [] => by simp only [encList, List.length_nil]
  | x :: xs => by simp only [encList, List.length_cons, encList_length u xs]

/-- The fields and the annotations as `assemble` takes them apart. -/
theorem annot_parts (u : Ulib) (t : OType) (fs as : List Obj) (hl : fs.length = t.fieldCount) :
    ∃ opt : Out, opt.bytes = annotBytes u ids as ∧
      encObj u ids (annotated t fs as) =
        assemble u ids t (!as.isEmpty) (fs ++ (if as.isEmpty then [] else [.vec false as]))
          (encList u ids fs ++ (if as.isEmpty then [] else [opt])) 0 := by
  cases as with
  | nil => exact ⟨{}, rfl, by simp [annotated, encObj]⟩
  | cons a as =>
    refine ⟨encObj u ids (.vec false (a :: as)), rfl, ?_⟩
    simp [annotated, encObj, encList_append, encList]

/-- The axioms that are written by the general case of `encode_object`. -/
def plainType : OType → Bool
  | .aDecl | .aDatatypeDef | .aDisjUnion | .aSubObjProp | .aAnnotAssert => false
  | _ => true

/-- An axiom that is written as its header and its fields. -/
theorem plain_bytes (u : Ulib) (t : OType) (fs as : List Obj) (hl : fs.length = t.fieldCount) (ha : t.isAxiom = true)
    (ht : plainType t = true) :
    (encObj u ids (annotated t fs as)).bytes =
      (axHeader t (!as.isEmpty) false).bytes ++ ((cat (encList u ids fs)).bytes ++ annotBytes u ids as) := by
  obtain ⟨opt, ho, e⟩ := annot_parts (ids := ids) u t fs as hl
  have hw : (encList u ids fs).length = t.fieldCount := by rw [encList_length, hl]
  have key : assemble u ids t (!as.isEmpty) (fs ++ (if as.isEmpty then [] else [.vec false as]))
          (encList u ids fs ++ (if as.isEmpty then [] else [opt])) 0 =
      axHeader t (!as.isEmpty) false ++ (cat (encList u ids fs) ++ cat (if as.isEmpty then [] else [opt])) := by
    have h1 : (encList u ids fs ++ (if as.isEmpty then [] else [opt])).take t.fieldCount = encList u ids fs := by
      rw [← hw, List.take_left]
    have h2 : ((encList u ids fs ++ (if as.isEmpty then [] else [opt])).drop t.fieldCount).take
        (if (!as.isEmpty) = true then 1 else 0) = if as.isEmpty then [] else [opt] := by
      rw [← hw, List.drop_left]; cases as <;> rfl
    unfold assemble
    simp only [h1, h2]
    cases t <;> first | (exact absurd ha (by decide)) | (exact absurd ht (by decide)) | rfl
  rw [e, key]
  cases as with
  | nil => simp [annotBytes]
  | cons a as => simp [annotBytes] at ho ⊢; exact ho

mutual
theorem rt_annot (hu : E.u.Lawful) : ∀ a : Annot, a.Meets (prtReq E.u ids ix) → ∃ m, ∀ n, m ≤ n → RtO E ids ix (decAnnot E n) a.toObj
  | .mk p v [], h => by
    refine ⟨1, fun n hn => ?_⟩
    obtain ⟨n, rfl⟩ : ∃ k, n = k + 1 := ⟨n - 1, by omega⟩
    obtain ⟨k, hk, hr⟩ := rt_id hu h.1 (off := 1) (by omega)
    have hi : Rt (annotIri E (k + 1)) ix [] p := by
      rw [annotIri, if_neg (by omega), Nat.add_sub_cancel]; exact rt_getIri hk
    have hv : Rt (notNull (decAnnotVal E)) ix _ v.toObj := (rt_annotVal hu h.2.1).last rfl
    have ha : Rt (decAnnots E (decAnnot E n) (decide (k + 1 = 0))) ix [] none := by
      rw [decAnnots, if_neg (by simp)]; exact Rt.pure _
    refine Rt.cast (hr.bind (hi.bind (hv.bind (ha.last rfl)))) ?_
    simp [Annot.toObj, Annot.toObjs, annotated, encObj, encList, assemble, ent, encField, idObj, idOf]
  | .mk p v (a :: as), h => by
    obtain ⟨m, hm⟩ := rt_annots hu (a :: as) h.2.2.1
    refine ⟨m + 1, fun n hn => ?_⟩
    obtain ⟨n, rfl⟩ : ∃ k, n = k + 1 := ⟨n - 1, by omega⟩
    have hi : Rt (annotIri E 0) ix _ p := rt_iri hu h.1
    have hv : Rt (notNull (decAnnotVal E)) ix _ v.toObj := (rt_annotVal hu h.2.1).last rfl
    have hl : (Annot.toObjs (a :: as)).length < 4294967296 := by rw [length_toObjs_annot]; exact h.2.2.2
    have hx := rt_items hu false hl (hm n (by omega))
    have ha : Rt (decAnnots E (decAnnot E n) (decide (0 = 0))) ix _ (some (false, Annot.toObjs (a :: as))) := hx.last rfl
    refine Rt.cast ((rt_small hu (n := 0) (by omega)).bind (hi.bind (hv.bind (ha.last rfl)))) ?_
    simp [Annot.toObj, Annot.toObjs, annotated, encObj, encList, assemble, ent, encField, idObj, idOf,
      show OType.annotation.fieldCount = 2 from rfl]

theorem rt_annots (hu : E.u.Lawful) : ∀ as : List Annot, Annot.AllMeet (prtReq E.u ids ix) as →
    ∃ m, ∀ n, m ≤ n → ∀ o ∈ Annot.toObjs as, RtO E ids ix (decAnnot E n) o
  | [], _ => ⟨0, fun _ _ _ h => by cases h⟩
  | c :: cs, h => by
    obtain ⟨m, hm⟩ := rt_annot hu c h.1
    obtain ⟨k, hk⟩ := rt_annots hu cs h.2
    refine ⟨max m k, fun n hn o ho => ?_⟩
    rcases List.mem_cons.1 ho with e | e
    · rw [e]; exact hm n (by omega)
    · exact hk n (by omega) o e
end

/-- The annotations of an axiom as its constructor takes them. -/
def annotArg (as : List Obj) : Option (Bool × List Obj) := if as.isEmpty then none else some (false, as)

theorem annotArg_eq (t : OType) (fs as : List Obj) : getImplAnnot t fs (annotArg as) = annotated t fs as := by
  cases as <;> rfl

include hu in
theorem rt_axAnnots (as : List Annot) (h : Annot.AllMeet (prtReq E.u ids ix) as) (hl : as.length < 4294967296) :
    ∃ m, ∀ n, m ≤ n → Rt (decAnnots E (decAnnot E n) (!(Annot.toObjs as).isEmpty)) ix
      (annotBytes E.u ids (Annot.toObjs as)) (annotArg (Annot.toObjs as)) := by
  cases as with
  | nil => exact ⟨0, fun n _ => Rt.pure _⟩
  | cons a as =>
    obtain ⟨m, hm⟩ := rt_annots hu (a :: as) h
    refine ⟨m, fun n hn => ?_⟩
    exact (rt_items hu false (by rw [length_toObjs_annot]; exact hl) (hm n hn)).last rfl

/-- Fields that are read back one after the other. -/
def RtFs (E : Env) (ix : DIndex) (n : Nat) : List FK → List Obj → Str → Prop
  | [], [], b => b = []
  | k :: ks, o :: os, b => ∃ b1 b2, b = b1 ++ b2 ∧ Rt (decField E n k) ix b1 (some o) ∧ RtFs E ix n ks os b2
  | _, _, _ => False

theorem RtFs.decFields {n : Nat} : ∀ {ks : List FK} {os : List Obj} {b : Str}, RtFs E ix n ks os b →
    Rt (decFields E n ks) ix b (os.map some)
  | [], [], b, h => by cases (show b = [] from h); exact Rt.pure _
  | k :: ks, o :: os, b, h => by
    obtain ⟨b1, b2, rfl, h1, h2⟩ := h
    exact h1.bind ((RtFs.decFields h2).last rfl)
  | [], _ :: _, _, h => h.elim
  | _ :: _, [], _, h => h.elim

theorem mapM_all (os : List Obj) : (os.map some).mapM id = some os := by
  induction os with
  | nil => rfl
  | cons o os ih => simp [ih]

theorem RtFs.decPlain {n : Nat} {ks : List FK} {os as : List Obj} {b ab : Str} (t : OType)
    (h : RtFs E ix n ks os b) (ha : Rt (decAnnots E (decAnnot E n) (!as.isEmpty)) ix ab (annotArg as)) :
    Rt (noLate (decPlain E n t ks (!as.isEmpty))) ix (b ++ ab) (annotated t os as, true) := by
  refine Rt.last (a := annotated t os as) ?_ rfl
  refine h.decFields.bind (ha.last ?_)
  rw [allWhole, mapM_all]
  exact congrArg Dec.pure (annotArg_eq t os as)

/-- The header byte of an axiom. -/
def axByte (t : OType) (annot utility : Bool) : UInt8 :=
  UInt8.ofNat (t.code - 12 + 5 + 9 + (if utility then 128 else 0) + (if annot then 64 else 0))

theorem decAxiom_header {t : OType} {ks : List FK} (h : axFields t = some ks) (n : Nat) (bit : Bool) :
    decAxiom E n (axByte t bit false) = noLate (decPlain E n t ks bit) ∧ 9 ≤ (axByte t bit false).toNat % 64 := by
  cases t <;> simp only [axFields, Option.some.injEq, reduceCtorEq] at h <;> subst h <;> cases bit <;>
    exact ⟨rfl, by decide⟩

/-- Fields that are written by `encode_object` and read back. -/
def Each (E : Env) (ids : Id → Option Nat) (ix : DIndex) (n : Nat) : List FK → List Obj → Prop
  | [], [] => True
  | k :: ks, o :: os => Rt (decField E n k) ix (encObj E.u ids o).bytes (some o) ∧ Each E ids ix n ks os
  | _, _ => False

theorem Each.rtFs {n : Nat} : ∀ {ks : List FK} {os : List Obj}, Each E ids ix n ks os →
    RtFs E ix n ks os (cat (encList E.u ids os)).bytes
  | [], [], _ => by simp only [encList]; rfl
  | k :: ks, o :: os, h => by simp only [encList]; exact ⟨_, _, rfl, h.1, Each.rtFs h.2⟩
  | [], _ :: _, h => h.elim
  | _ :: _, [], h => h.elim

/-- The axiom is read back if the depth is bounded by `n`. -/
def RtAx (E : Env) (ids : Id → Option Nat) (ix : DIndex) (n : Nat) (o : Obj) : Prop :=
  ∃ c b, (encObj E.u ids o).bytes = c :: b ∧ 9 ≤ c.toNat % 64 ∧ Rt (decAxiom E n c) ix b (o, true)

theorem rtAx_plain {t : OType} {ks : List FK} {fs as : List Obj} {n : Nat} (ha : t.isAxiom = true)
    (hk : axFields t = some ks) (hl : fs.length = t.fieldCount)
    (ht : plainType t = true)
    (hf : Each E ids ix n ks fs)
    (hn : Rt (decAnnots E (decAnnot E n) (!as.isEmpty)) ix (annotBytes E.u ids as) (annotArg as)) :
    RtAx E ids ix n (annotated t fs as) := by
  refine ⟨axByte t (!as.isEmpty) false, (cat (encList E.u ids fs)).bytes ++ annotBytes E.u ids as,
    plain_bytes E.u t fs as hl ha ht, (decAxiom_header (E := E) hk n _).2, ?_⟩
  rw [(decAxiom_header hk n _).1]
  exact RtFs.decPlain t hf.rtFs hn

theorem rtAx_special {t : OType} {ks : List FK} {fs as : List Obj} {n : Nat} {b : Str}
    (hk : axFields t = some ks) (hf : RtFs E ix n ks fs b)
    (he : (encObj E.u ids (annotated t fs as)).bytes = axByte t (!as.isEmpty) false :: (b ++ annotBytes E.u ids as))
    (hn : Rt (decAnnots E (decAnnot E n) (!as.isEmpty)) ix (annotBytes E.u ids as) (annotArg as)) :
    RtAx E ids ix n (annotated t fs as) := by
  refine ⟨_, _, he, (decAxiom_header (E := E) hk n _).2, ?_⟩
  rw [(decAxiom_header hk n _).1]
  exact RtFs.decPlain t hf hn

/-- The header byte of a declaration. -/
def declByte (k : EntKind) (annot : Bool) : UInt8 := UInt8.ofNat (9 + entCode k + (if annot then 64 else 0))

theorem decAxiom_decl (k : EntKind) (n : Nat) (bit : Bool) :
    9 ≤ (declByte k bit).toNat % 64 ∧ decAxiom E n (declByte k bit) = noLate (do
      let e ← decEnt E k
      let as ← decAnnots E (decAnnot E n) bit
      pure (getImplAnnot .aDecl [e] as)) := by
  cases k <;> cases bit <;> exact ⟨by decide, rfl⟩

section
include hu

theorem rtAx_decl (k : EntKind) {i : Iri} (h : Knows ids ix (.iri i)) {as : List Obj} {n : Nat}
    (hn : Rt (decAnnots E (decAnnot E n) (!as.isEmpty)) ix (annotBytes E.u ids as) (annotArg as)) :
    RtAx E ids ix n (annotated .aDecl [ent k i] as) := by
  have he : (encObj E.u ids (annotated .aDecl [ent k i] as)).bytes =
      declByte k (!as.isEmpty) ::
        ((encId E.u ids 0 (.iri i)).bytes ++ annotBytes E.u ids as) := by
    cases as <;> simp [annotated, encObj, encList, assemble, ent, encField, idObj, idOf, annotBytes, declCode, declByte,
      show OType.aDecl.fieldCount = 1 from rfl]
  refine ⟨_, _, he, (decAxiom_decl (E := E) k n _).1, ?_⟩
  rw [(decAxiom_decl k n _).2]
  have := ((rt_ent hu k h).bind (k := fun e => do
      let as ← decAnnots E (decAnnot E n) (!as.isEmpty)
      pure (getImplAnnot .aDecl [e] as)) (hn.last
    (congrArg Dec.pure (annotArg_eq .aDecl [.prim (.ent k i)] as))))
  have h2 := Rt.last (k := fun o => (pure (o, true) : Dec (Obj × Bool))) this rfl
  exact h2

theorem rtAx_sub {p : SubOpe} {q : Ope} (hp : p.Meets (prtReq E.u ids ix)) (hq : q.Meets (prtReq E.u ids ix))
    {as : List Obj} {n : Nat}
    (hn : Rt (decAnnots E (decAnnot E n) (!as.isEmpty)) ix (annotBytes E.u ids as) (annotArg as)) :
    RtAx E ids ix n (annotated .aSubObjProp [p.toObj, q.toObj] as) := by
  have hs : Rt (decSubOpe E (isChain (some p.toObj))) ix (encObj E.u ids p.toObj).bytes p.toObj := by
    cases p with
    | ope p =>
      have e : isChain (some (SubOpe.ope p).toObj) = false := by cases p <;> rfl
      rw [e]; exact rt_ope hu hp.1
    | chain ps => exact (rt_items hu true (by rw [List.length_map]; exact hp.1) (rt_opeItems hu hp.2)).last rfl
  have hpq : Rt (decSubSup E (isChain (some p.toObj))) ix
      ((encObj E.u ids p.toObj).bytes ++ (encObj E.u ids q.toObj).bytes) (p.toObj, q.toObj) :=
    hs.bind ((rt_ope hu hq).last rfl)
  have he : (encObj E.u ids (annotated .aSubObjProp [p.toObj, q.toObj] as)).bytes =
      axByte .aSubObjProp (!as.isEmpty) (isChain (some p.toObj)) ::
        ((encObj E.u ids p.toObj).bytes ++ (encObj E.u ids q.toObj).bytes ++ annotBytes E.u ids as) := by
    cases as <;> simp [annotated, encObj, encList, assemble, annotBytes, axHeader, axByte,
      show OType.aSubObjProp.fieldCount = 2 from rfl]
  have hh : ∀ b c : Bool, 9 ≤ (axByte .aSubObjProp b c).toNat % 64 ∧
      decAxiom E n (axByte .aSubObjProp b c) = decSubObjProp E n c b := by
    intro b c; cases b <;> cases c <;> exact ⟨by decide, rfl⟩
  refine ⟨_, _, he, (hh _ _).1, ?_⟩
  rw [(hh _ _).2]
  intro rest f
  simp only [decSubObjProp]
  rw [List.append_assoc, hpq _ f]
  simp only
  rw [hn rest f]
  simp only [annotArg_eq]

/-- A field of a class. -/
theorem rt_fce {c : CE} (h : c.Meets (prtReq E.u ids ix)) :
    ∃ m, ∀ n, m ≤ n → Rt (decField E n .ce) ix (encObj E.u ids c.toObj).bytes (some c.toObj) := by
  obtain ⟨m, hm⟩ := rt_ce hu c h
  exact ⟨m, fun n hn => (hm n hn).last rfl⟩

theorem rt_fdr {c : DR} (h : c.Meets (prtReq E.u ids ix)) :
    ∃ m, ∀ n, m ≤ n → Rt (decField E n .dr) ix (encObj E.u ids c.toObj).bytes (some c.toObj) := by
  obtain ⟨m, hm⟩ := rt_dr hu c h
  exact ⟨m, fun n hn => (hm n hn).last rfl⟩

theorem rt_fces {cs : List CE} (hl : cs.length < 4294967296) (h : CE.AllMeet (prtReq E.u ids ix) cs) :
    ∃ m, ∀ n, m ≤ n → Rt (decField E n .vecCE) ix (encObj E.u ids (.vec false (CE.toObjs cs))).bytes
      (some (.vec false (CE.toObjs cs))) := by
  obtain ⟨m, hm⟩ := rt_ces hu cs h
  exact ⟨m, fun n hn => (rt_vec hu (by rw [length_toObjs_ce]; exact hl) (hm n hn)).last rfl⟩

theorem rt_fope {p : Ope} (h : p.Meets (prtReq E.u ids ix)) (n : Nat) :
    Rt (decField E n .ope) ix (encObj E.u ids p.toObj).bytes (some p.toObj) := (rt_ope hu h).last rfl

theorem rt_find {p : Ind} (h : p.Meets (prtReq E.u ids ix)) (n : Nat) :
    Rt (decField E n .ind) ix (encObj E.u ids p.toObj).bytes (some p.toObj) := (rt_ind hu h).last rfl

theorem rt_fdp {p : Iri} (h : Knows ids ix (.iri p)) (n : Nat) :
    Rt (decField E n (.ent .dataProp)) ix (encObj E.u ids (ent .dataProp p)).bytes (some (ent .dataProp p)) :=
  (rt_dataProp hu h).last rfl

theorem rt_fap {p : Iri} (h : Knows ids ix (.iri p)) (n : Nat) :
    Rt (decField E n (.ent .annotProp)) ix (encObj E.u ids (ent .annotProp p)).bytes (some (ent .annotProp p)) :=
  (rt_annotProp hu h).last rfl

theorem rt_firi {p : Iri} (h : Knows ids ix (.iri p)) (n : Nat) :
    Rt (decField E n .iri) ix (encObj E.u ids (.prim (.iri p))).bytes (some (.prim (.iri p))) :=
  Rt.cast ((rt_iri hu h).last rfl) (by simp only [encObj])

theorem rt_fopes {ps : List Ope} (hl : ps.length < 4294967296) (h : ∀ p ∈ ps, p.Meets (prtReq E.u ids ix)) (n : Nat) :
    Rt (decField E n .vecOpe) ix (encObj E.u ids (.vec false (ps.map Ope.toObj))).bytes
      (some (.vec false (ps.map Ope.toObj))) := (rt_opes hu hl h).last rfl

theorem rt_fdpes {ps : List Iri} (hl : ps.length < 4294967296) (h : ∀ p ∈ ps, Knows ids ix (.iri p)) (n : Nat) :
    Rt (decField E n .vecDpe) ix (encObj E.u ids (.vec false (ps.map (ent .dataProp)))).bytes
      (some (.vec false (ps.map (ent .dataProp)))) := (rt_dpes hu hl h).last rfl

theorem rt_finds {ps : List Ind} (hl : ps.length < 4294967296) (h : ∀ p ∈ ps, p.Meets (prtReq E.u ids ix)) (n : Nat) :
    Rt (decField E n .vecInd) ix (encObj E.u ids (.vec false (ps.map Ind.toObj))).bytes
      (some (.vec false (ps.map Ind.toObj))) := (rt_inds hu hl h).last rfl

theorem rt_flit {l : Lit} (h : (prtReq E.u ids ix).lit l) (n : Nat) :
    Rt (decField E n .lit) ix (encObj E.u ids l.toObj).bytes (some l.toObj) := rt_literal hu h

/-- A field that is an entity, without an offset. -/
theorem rt_fent (k : EntKind) {i : Iri} (h : Knows ids ix (.iri i)) (n : Nat) :
    Rt (decField E n (.ent k)) ix (encId E.u ids 0 (.iri i)).bytes (some (ent k i)) := (rt_ent hu k h).last rfl

theorem rt_ax (x : Ax) (h : x.Meets (prtReq E.u ids ix)) : ∃ m, ∀ n, m ≤ n → ∀ as : List Obj,
    Rt (decAnnots E (decAnnot E n) (!as.isEmpty)) ix (annotBytes E.u ids as) (annotArg as) →
    RtAx E ids ix n (annotated x.type x.fields as) := by
  cases x with
  | decl k i => exact ⟨0, fun n _ as ha => rtAx_decl hu k h ha⟩
  | subClass c d =>
    obtain ⟨m, hm⟩ := rt_fce hu h.1
    obtain ⟨m', hm'⟩ := rt_fce hu h.2
    exact ⟨max m m', fun n hn as ha => rtAx_plain rfl rfl rfl rfl
      ⟨hm n (by omega), hm' n (by omega), trivial⟩ ha⟩
  | equivClasses cs =>
    obtain ⟨m, hm⟩ := rt_fces hu h.1 h.2
    exact ⟨m, fun n hn as ha => rtAx_plain rfl rfl rfl rfl ⟨hm n hn, trivial⟩ ha⟩
  | disjClasses cs =>
    obtain ⟨m, hm⟩ := rt_fces hu h.1 h.2
    exact ⟨m, fun n hn as ha => rtAx_plain rfl rfl rfl rfl ⟨hm n hn, trivial⟩ ha⟩
  | disjUnion c cs =>
    obtain ⟨m, hm⟩ := rt_fces hu h.2.1 h.2.2
    refine ⟨m, fun n hn as ha => rtAx_special rfl ⟨_, _, rfl, rt_fent hu .cls h.1 n, _, _, rfl, hm n hn, rfl⟩ ?_ ha⟩
    cases as <;> simp [Ax.type, Ax.fields, annotated, encObj, encList, assemble, ent, encField, idObj, idOf, annotBytes, axHeader,
      axByte, show OType.aDisjUnion.fieldCount = 2 from rfl]
  | subObjProp p q => exact ⟨0, fun n _ as ha => rtAx_sub hu h.1 h.2 ha⟩
  | equivObjProp ps =>
    exact ⟨0, fun n hn as ha => rtAx_plain rfl rfl rfl rfl ⟨rt_fopes hu h.1 h.2 n, trivial⟩ ha⟩
  | disjObjProp ps =>
    exact ⟨0, fun n hn as ha => rtAx_plain rfl rfl rfl rfl ⟨rt_fopes hu h.1 h.2 n, trivial⟩ ha⟩
  | invObjProp p q =>
    exact ⟨0, fun n hn as ha => rtAx_plain rfl rfl rfl rfl ⟨rt_fope hu h.1 n, rt_fope hu h.2 n, trivial⟩ ha⟩
  | objPropDomain p c =>
    obtain ⟨m, hm⟩ := rt_fce hu h.2
    exact ⟨m, fun n hn as ha => rtAx_plain rfl rfl rfl rfl ⟨rt_fope hu h.1 n, hm n hn, trivial⟩ ha⟩
  | objPropRange p c =>
    obtain ⟨m, hm⟩ := rt_fce hu h.2
    exact ⟨m, fun n hn as ha => rtAx_plain rfl rfl rfl rfl ⟨rt_fope hu h.1 n, hm n hn, trivial⟩ ha⟩
  | objPropChar k p =>
    refine ⟨0, fun n hn as ha => ?_⟩
    cases k <;> exact rtAx_plain rfl rfl rfl rfl ⟨rt_fope hu h n, trivial⟩ ha
  | subDataProp p q =>
    exact ⟨0, fun n hn as ha => rtAx_plain rfl rfl rfl rfl ⟨rt_fdp hu h.1 n, rt_fdp hu h.2 n, trivial⟩ ha⟩
  | equivDataProp ps =>
    exact ⟨0, fun n hn as ha => rtAx_plain rfl rfl rfl rfl ⟨rt_fdpes hu h.1 h.2 n, trivial⟩ ha⟩
  | disjDataProp ps =>
    exact ⟨0, fun n hn as ha => rtAx_plain rfl rfl rfl rfl ⟨rt_fdpes hu h.1 h.2 n, trivial⟩ ha⟩
  | dataPropDomain p c =>
    obtain ⟨m, hm⟩ := rt_fce hu h.2
    exact ⟨m, fun n hn as ha => rtAx_plain rfl rfl rfl rfl ⟨rt_fdp hu h.1 n, hm n hn, trivial⟩ ha⟩
  | dataPropRange p d =>
    obtain ⟨m, hm⟩ := rt_fdr hu h.2
    exact ⟨m, fun n hn as ha => rtAx_plain rfl rfl rfl rfl ⟨rt_fdp hu h.1 n, hm n hn, trivial⟩ ha⟩
  | funcDataProp p =>
    exact ⟨0, fun n hn as ha => rtAx_plain rfl rfl rfl rfl ⟨rt_fdp hu h n, trivial⟩ ha⟩
  | datatypeDef i d =>
    obtain ⟨m, hm⟩ := rt_fdr hu h.2
    refine ⟨m, fun n hn as ha => rtAx_special rfl ⟨_, _, rfl, rt_fent hu .datatype h.1 n, _, _, rfl, hm n hn, rfl⟩ ?_ ha⟩
    cases as <;> simp [Ax.type, Ax.fields, annotated, encObj, encList, assemble, ent, encField, idObj, idOf, annotBytes, axHeader,
      axByte, show OType.aDatatypeDef.fieldCount = 2 from rfl]
  | hasKey c ps ds =>
    obtain ⟨m, hm⟩ := rt_fce hu h.1
    exact ⟨m, fun n hn as ha => rtAx_plain rfl rfl rfl rfl
      ⟨hm n hn, rt_fopes hu h.2.2.2.1 h.2.1 n, rt_fdpes hu h.2.2.2.2 h.2.2.1 n, trivial⟩ ha⟩
  | sameInd is =>
    exact ⟨0, fun n hn as ha => rtAx_plain rfl rfl rfl rfl ⟨rt_finds hu h.1 h.2 n, trivial⟩ ha⟩
  | diffInd is =>
    exact ⟨0, fun n hn as ha => rtAx_plain rfl rfl rfl rfl ⟨rt_finds hu h.1 h.2 n, trivial⟩ ha⟩
  | classAssert c i =>
    obtain ⟨m, hm⟩ := rt_fce hu h.1
    exact ⟨m, fun n hn as ha => rtAx_plain rfl rfl rfl rfl ⟨hm n hn, rt_find hu h.2 n, trivial⟩ ha⟩
  | objPropAssert p i j =>
    exact ⟨0, fun n hn as ha => rtAx_plain rfl rfl rfl rfl
      ⟨rt_fope hu h.1 n, rt_find hu h.2.1 n, rt_find hu h.2.2 n, trivial⟩ ha⟩
  | negObjPropAssert p i j =>
    exact ⟨0, fun n hn as ha => rtAx_plain rfl rfl rfl rfl
      ⟨rt_fope hu h.1 n, rt_find hu h.2.1 n, rt_find hu h.2.2 n, trivial⟩ ha⟩
  | dataPropAssert p i l =>
    exact ⟨0, fun n hn as ha => rtAx_plain rfl rfl rfl rfl
      ⟨rt_fdp hu h.1 n, rt_find hu h.2.1 n, rt_flit hu h.2.2 n, trivial⟩ ha⟩
  | negDataPropAssert p i l =>
    exact ⟨0, fun n hn as ha => rtAx_plain rfl rfl rfl rfl
      ⟨rt_fdp hu h.1 n, rt_find hu h.2.1 n, rt_flit hu h.2.2 n, trivial⟩ ha⟩
  | annotAssert p s v =>
    have h2 : ∀ n, Rt (decField E n .iriOrAnon) ix (encField E.u ids 0 (some s.toObj)).bytes (some s.toObj) := by
      intro n
      refine Rt.cast ((rt_iriOrAnon hu h.2.1).last rfl) ?_
      cases s <;> simp [AnnotSubj.toObj, encObj, encField, idObj, idOf]
    refine ⟨0, fun n hn as ha => rtAx_special rfl ⟨_, _, rfl, rt_fent hu .annotProp h.1 n, _, _, rfl, h2 n,
      _, _, rfl, rt_annotVal hu h.2.2, rfl⟩ ?_ ha⟩
    cases as <;> simp [Ax.type, Ax.fields, annotated, encObj, encList, assemble, ent, encField, idObj, idOf, annotBytes, axHeader,
      axByte, show OType.aAnnotAssert.fieldCount = 3 from rfl]
  | subAnnotProp p q =>
    exact ⟨0, fun n hn as ha => rtAx_plain rfl rfl rfl rfl ⟨rt_fap hu h.1 n, rt_fap hu h.2 n, trivial⟩ ha⟩
  | annotPropDomain p i =>
    exact ⟨0, fun n hn as ha => rtAx_plain rfl rfl rfl rfl ⟨rt_fap hu h.1 n, rt_firi hu h.2 n, trivial⟩ ha⟩
  | annotPropRange p i =>
    exact ⟨0, fun n hn as ha => rtAx_plain rfl rfl rfl rfl ⟨rt_fap hu h.1 n, rt_firi hu h.2 n, trivial⟩ ha⟩

theorem rt_axiom (a : Axiom) (h : a.Meets (prtReq E.u ids ix)) : ∃ m, ∀ n, m ≤ n → RtAx E ids ix n a.toObj := by
  obtain ⟨m, hm⟩ := rt_ax hu a.ax h.1
  obtain ⟨k, hk⟩ := rt_axAnnots hu a.annots h.2.1 h.2.2
  exact ⟨max m k, fun n hn => hm n (by omega) _ (hk n (by omega))⟩

end
end
end Cowl.Prt
