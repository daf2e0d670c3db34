import Verif.PrtFuelLemmas
import Verif.IterSpec
/-! # Lemmas: constructs whose names are indexed are written without an error -/
namespace Cowl.Prt
open Ast IterSpec

section
variable {u : Ulib} {ids : Id → Option Nat}

theorem cat_ok : ∀ {ws : List Out}, (∀ w ∈ ws, w.ok = true) → (cat ws).ok = true
  | [], _ => rfl
  | w :: ws, h => by
    simp only [cat_cons, append_ok, Bool.and_eq_true]
    exact ⟨h w (by simp), cat_ok fun x hx => h x (by simp [hx])⟩

theorem mem_encList {w : Out} : ∀ {xs : List Obj}, w ∈ encList u ids xs → ∃ x ∈ xs, w = encObj u ids x
  | [], h => by simp [encList] at h
  | x :: xs, h => by
    simp only [encList, List.mem_cons] at h
    rcases h with h | h
    · exact ⟨x, by simp, h⟩
    · obtain ⟨y, h1, h2⟩ := mem_encList h; exact ⟨y, by simp [h1], h2⟩

theorem vint_ok (n : Nat) : (vint u n).ok = true := rfl

/-- The field is a name. -/
def PrimAt (fs : List Obj) (i : Nat) : Prop := ∃ p, fs[i]? = some (.prim p)

/-- The field is a name or a literal. -/
def ValAt (fs : List Obj) (i : Nat) : Prop := PrimAt fs i ∨ ∃ v t, fs[i]? = some (.lit v t)

/-- Fields that must be names. -/
def Shape (t : OType) (fs : List Obj) : Prop :=
  match t with
  | .facetRestr | .opeInvObjProp | .aDecl | .aDatatypeDef | .aDisjUnion | .drDatatypeRestr => PrimAt fs 0
  | .annotation => PrimAt fs 0 ∧ ValAt fs 1
  | .aAnnotAssert => PrimAt fs 0 ∧ PrimAt fs 1 ∧ ValAt fs 2
  | _ => True

theorem prim_ok (p : Prim) (off : Nat) : (encId u ids off (idOf p)).ok = (encObj u ids (.prim p)).ok := by
  have : ∀ i o o', (encId u ids o i).ok = (encId u ids o' i).ok := by
    intro i o o'; unfold encId; split <;> rfl
  cases p <;> simp only [encObj, idOf] <;> exact this _ _ _

theorem getD_ok {ws : List Out} (h : ∀ w ∈ ws, w.ok = true) (i : Nat) : (ws[i]?.getD {}).ok = true := by
  cases e : ws[i]? with
  | none => rfl
  | some w => exact h w (List.mem_of_getElem? e)

theorem encList_getElem? : ∀ (fs : List Obj) (i : Nat), (encList u ids fs)[i]? = fs[i]?.map (encObj u ids)
  | [], i => by simp [encList]
  | x :: xs, 0 => by simp [encList]
  | x :: xs, i + 1 => by simp [encList, encList_getElem? xs i]

theorem primAt_ok {fs : List Obj} {i : Nat} (hs : ∀ x ∈ fs, (encObj u ids x).ok = true) (h : PrimAt fs i) (off : Nat) :
    (encField u ids off fs[i]?).ok = true := by
  obtain ⟨p, h⟩ := h
  have := hs _ (List.mem_of_getElem? h)
  rw [h]
  exact (prim_ok p off).trans this

theorem valAt_ok {fs : List Obj} {i : Nat} (hs : ∀ x ∈ fs, (encObj u ids x).ok = true) (h : ValAt fs i) :
    (encAnnotVal u ids fs[i]? ((encList u ids fs)[i]?.getD {})).ok = true := by
  rcases h with h | ⟨v, t, h⟩
  · have := primAt_ok hs h 1
    obtain ⟨p, h⟩ := h
    rw [h] at this ⊢; exact this
  · rw [encList_getElem?, h]
    exact hs _ (List.mem_of_getElem? h)

theorem comp_ok {t : OType} {bit : Bool} {fs : List Obj} {n : Nat} (hs : ∀ x ∈ fs, (encObj u ids x).ok = true)
    (hf : Shape t fs) (ho : (t = .ceObjSome ∨ t = .ceObjAll) → bit = false → (ids (.iri owlThing)).isSome = true)
    (hd : (t = .ceDataSome ∨ t = .ceDataAll) → bit = false → (ids (.iri rdfsLiteral)).isSome = true) :
    (encObj u ids (.comp t bit fs n)).ok = true := by
  have hw : ∀ w ∈ encList u ids fs, w.ok = true := by
    intro w hw
    obtain ⟨x, hx, rfl⟩ := mem_encList hw
    exact hs x hx
  have hopt : (cat (((encList u ids fs).drop t.fieldCount).take (if bit then 1 else 0))).ok = true :=
    cat_ok fun w h => hw w (List.mem_of_mem_drop (List.mem_of_mem_take h))
  have hbody : (cat ((encList u ids fs).take t.fieldCount)).ok = true := cat_ok fun w h => hw w (List.mem_of_mem_take h)
  have h0 := getD_ok hw 0
  have h1 := getD_ok hw 1
  have hid : ∀ i off, (ids i).isSome = true → (encId u ids off i).ok = true := by
    intro i off h; unfold encId; obtain ⟨k, hk⟩ := Option.isSome_iff_exists.1 h; rw [hk]; rfl
  have and3 : ∀ a b c : Out, a.ok = true → b.ok = true → c.ok = true → (a ++ b ++ c).ok = true := by
    intro a b c ha hb hc; simp [ha, hb, hc]
  have and2 : ∀ a b : Out, a.ok = true → b.ok = true → (a ++ b).ok = true := by
    intro a b ha hb; simp [ha, hb]
  simp only [encObj]
  unfold assemble
  dsimp only
  split
  · exact and2 _ _ (primAt_ok hs hf 0) h1
  · refine and3 _ _ _ ?_ (valAt_ok hs hf.2) hopt
    split
    · exact and2 _ _ rfl (primAt_ok hs hf.1 0)
    · exact primAt_ok hs hf.1 1
  · exact and2 _ _ rfl (primAt_ok hs hf 0)
  · exact and3 _ _ _ rfl (primAt_ok hs hf 0) hopt
  · exact and2 _ _ (and3 _ _ _ rfl (primAt_ok hs hf 0) h1) hopt
  · exact and2 _ _ (and3 _ _ _ rfl (primAt_ok hs hf 0) h1) hopt
  · exact and2 _ _ rfl (and2 _ _ hbody hopt)
  · exact and3 _ _ _ (and3 _ _ _ rfl (primAt_ok hs hf.1 0) (primAt_ok hs hf.2.1 0)) (valAt_ok hs hf.2.2) hopt
  · refine and3 _ _ _ rfl h0 ?_
    split
    · rename_i hb; rw [if_pos hb] at hopt; exact hopt
    · exact hid _ _ (ho (.inl rfl) (by simp_all))
  · refine and3 _ _ _ rfl h0 ?_
    split
    · rename_i hb; rw [if_pos hb] at hopt; exact hopt
    · exact hid _ _ (ho (.inr rfl) (by simp_all))
  · refine and3 _ _ _ rfl h0 ?_
    split
    · rename_i hb; rw [if_pos hb] at hopt; exact hopt
    · exact hid _ _ (hd (.inl rfl) (by simp_all))
  · refine and3 _ _ _ rfl h0 ?_
    split
    · rename_i hb; rw [if_pos hb] at hopt; exact hopt
    · exact hid _ _ (hd (.inr rfl) (by simp_all))
  · exact and3 _ _ _ rfl rfl (and2 _ _ hbody hopt)
  · exact and3 _ _ _ rfl rfl (and2 _ _ hbody hopt)
  · exact and3 _ _ _ rfl rfl (and2 _ _ hbody hopt)
  · exact and3 _ _ _ rfl rfl (and2 _ _ hbody hopt)
  · exact and3 _ _ _ rfl rfl (and2 _ _ hbody hopt)
  · exact and3 _ _ _ rfl rfl (and2 _ _ hbody hopt)
  · exact and3 _ _ _ rfl (primAt_ok hs hf 0) h1
  · split
    · exact and2 _ _ rfl (and2 _ _ hbody hopt)
    · split
      · exact and2 _ _ rfl (and2 _ _ hbody hopt)
      · split
        · exact and2 _ _ rfl (and2 _ _ hbody hopt)
        · rfl

theorem vec_ok {b : Bool} {xs : List Obj} (h : ∀ x ∈ xs, (encObj u ids x).ok = true) :
    (encObj u ids (.vec b xs)).ok = true := by
  simp only [encObj, append_ok, Bool.and_eq_true]
  refine ⟨rfl, cat_ok fun w hw => ?_⟩
  obtain ⟨x, hx, rfl⟩ := mem_encList hw
  exact h x hx

end

/-- Objects whose names are where the encoder expects names. -/
inductive Fit : Obj → Prop
  | prim (p : Prim) : Fit (.prim p)
  | lit (v : Str) (t : LitTag) : Fit (.lit v t)
  | vec {b : Bool} {xs : List Obj} (h : ∀ x ∈ xs, Fit x) : Fit (.vec b xs)
  | comp {t : OType} {b : Bool} {fs : List Obj} {n : Nat} (h : ∀ x ∈ fs, Fit x) (hs : Shape t fs) : Fit (.comp t b fs n)

theorem Fit.ok {u : Ulib} {ids : Id → Option Nat} {o : Obj} (h : Fit o) :
    (∀ p, Occurs p o → (ids (idOf p)).isSome = true) → (encObj u ids o).ok = true := by
  have hid : ∀ i off, (ids i).isSome = true → (encId u ids off i).ok = true := by
    intro i off h; unfold encId; obtain ⟨k, hk⟩ := Option.isSome_iff_exists.1 h; rw [hk]; rfl
  have hval : ∀ lt g s, (encValue u lt g s).ok = true := by
    intro lt g s; unfold encValue; dsimp only; split <;> rfl
  induction h with
  | prim p =>
    intro h
    rw [← prim_ok p 0]
    exact hid _ _ (h p (.self p))
  | lit v t =>
    intro h
    cases t with
    | lang l => simp only [encObj, encLit, append_ok, hval]; rfl
    | dt i =>
      simp only [encObj, encLit]
      split
      · exact hval _ _ _
      · simp only [append_ok, hval, Bool.true_and]
        exact hid (.iri i) 0 (h _ (.datatype v i))
  | vec hx ih => exact fun h => vec_ok fun x hm => ih x hm fun p hp => h p (.item hm hp)
  | comp hx hs ih =>
    intro h
    refine comp_ok (fun x hm => ih x hm fun p hp => h p (.field hm hp)) hs ?_ ?_
    · intro ht hb; subst hb; exact h _ (.defaultFiller ht)
    · intro ht hb; subst hb; exact h _ (.defaultRange ht)

/-! ## The constructs of the syntax -/

theorem fit_map {α : Type} {f : α → Obj} (h : ∀ x, Fit (f x)) (xs : List α) : ∀ o ∈ xs.map f, Fit o := by
  intro o ho
  obtain ⟨x, _, rfl⟩ := List.mem_map.1 ho
  exact h x

theorem fit1 {x : Obj} (h : Fit x) : ∀ y ∈ [x], Fit y := by intro y hy; rw [List.mem_singleton.1 hy]; exact h

theorem fit_cons {x : Obj} {xs : List Obj} (h : Fit x) (hs : ∀ y ∈ xs, Fit y) : ∀ y ∈ x :: xs, Fit y := by
  intro y hy
  rcases List.mem_cons.1 hy with h' | h'
  · rw [h']; exact h
  · exact hs y h'

theorem fit_nil : ∀ y ∈ ([] : List Obj), Fit y := by intro y hy; cases hy

theorem fit_ent (k : EntKind) (i : Iri) : Fit (ent k i) := .prim _
theorem fit_ind (i : Ind) : Fit i.toObj := by cases i <;> exact .prim _
theorem fit_lit (l : Lit) : Fit l.toObj := .lit _ _
theorem fit_ope (p : Ope) : Fit p.toObj := by
  cases p with
  | prop i => exact .prim _
  | inv i => exact .comp (fit1 (.prim _)) ⟨_, rfl⟩
theorem fit_facet (f : Iri × Lit) : Fit (facetObj f) :=
  .comp (fit_cons (.prim _) (fit1 (fit_lit _))) ⟨_, rfl⟩

mutual
theorem fit_dr : ∀ d : DR, Fit d.toObj
  | .dt i => by rw [DR.toObj]; exact .prim _
  | .inter ds => by rw [DR.toObj]; exact .comp (fit1 (.vec (fit_drs ds))) trivial
  | .union ds => by rw [DR.toObj]; exact .comp (fit1 (.vec (fit_drs ds))) trivial
  | .compl d => by rw [DR.toObj]; exact .comp (fit1 (fit_dr d)) trivial
  | .oneOf ls => by rw [DR.toObj]; exact .comp (fit1 (.vec (fit_map fit_lit ls))) trivial
  | .restr i fs => by
    rw [DR.toObj]; exact .comp (fit_cons (.prim _) (fit1 (.vec (fit_map fit_facet fs)))) ⟨_, rfl⟩
theorem fit_drs : ∀ ds : List DR, ∀ o ∈ DR.toObjs ds, Fit o
  | [] => by rw [DR.toObjs]; exact fit_nil
  | d :: ds => by rw [DR.toObjs]; exact fit_cons (fit_dr d) (fit_drs ds)
end

mutual
theorem fit_ce : ∀ c : CE, Fit c.toObj
  | .cls i => by rw [CE.toObj]; exact .prim _
  | .inter cs => by rw [CE.toObj]; exact .comp (fit1 (.vec (fit_ces cs))) trivial
  | .union cs => by rw [CE.toObj]; exact .comp (fit1 (.vec (fit_ces cs))) trivial
  | .compl c => by rw [CE.toObj]; exact .comp (fit1 (fit_ce c)) trivial
  | .oneOf is => by rw [CE.toObj]; exact .comp (fit1 (.vec (fit_map fit_ind is))) trivial
  | .objSome p c => by
    rw [CE.toObj]
    split
    · exact .comp (fit1 (fit_ope p)) trivial
    · exact .comp (fit_cons (fit_ope p) (fit1 (fit_ce c))) trivial
  | .objAll p c => by
    rw [CE.toObj]
    split
    · exact .comp (fit1 (fit_ope p)) trivial
    · exact .comp (fit_cons (fit_ope p) (fit1 (fit_ce c))) trivial
  | .objHasValue p i => by rw [CE.toObj]; exact .comp (fit_cons (fit_ope p) (fit1 (fit_ind i))) trivial
  | .objHasSelf p => by rw [CE.toObj]; exact .comp (fit1 (fit_ope p)) trivial
  | .objCard k n p => by rw [CE.toObj]; exact .comp (fit1 (fit_ope p)) (by cases k <;> trivial)
  | .objCardQ k n p c => by
    rw [CE.toObj]; exact .comp (fit_cons (fit_ope p) (fit1 (fit_ce c))) (by cases k <;> trivial)
  | .dataSome p d => by
    rw [CE.toObj]
    split
    · exact .comp (fit1 (.prim _)) trivial
    · exact .comp (fit_cons (.prim _) (fit1 (fit_dr d))) trivial
  | .dataAll p d => by
    rw [CE.toObj]
    split
    · exact .comp (fit1 (.prim _)) trivial
    · exact .comp (fit_cons (.prim _) (fit1 (fit_dr d))) trivial
  | .dataHasValue p l => by rw [CE.toObj]; exact .comp (fit_cons (.prim _) (fit1 (fit_lit l))) trivial
  | .dataCard k n p => by rw [CE.toObj]; exact .comp (fit1 (.prim _)) (by cases k <;> trivial)
  | .dataCardQ k n p d => by
    rw [CE.toObj]; exact .comp (fit_cons (.prim _) (fit1 (fit_dr d))) (by cases k <;> trivial)
theorem fit_ces : ∀ cs : List CE, ∀ o ∈ CE.toObjs cs, Fit o
  | [] => by rw [CE.toObjs]; exact fit_nil
  | c :: cs => by rw [CE.toObjs]; exact fit_cons (fit_ce c) (fit_ces cs)
end

theorem fit_annotVal (v : AnnotVal) : Fit v.toObj := by
  cases v with
  | lit l => exact fit_lit l
  | _ => exact .prim _

theorem fit_annotSubj (v : AnnotSubj) : Fit v.toObj := by cases v <;> exact .prim _

theorem valAt {fs : List Obj} {i : Nat} (v : AnnotVal) (h : fs[i]? = some v.toObj) : ValAt fs i := by
  cases v with
  | lit l => exact .inr ⟨_, _, h⟩
  | _ => exact .inl ⟨_, h⟩

theorem primAt {fs : List Obj} {i : Nat} (v : AnnotSubj) (h : fs[i]? = some v.toObj) : PrimAt fs i := by
  cases v <;> exact ⟨_, h⟩

/-- Annotations do not disturb the fields. -/
theorem shape_append {t : OType} {fs : List Obj} (gs : List Obj) (h : Shape t fs) : Shape t (fs ++ gs) := by
  have hp : ∀ i, PrimAt fs i → PrimAt (fs ++ gs) i := by
    rintro i ⟨p, h⟩
    have := (List.getElem?_eq_some_iff.1 h).1
    exact ⟨p, by rw [List.getElem?_append_left this, h]⟩
  have hv : ∀ i, ValAt fs i → ValAt (fs ++ gs) i := by
    rintro i (h | ⟨v, t, h⟩)
    · exact .inl (hp i h)
    · have := (List.getElem?_eq_some_iff.1 h).1
      exact .inr ⟨v, t, by rw [List.getElem?_append_left this, h]⟩
  unfold Shape at h ⊢
  split at h <;> first | exact hp _ h | exact ⟨hp _ h.1, hv _ h.2⟩ | exact ⟨hp _ h.1, hp _ h.2.1, hv _ h.2.2⟩ | trivial

theorem fit_annotated {t : OType} {fs as : List Obj} (h : ∀ x ∈ fs, Fit x) (hs : Shape t fs) (ha : ∀ x ∈ as, Fit x) :
    Fit (annotated t fs as) := by
  cases as with
  | nil => exact .comp h hs
  | cons a as =>
    refine .comp ?_ (shape_append _ hs)
    intro x hx
    rcases List.mem_append.1 hx with hx | hx
    · exact h x hx
    · rw [List.mem_singleton.1 hx]; exact .vec ha

mutual
theorem fit_annot : ∀ a : Annot, Fit a.toObj
  | .mk p v as => by
    rw [Annot.toObj]
    exact fit_annotated (fit_cons (.prim _) (fit1 (fit_annotVal v))) ⟨⟨_, rfl⟩, valAt v rfl⟩ (fit_annots as)
theorem fit_annots : ∀ as : List Annot, ∀ o ∈ Annot.toObjs as, Fit o
  | [] => by rw [Annot.toObjs]; exact fit_nil
  | a :: as => by rw [Annot.toObjs]; exact fit_cons (fit_annot a) (fit_annots as)
end

theorem fit_subOpe (p : SubOpe) : Fit p.toObj := by
  cases p with
  | ope p => exact fit_ope p
  | chain ps => exact .vec (fit_map fit_ope ps)

theorem fit_fields (x : Ax) : (∀ o ∈ x.fields, Fit o) ∧ Shape x.type x.fields := by
  have dp : ∀ ps : List Iri, Fit (.vec false (ps.map (ent .dataProp))) := fun ps => .vec (fit_map (fit_ent _) ps)
  have op : ∀ ps : List Ope, Fit (.vec false (ps.map Ope.toObj)) := fun ps => .vec (fit_map fit_ope ps)
  have ip : ∀ ps : List Ind, Fit (.vec false (ps.map Ind.toObj)) := fun ps => .vec (fit_map fit_ind ps)
  have cp : ∀ cs : List CE, Fit (.vec false (CE.toObjs cs)) := fun cs => .vec (fit_ces cs)
  cases x with
  | decl k i => exact ⟨fit1 (.prim _), ⟨_, rfl⟩⟩
  | subClass c d => exact ⟨fit_cons (fit_ce c) (fit1 (fit_ce d)), trivial⟩
  | equivClasses cs => exact ⟨fit1 (cp cs), trivial⟩
  | disjClasses cs => exact ⟨fit1 (cp cs), trivial⟩
  | disjUnion c cs => exact ⟨fit_cons (.prim _) (fit1 (cp cs)), ⟨_, rfl⟩⟩
  | subObjProp p q => exact ⟨fit_cons (fit_subOpe p) (fit1 (fit_ope q)), trivial⟩
  | equivObjProp ps => exact ⟨fit1 (op ps), trivial⟩
  | disjObjProp ps => exact ⟨fit1 (op ps), trivial⟩
  | invObjProp p q => exact ⟨fit_cons (fit_ope p) (fit1 (fit_ope q)), trivial⟩
  | objPropDomain p c => exact ⟨fit_cons (fit_ope p) (fit1 (fit_ce c)), trivial⟩
  | objPropRange p c => exact ⟨fit_cons (fit_ope p) (fit1 (fit_ce c)), trivial⟩
  | objPropChar k p => exact ⟨fit1 (fit_ope p), by cases k <;> trivial⟩
  | subDataProp p q => exact ⟨fit_cons (.prim _) (fit1 (.prim _)), trivial⟩
  | equivDataProp ps => exact ⟨fit1 (dp ps), trivial⟩
  | disjDataProp ps => exact ⟨fit1 (dp ps), trivial⟩
  | dataPropDomain p c => exact ⟨fit_cons (.prim _) (fit1 (fit_ce c)), trivial⟩
  | dataPropRange p d => exact ⟨fit_cons (.prim _) (fit1 (fit_dr d)), trivial⟩
  | funcDataProp p => exact ⟨fit1 (.prim _), trivial⟩
  | datatypeDef i d => exact ⟨fit_cons (.prim _) (fit1 (fit_dr d)), ⟨_, rfl⟩⟩
  | hasKey c ps ds => exact ⟨fit_cons (fit_ce c) (fit_cons (op ps) (fit1 (dp ds))), trivial⟩
  | sameInd is => exact ⟨fit1 (ip is), trivial⟩
  | diffInd is => exact ⟨fit1 (ip is), trivial⟩
  | classAssert c i => exact ⟨fit_cons (fit_ce c) (fit1 (fit_ind i)), trivial⟩
  | objPropAssert p i j => exact ⟨fit_cons (fit_ope p) (fit_cons (fit_ind i) (fit1 (fit_ind j))), trivial⟩
  | negObjPropAssert p i j => exact ⟨fit_cons (fit_ope p) (fit_cons (fit_ind i) (fit1 (fit_ind j))), trivial⟩
  | dataPropAssert p i l => exact ⟨fit_cons (.prim _) (fit_cons (fit_ind i) (fit1 (fit_lit l))), trivial⟩
  | negDataPropAssert p i l => exact ⟨fit_cons (.prim _) (fit_cons (fit_ind i) (fit1 (fit_lit l))), trivial⟩
  | annotAssert p s v =>
    exact ⟨fit_cons (.prim _) (fit_cons (fit_annotSubj s) (fit1 (fit_annotVal v))), ⟨_, rfl⟩, primAt s rfl, valAt v rfl⟩
  | subAnnotProp p q => exact ⟨fit_cons (.prim _) (fit1 (.prim _)), trivial⟩
  | annotPropDomain p i => exact ⟨fit_cons (.prim _) (fit1 (.prim _)), trivial⟩
  | annotPropRange p i => exact ⟨fit_cons (.prim _) (fit1 (.prim _)), trivial⟩

theorem fit_axiom (a : Axiom) : Fit a.toObj :=
  fit_annotated (fit_fields a.ax).1 (fit_fields a.ax).2 (fit_annots a.annots)

end Cowl.Prt
