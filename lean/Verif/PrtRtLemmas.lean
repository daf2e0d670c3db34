import Verif.PrtLitProps
import Verif.AstLemmas
/-! # Lemmas: reading the constructs that were written -/
namespace Cowl.Prt
open Ast

/-- What ProtocOWL asks of a construct: its names are in the indices, its literals survive
(C34), lengths are 32-bit numbers and cardinalities 31-bit numbers. -/
def prtReq (u : Ulib) (ids : Id → Option Nat) (ix : DIndex) : Req where
  iri i := Knows ids ix (.iri i)
  lit l := LitFits ids ix l.value l.tag ∧ LitSafe u l.value l.tag
  anon s := Knows ids ix (.anon s)
  sub _ := True
  two n := n < 4294967296
  one n := n < 4294967296
  any n := n < 4294967296
  card c := c.toNat < 2147483648

section
variable {E : Env} (hu : E.u.Lawful) {ids : Id → Option Nat} {ix : DIndex}

/-- The object, written by `encode_object`, is read back. -/
def RtO (E : Env) (ids : Id → Option Nat) (ix : DIndex) (d : Dec Obj) (o : Obj) : Prop :=
  Rt d ix (encObj E.u ids o).bytes o

theorem rt_many {item : Dec Obj} : ∀ os : List Obj, (∀ o ∈ os, RtO E ids ix item o) →
    Rt (decMany item os.length) ix (cat (encList E.u ids os)).bytes os
  | [], _ => by simp only [encList, cat_nil]; exact Rt.pure _
  | o :: os, h => by
    simp only [encList, cat_cons, append_bytes, List.length_cons]
    exact (h o (by simp)).bind ((rt_many os (fun x hx => h x (by simp [hx]))).last rfl)

include hu

theorem rt_items {item : Dec Obj} {os : List Obj} (b : Bool) (hl : os.length < 4294967296)
    (h : ∀ o ∈ os, RtO E ids ix item o) : Rt (decItems E item) ix (encObj E.u ids (.vec b os)).bytes os := by
  simp only [encObj, append_bytes]
  exact (rt_varint hu hl).bind (rt_many os h)

theorem rt_vec {item : Dec Obj} {os : List Obj} (hl : os.length < 4294967296)
    (h : ∀ o ∈ os, RtO E ids ix item o) : RtO E ids ix (decVec E item) (.vec false os) :=
  (rt_items hu false hl h).last rfl

theorem rt_ind {i : Ind} (h : i.Meets (prtReq E.u ids ix)) : RtO E ids ix (decInd E) i.toObj := by
  cases i with
  | named i =>
    obtain ⟨n, hn, hr⟩ := rt_id hu h (Nat.zero_le _)
    exact Rt.cast (hr.bind ((rt_getId hn).last rfl)) (by simp [Ind.toObj, ent, encObj, entOffset])
  | anon s =>
    obtain ⟨n, hn, hr⟩ := rt_id hu h (Nat.zero_le _)
    exact Rt.cast (hr.bind ((rt_getId hn).last rfl)) (by simp [Ind.toObj, encObj])

theorem rt_iriOrAnon {i : AnnotSubj} (h : i.Meets (prtReq E.u ids ix)) : RtO E ids ix (decIriOrAnon E) i.toObj := by
  cases i with
  | iri i =>
    obtain ⟨n, hn, hr⟩ := rt_id hu h (Nat.zero_le _)
    exact Rt.cast (hr.bind ((rt_getId hn).last rfl)) (by simp [AnnotSubj.toObj, encObj])
  | anon s =>
    obtain ⟨n, hn, hr⟩ := rt_id hu h (Nat.zero_le _)
    exact Rt.cast (hr.bind ((rt_getId hn).last rfl)) (by simp [AnnotSubj.toObj, encObj])

theorem rt_ope {p : Ope} (h : p.Meets (prtReq E.u ids ix)) : RtO E ids ix (decOpe E) p.toObj := by
  cases p with
  | prop i =>
    obtain ⟨n, hn, hr⟩ := rt_id hu h (off := 1) (by omega)
    refine Rt.cast (hr.bind (b' := []) ?_) (by simp [Ope.toObj, ent, encObj, entOffset])
    rw [if_neg (by omega), Nat.add_sub_cancel]
    exact rt_getEnt _ hn
  | inv i =>
    refine Rt.cast ((rt_varint hu (n := 0) (by omega)).bind (b' := (encId E.u ids 0 (.iri i)).bytes) ?_) ?_
    · rw [if_pos rfl]
      exact (rt_ent hu .objProp h).last rfl
    · simp [Ope.toObj, ent, encObj, assemble, encField, idObj, idOf]

theorem rt_dataProp {i : Iri} (h : Knows ids ix (.iri i)) : RtO E ids ix (decEnt E .dataProp) (ent .dataProp i) :=
  Rt.cast (rt_ent hu .dataProp h) (by simp [ent, encObj, entOffset])

theorem rt_annotProp {i : Iri} (h : Knows ids ix (.iri i)) : RtO E ids ix (decEnt E .annotProp) (ent .annotProp i) :=
  Rt.cast (rt_ent hu .annotProp h) (by simp [ent, encObj, entOffset])

theorem rt_literal {l : Lit} (h : (prtReq E.u ids ix).lit l) :
    Rt (decLit E) ix (encObj E.u ids l.toObj).bytes (some l.toObj) := by
  simp only [Lit.toObj, encObj]
  exact C34_partial E hu ids ix _ _ h.1 h.2

theorem rt_litItem {l : Lit} (h : (prtReq E.u ids ix).lit l) : RtO E ids ix (notNull (decLit E)) l.toObj :=
  (rt_literal hu h).last rfl

theorem rt_facet {f : Iri × Lit} (h : Knows ids ix (.iri f.1)) (hl : (prtReq E.u ids ix).lit f.2) :
    RtO E ids ix (decFacet E) (facetObj f) := by
  refine Rt.cast ((rt_iri hu h).bind ((rt_litItem hu hl).last rfl)) ?_
  simp [facetObj, encObj, encList, assemble, encField, idObj, idOf]

theorem rt_annotVal {v : AnnotVal} (h : v.Meets (prtReq E.u ids ix)) :
    Rt (decAnnotVal E) ix (encAnnotVal E.u ids (some v.toObj) (encObj E.u ids v.toObj)).bytes (some v.toObj) := by
  have key : ∀ {i : Id} {o : Obj}, Knows ids ix i → (∀ n, ix.ids[n]? = some i → Rt (getIriOrAnon E n) ix [] o) →
      Rt (decAnnotVal E) ix (encId E.u ids 1 i).bytes (some o) := by
    intro i o hk ho
    obtain ⟨n, hn, hr⟩ := rt_id hu hk (off := 1) (by omega)
    refine Rt.cast (hr.bind (b' := []) ?_) (by simp)
    rw [if_neg (by omega), Nat.add_sub_cancel]
    exact (ho n hn).last rfl
  cases v with
  | iri i => exact key h fun n hn => (rt_getId hn).last rfl
  | anon s => exact key h fun n hn => (rt_getId hn).last rfl
  | lit l =>
    refine (rt_varint hu (n := 0) (by omega)).bind ?_
    rw [if_pos rfl]
    exact rt_literal hu h

omit hu in
theorem mem_toObjs_dr {ds : List DR} {o : Obj} (h : o ∈ DR.toObjs ds) : ∃ d ∈ ds, o = d.toObj := by
  induction ds with
  | nil => cases h
  | cons d ds ih =>
    rcases List.mem_cons.1 h with h | h
    · exact ⟨d, by simp, h⟩
    · obtain ⟨x, h1, h2⟩ := ih h; exact ⟨x, by simp [h1], h2⟩

omit hu in
theorem length_toObjs_dr (ds : List DR) : (DR.toObjs ds).length = ds.length := by
  induction ds with
  | nil => rfl
  | cons d ds ih => simp [DR.toObjs, ih]

omit hu in
theorem length_toObjs_ce (ds : List CE) : (CE.toObjs ds).length = ds.length := by
  induction ds with
  | nil => rfl
  | cons d ds ih => simp [CE.toObjs, ih]

omit hu in
theorem length_toObjs_annot (ds : List Annot) : (Annot.toObjs ds).length = ds.length := by
  induction ds with
  | nil => rfl
  | cons d ds ih => simp [Annot.toObjs, ih]

omit hu in
theorem comp1 (u : Ulib) (t : OType) (b : Bool) (x : Obj) (n : Nat) :
    encObj u ids (.comp t b [x] n) = assemble u ids t b [x] [encObj u ids x] n := by
  simp only [encObj, encList]

omit hu in
theorem comp2 (u : Ulib) (t : OType) (b : Bool) (x y : Obj) (n : Nat) :
    encObj u ids (.comp t b [x, y] n) = assemble u ids t b [x, y] [encObj u ids x, encObj u ids y] n := by
  simp only [encObj, encList]

omit hu in
/-- Data ranges and class expressions without special treatment. -/
theorem asm1 {t : OType} {k : Nat} (h : (t, k) ∈ [(OType.drDataIntersect, 0), (.drDataUnion, 1), (.drDataCompl, 2),
    (.drDataOneOf, 3), (.ceObjIntersect, 0), (.ceObjUnion, 1), (.ceObjCompl, 2), (.ceObjOneOf, 3), (.ceObjHasSelf, 7)])
    (u : Ulib) (fs : List Obj) (w : Out) (n : Nat) :
    (assemble u ids t false fs [w] n).bytes = (vint u k).bytes ++ w.bytes := by
  have key : assemble u ids t false fs [w] n = vint u k ++ (cat [w] ++ {}) := by
    simp only [List.mem_cons, Prod.mk.injEq, List.not_mem_nil, or_false] at h
    rcases h with ⟨rfl, rfl⟩ | ⟨rfl, rfl⟩ | ⟨rfl, rfl⟩ | ⟨rfl, rfl⟩ | ⟨rfl, rfl⟩ | ⟨rfl, rfl⟩ | ⟨rfl, rfl⟩ |
      ⟨rfl, rfl⟩ | ⟨rfl, rfl⟩ <;> rfl
  rw [key]; simp

/-- A header below 17. -/
theorem rt_small {n : Nat} (h : n < 17) : Rt (varint E) ix (vint E.u n).bytes n := rt_varint hu (by omega)

mutual
theorem rt_dr : ∀ d : DR, d.Meets (prtReq E.u ids ix) → ∃ m, ∀ n, m ≤ n → RtO E ids ix (decDR E n) d.toObj
  | .dt i, h => by
    refine ⟨1, fun n hn => ?_⟩
    obtain ⟨n, rfl⟩ : ∃ k, n = k + 1 := ⟨n - 1, by omega⟩
    obtain ⟨k, hk, hr⟩ := rt_id hu h (off := 5) (by omega)
    refine Rt.cast (hr.bind (b' := []) ?_) (by simp [DR.toObj, ent, encObj, entOffset])
    rw [if_pos (by omega), Nat.add_sub_cancel]
    exact rt_getEnt _ hk
  | .inter ds, h => by
    obtain ⟨m, hm⟩ := rt_drs ds h.2
    refine ⟨m + 1, fun n hn => ?_⟩
    obtain ⟨n, rfl⟩ : ∃ k, n = k + 1 := ⟨n - 1, by omega⟩
    refine Rt.cast ((rt_small hu (n := 0) (by omega)).bind
      ((rt_vec hu (by rw [length_toObjs_dr]; exact h.1) (hm n (by omega))).last rfl)) ?_
    rw [DR.toObj, comp1, asm1 (k := 0) (by simp)]
  | .union ds, h => by
    obtain ⟨m, hm⟩ := rt_drs ds h.2
    refine ⟨m + 1, fun n hn => ?_⟩
    obtain ⟨n, rfl⟩ : ∃ k, n = k + 1 := ⟨n - 1, by omega⟩
    refine Rt.cast ((rt_small hu (n := 1) (by omega)).bind
      ((rt_vec hu (by rw [length_toObjs_dr]; exact h.1) (hm n (by omega))).last rfl)) ?_
    rw [DR.toObj, comp1, asm1 (k := 1) (by simp)]
  | .compl d, h => by
    obtain ⟨m, hm⟩ := rt_dr d h
    refine ⟨m + 1, fun n hn => ?_⟩
    obtain ⟨n, rfl⟩ : ∃ k, n = k + 1 := ⟨n - 1, by omega⟩
    refine Rt.cast ((rt_small hu (n := 2) (by omega)).bind ((hm n (by omega)).last rfl)) ?_
    rw [DR.toObj, comp1, asm1 (k := 2) (by simp)]
  | .oneOf ls, h => by
    refine ⟨1, fun n hn => ?_⟩
    obtain ⟨n, rfl⟩ : ∃ k, n = k + 1 := ⟨n - 1, by omega⟩
    refine Rt.cast ((rt_small hu (n := 3) (by omega)).bind
      ((rt_vec hu (ids := ids) (os := ls.map Lit.toObj) (by rw [List.length_map]; exact h.1) ?_).last rfl)) ?_
    · intro o ho
      obtain ⟨l, hl, rfl⟩ := List.mem_map.1 ho
      exact rt_litItem hu (h.2 l hl)
    · rw [DR.toObj, comp1, asm1 (k := 3) (by simp)]
  | .restr i fs, h => by
    refine ⟨1, fun n hn => ?_⟩
    obtain ⟨n, rfl⟩ : ∃ k, n = k + 1 := ⟨n - 1, by omega⟩
    refine Rt.cast ((rt_small hu (n := 4) (by omega)).bind ((rt_ent hu .datatype h.1).bind
      ((rt_vec hu (ids := ids) (os := fs.map facetObj) (by rw [List.length_map]; exact h.2.1) ?_).last rfl))) ?_
    · intro o ho
      obtain ⟨f, hf, rfl⟩ := List.mem_map.1 ho
      exact rt_facet hu (h.2.2 f hf).1 (h.2.2 f hf).2
    · simp [DR.toObj, ent, encObj, encList, assemble, encField, idObj, idOf, show drHeader .drDatatypeRestr = 4 from rfl]

theorem rt_drs : ∀ ds : List DR, DR.AllMeet (prtReq E.u ids ix) ds →
    ∃ m, ∀ n, m ≤ n → ∀ o ∈ DR.toObjs ds, RtO E ids ix (decDR E n) o
  | [], _ => ⟨0, fun _ _ _ h => by cases h⟩
  | d :: ds, h => by
    obtain ⟨m, hm⟩ := rt_dr d h.1
    obtain ⟨k, hk⟩ := rt_drs ds h.2
    refine ⟨max m k, fun n hn o ho => ?_⟩
    rcases List.mem_cons.1 ho with e | e
    · rw [e]; exact hm n (by omega)
    · exact hk n (by omega) o e
end

theorem rt_inds {is : List Ind} (hl : is.length < 4294967296) (h : ∀ i ∈ is, i.Meets (prtReq E.u ids ix)) :
    RtO E ids ix (decVec E (decInd E)) (.vec false (is.map Ind.toObj)) := by
  refine rt_vec hu (by rwa [List.length_map]) ?_
  intro o ho
  obtain ⟨x, hx, rfl⟩ := List.mem_map.1 ho
  exact rt_ind hu (h x hx)

theorem rt_opeItems {ps : List Ope} (h : ∀ p ∈ ps, p.Meets (prtReq E.u ids ix)) :
    ∀ o ∈ ps.map Ope.toObj, RtO E ids ix (decOpe E) o := by
  intro o ho
  obtain ⟨x, hx, rfl⟩ := List.mem_map.1 ho
  exact rt_ope hu (h x hx)

theorem rt_opes {ps : List Ope} (hl : ps.length < 4294967296) (h : ∀ p ∈ ps, p.Meets (prtReq E.u ids ix)) :
    RtO E ids ix (decVec E (decOpe E)) (.vec false (ps.map Ope.toObj)) :=
  rt_vec hu (by rwa [List.length_map]) (rt_opeItems hu h)

theorem rt_dpes {ps : List Iri} (hl : ps.length < 4294967296) (h : ∀ p ∈ ps, Knows ids ix (.iri p)) :
    RtO E ids ix (decVec E (decEnt E .dataProp)) (.vec false (ps.map (ent .dataProp))) := by
  refine rt_vec hu (by rwa [List.length_map]) ?_
  intro o ho
  obtain ⟨x, hx, rfl⟩ := List.mem_map.1 ho
  exact rt_dataProp hu (h x hx)

omit hu in
theorem objQuant_of {qt : Nat} (hq : qt < 2) (p : Ope) (c : CE) : objQuant qt p.toObj (some c.toObj) =
    some (if c.isTop then .comp (if qt = 0 then .ceObjSome else .ceObjAll) false [p.toObj] 0
      else .comp (if qt = 0 then .ceObjSome else .ceObjAll) true [p.toObj, c.toObj] 0) := by
  rw [objQuant, if_neg (by omega)]
  by_cases h : c.isTop = true
  · rw [if_pos h, ce_top h, CE.toObj, ent, drop_self]; rfl
  · rw [if_neg h, ce_not_top h]; rfl

omit hu in
theorem dataQuant_of {qt : Nat} (hq : qt < 2) (p : Obj) (d : DR) : dataQuant qt p (some d.toObj) =
    some (if d.isTop then .comp (if qt = 0 then .ceDataSome else .ceDataAll) false [p] 0
      else .comp (if qt = 0 then .ceDataSome else .ceDataAll) true [p, d.toObj] 0) := by
  rw [dataQuant, if_neg (by omega)]
  by_cases h : d.isTop = true
  · rw [if_pos h, dr_top h, DR.toObj, ent, drop_self]; rfl
  · rw [if_neg h, dr_not_top h]; rfl

/-- Bytes of a quantifier: the filler is always written. -/
theorem quant_bytes {t : OType} {k : Nat} (h : (t, k) = (.ceObjSome, 4) ∨ (t, k) = (.ceObjAll, 5)) (p : Ope) (c : CE) :
    (encObj E.u ids (if c.isTop then .comp t false [p.toObj] 0 else .comp t true [p.toObj, c.toObj] 0)).bytes =
    (vint E.u k).bytes ++ ((encObj E.u ids p.toObj).bytes ++ (encObj E.u ids c.toObj).bytes) := by
  split
  · rename_i ht
    have hc : c = .cls owlThing := by cases c <;> simp [CE.isTop] at ht; subst ht; rfl
    subst hc
    rcases h with h | h <;> cases h <;>
      simp [encObj, encList, assemble, CE.toObj, ent, entOffset, show ceHeader .ceObjSome = 4 from rfl,
        show ceHeader .ceObjAll = 5 from rfl]
  · rcases h with h | h <;> cases h <;>
      simp [encObj, encList, assemble, show ceHeader .ceObjSome = 4 from rfl,
        show ceHeader .ceObjAll = 5 from rfl, show OType.ceObjSome.fieldCount = 1 from rfl,
        show OType.ceObjAll.fieldCount = 1 from rfl]

theorem dquant_bytes {t : OType} {k : Nat} (h : (t, k) = (.ceDataSome, 11) ∨ (t, k) = (.ceDataAll, 12)) (p : Iri) (d : DR) :
    (encObj E.u ids (if d.isTop then .comp t false [ent .dataProp p] 0
      else .comp t true [ent .dataProp p, d.toObj] 0)).bytes =
    (vint E.u k).bytes ++ ((encObj E.u ids (ent .dataProp p)).bytes ++ (encObj E.u ids d.toObj).bytes) := by
  split
  · rename_i ht
    have hc : d = .dt rdfsLiteral := by cases d <;> simp [DR.isTop] at ht; subst ht; rfl
    subst hc
    rcases h with h | h <;> cases h <;>
      simp [encObj, encList, assemble, DR.toObj, ent, entOffset, show ceHeader .ceDataSome = 11 from rfl,
        show ceHeader .ceDataAll = 12 from rfl]
  · rcases h with h | h <;> cases h <;>
      simp [encObj, encList, assemble, show ceHeader .ceDataSome = 11 from rfl,
        show ceHeader .ceDataAll = 12 from rfl, show OType.ceDataSome.fieldCount = 1 from rfl,
        show OType.ceDataAll.fieldCount = 1 from rfl]

/-- Numbers of the cardinality restrictions. -/
def cardNo (base : Nat) : CardKind → Nat
  | .min => base
  | .max => base + 1
  | .exact => base + 2

omit hu in
theorem card_bytes (t : CardKind → OType) (base : Nat)
    (h : (t = CardKind.objType ∧ base = 8) ∨ (t = CardKind.dataType ∧ base = 14)) (k : CardKind) (u : Ulib) (p : Obj) (n : Nat) :
    (encObj u ids (.comp (t k) false [p] n)).bytes =
      (vint u (cardNo base k)).bytes ++ ((vint u (n * 2)).bytes ++ (encObj u ids p).bytes) := by
  have key : encObj u ids (.comp (t k) false [p] n) =
      vint u (cardNo base k) ++ vint u (n * 2 + 0) ++ (cat [encObj u ids p] ++ {}) := by
    rw [comp1]
    rcases h with ⟨rfl, rfl⟩ | ⟨rfl, rfl⟩ <;> cases k <;> rfl
  rw [key]; simp

omit hu in
theorem cardq_bytes (t : CardKind → OType) (base : Nat)
    (h : (t = CardKind.objType ∧ base = 8) ∨ (t = CardKind.dataType ∧ base = 14)) (k : CardKind) (u : Ulib) (p c : Obj) (n : Nat) :
    (encObj u ids (.comp (t k) true [p, c] n)).bytes =
      (vint u (cardNo base k)).bytes ++ ((vint u (n * 2 + 1)).bytes ++ ((encObj u ids p).bytes ++ (encObj u ids c).bytes)) := by
  have key : encObj u ids (.comp (t k) true [p, c] n) =
      vint u (cardNo base k) ++ vint u (n * 2 + 1) ++ (cat [encObj u ids p] ++ cat [encObj u ids c]) := by
    rw [comp2]
    rcases h with ⟨rfl, rfl⟩ | ⟨rfl, rfl⟩ <;> cases k <;> rfl
  rw [key]; simp

theorem rt_objCard {ce : Dec Obj} (k : CardKind) {n : Nat} (hn : n < 2147483648) {p : Ope}
    (hp : p.Meets (prtReq E.u ids ix)) :
    Rt (decObjCard E ce (cardNo 0 k)) ix ((vint E.u (n * 2)).bytes ++ (encObj E.u ids p.toObj).bytes)
      (.comp k.objType false [p.toObj] n) := by
  refine (rt_varint hu (by omega)).bind ((rt_ope hu hp).last ?_)
  rw [show decide (n * 2 % 2 = 1) = false by simp, show n * 2 / 2 = n by omega]
  cases k <;> rfl

theorem rt_objCardQ {ce : Dec Obj} (k : CardKind) {n : Nat} (hn : n < 2147483648) {p : Ope} {c : Obj}
    (hp : p.Meets (prtReq E.u ids ix)) (hc : RtO E ids ix ce c) :
    Rt (decObjCard E ce (cardNo 0 k)) ix
      ((vint E.u (n * 2 + 1)).bytes ++ ((encObj E.u ids p.toObj).bytes ++ (encObj E.u ids c).bytes))
      (.comp k.objType true [p.toObj, c] n) := by
  refine (rt_varint hu (by omega)).bind ((rt_ope hu hp).bind ?_)
  rw [show decide ((n * 2 + 1) % 2 = 1) = true by simp, show (n * 2 + 1) / 2 = n by omega]
  exact Rt.last (x := decIf true ce) (Rt.last hc rfl) (by cases k <;> rfl)

theorem rt_dataCard {dr : Dec Obj} (k : CardKind) {n : Nat} (hn : n < 2147483648) {p : Iri}
    (hp : Knows ids ix (.iri p)) :
    Rt (decDataCard E dr (cardNo 0 k)) ix ((vint E.u (n * 2)).bytes ++ (encObj E.u ids (ent .dataProp p)).bytes)
      (.comp k.dataType false [ent .dataProp p] n) := by
  refine (rt_varint hu (by omega)).bind ((rt_dataProp hu hp).last ?_)
  rw [show decide (n * 2 % 2 = 1) = false by simp, show n * 2 / 2 = n by omega]
  cases k <;> rfl

theorem rt_dataCardQ {dr : Dec Obj} (k : CardKind) {n : Nat} (hn : n < 2147483648) {p : Iri} {c : Obj}
    (hp : Knows ids ix (.iri p)) (hc : RtO E ids ix dr c) :
    Rt (decDataCard E dr (cardNo 0 k)) ix
      ((vint E.u (n * 2 + 1)).bytes ++ ((encObj E.u ids (ent .dataProp p)).bytes ++ (encObj E.u ids c).bytes))
      (.comp k.dataType true [ent .dataProp p, c] n) := by
  refine (rt_varint hu (by omega)).bind ((rt_dataProp hu hp).bind ?_)
  rw [show decide ((n * 2 + 1) % 2 = 1) = true by simp, show (n * 2 + 1) / 2 = n by omega]
  exact Rt.last (x := decIf true dr) (Rt.last hc rfl) (by cases k <;> rfl)

mutual
theorem rt_ce : ∀ c : CE, c.Meets (prtReq E.u ids ix) → ∃ m, ∀ n, m ≤ n → RtO E ids ix (decCE E n) c.toObj
  | .cls i, h => by
    refine ⟨1, fun n hn => ?_⟩
    obtain ⟨n, rfl⟩ : ∃ k, n = k + 1 := ⟨n - 1, by omega⟩
    obtain ⟨k, hk, hr⟩ := rt_id hu h (off := 17) (by omega)
    refine Rt.cast (hr.bind (b' := []) ?_) (by simp [CE.toObj, ent, encObj, entOffset])
    rw [if_pos (by omega), Nat.add_sub_cancel]
    exact rt_getEnt _ hk
  | .inter cs, h => by
    obtain ⟨m, hm⟩ := rt_ces cs h.2
    refine ⟨m + 1, fun n hn => ?_⟩
    obtain ⟨n, rfl⟩ : ∃ k, n = k + 1 := ⟨n - 1, by omega⟩
    refine Rt.cast ((rt_small hu (n := 0) (by omega)).bind
      ((rt_vec hu (by rw [length_toObjs_ce]; exact h.1) (hm n (by omega))).last rfl)) ?_
    rw [CE.toObj, comp1, asm1 (k := 0) (by simp)]
  | .union cs, h => by
    obtain ⟨m, hm⟩ := rt_ces cs h.2
    refine ⟨m + 1, fun n hn => ?_⟩
    obtain ⟨n, rfl⟩ : ∃ k, n = k + 1 := ⟨n - 1, by omega⟩
    refine Rt.cast ((rt_small hu (n := 1) (by omega)).bind
      ((rt_vec hu (by rw [length_toObjs_ce]; exact h.1) (hm n (by omega))).last rfl)) ?_
    rw [CE.toObj, comp1, asm1 (k := 1) (by simp)]
  | .compl c, h => by
    obtain ⟨m, hm⟩ := rt_ce c h
    refine ⟨m + 1, fun n hn => ?_⟩
    obtain ⟨n, rfl⟩ : ∃ k, n = k + 1 := ⟨n - 1, by omega⟩
    refine Rt.cast ((rt_small hu (n := 2) (by omega)).bind ((hm n (by omega)).last rfl)) ?_
    rw [CE.toObj, comp1, asm1 (k := 2) (by simp)]
  | .oneOf is, h => by
    refine ⟨1, fun n hn => ?_⟩
    obtain ⟨n, rfl⟩ : ∃ k, n = k + 1 := ⟨n - 1, by omega⟩
    refine Rt.cast ((rt_small hu (n := 3) (by omega)).bind ((rt_inds hu h.1 h.2).last rfl)) ?_
    rw [CE.toObj, comp1, asm1 (k := 3) (by simp)]
  | .objSome p c, h => by
    obtain ⟨m, hm⟩ := rt_ce c h.2
    refine ⟨m + 1, fun n hn => ?_⟩
    obtain ⟨n, rfl⟩ : ∃ k, n = k + 1 := ⟨n - 1, by omega⟩
    refine Rt.cast ((rt_small hu (n := 4) (by omega)).bind ((rt_ope hu h.1).bind ((hm n (by omega)).last ?_))) ?_
    · rw [objQuant_of (by omega)]; rfl
    · rw [CE.toObj, quant_bytes hu (.inl rfl)]
  | .objAll p c, h => by
    obtain ⟨m, hm⟩ := rt_ce c h.2
    refine ⟨m + 1, fun n hn => ?_⟩
    obtain ⟨n, rfl⟩ : ∃ k, n = k + 1 := ⟨n - 1, by omega⟩
    refine Rt.cast ((rt_small hu (n := 5) (by omega)).bind ((rt_ope hu h.1).bind ((hm n (by omega)).last ?_))) ?_
    · rw [objQuant_of (by omega)]; rfl
    · rw [CE.toObj, quant_bytes hu (.inr rfl)]
  | .objHasValue p i, h => by
    refine ⟨1, fun n hn => ?_⟩
    obtain ⟨n, rfl⟩ : ∃ k, n = k + 1 := ⟨n - 1, by omega⟩
    refine Rt.cast ((rt_small hu (n := 6) (by omega)).bind ((rt_ope hu h.1).bind ((rt_ind hu h.2).last rfl))) ?_
    rw [CE.toObj, comp2]
    refine Eq.trans ?_ (congrArg Out.bytes (show vint E.u 6 ++ (cat [encObj E.u ids p.toObj, encObj E.u ids i.toObj] ++ {}) = _ from rfl))
    simp
  | .objHasSelf p, h => by
    refine ⟨1, fun n hn => ?_⟩
    obtain ⟨n, rfl⟩ : ∃ k, n = k + 1 := ⟨n - 1, by omega⟩
    refine Rt.cast ((rt_small hu (n := 7) (by omega)).bind ((rt_ope hu h).last rfl)) ?_
    rw [CE.toObj, comp1, asm1 (k := 7) (by simp)]
  | .objCard k c p, h => by
    refine ⟨1, fun n hn => ?_⟩
    obtain ⟨n, rfl⟩ : ∃ k, n = k + 1 := ⟨n - 1, by omega⟩
    refine Rt.cast ((rt_small hu (n := cardNo 8 k) (by cases k <;> decide)).bind
      (b' := (vint E.u (c.toNat * 2)).bytes ++ (encObj E.u ids p.toObj).bytes) ?_) ?_
    · have := rt_objCard hu (ce := decCE E n) k h.2 h.1
      cases k <;> exact this
    · rw [CE.toObj, card_bytes _ _ (.inl ⟨rfl, rfl⟩)]
  | .objCardQ k c p f, h => by
    obtain ⟨m, hm⟩ := rt_ce f h.2.1
    refine ⟨m + 1, fun n hn => ?_⟩
    obtain ⟨n, rfl⟩ : ∃ k, n = k + 1 := ⟨n - 1, by omega⟩
    refine Rt.cast ((rt_small hu (n := cardNo 8 k) (by cases k <;> decide)).bind
      (b' := (vint E.u (c.toNat * 2 + 1)).bytes ++ ((encObj E.u ids p.toObj).bytes ++ (encObj E.u ids f.toObj).bytes)) ?_) ?_
    · have := rt_objCardQ hu k h.2.2 h.1 (hm n (by omega))
      cases k <;> exact this
    · rw [CE.toObj, cardq_bytes _ _ (.inl ⟨rfl, rfl⟩)]
  | .dataSome p d, h => by
    obtain ⟨m, hm⟩ := rt_dr hu d h.2
    refine ⟨m + 1, fun n hn => ?_⟩
    obtain ⟨n, rfl⟩ : ∃ k, n = k + 1 := ⟨n - 1, by omega⟩
    refine Rt.cast ((rt_small hu (n := 11) (by omega)).bind ((rt_dataProp hu h.1).bind ((hm (n + 1) (by omega)).last ?_))) ?_
    · rw [dataQuant_of (by omega)]; rfl
    · rw [CE.toObj, dquant_bytes hu (.inl rfl)]
  | .dataAll p d, h => by
    obtain ⟨m, hm⟩ := rt_dr hu d h.2
    refine ⟨m + 1, fun n hn => ?_⟩
    obtain ⟨n, rfl⟩ : ∃ k, n = k + 1 := ⟨n - 1, by omega⟩
    refine Rt.cast ((rt_small hu (n := 12) (by omega)).bind ((rt_dataProp hu h.1).bind ((hm (n + 1) (by omega)).last ?_))) ?_
    · rw [dataQuant_of (by omega)]; rfl
    · rw [CE.toObj, dquant_bytes hu (.inr rfl)]
  | .dataHasValue p l, h => by
    refine ⟨1, fun n hn => ?_⟩
    obtain ⟨n, rfl⟩ : ∃ k, n = k + 1 := ⟨n - 1, by omega⟩
    refine Rt.cast ((rt_small hu (n := 13) (by omega)).bind ((rt_dataProp hu h.1).bind ((rt_literal hu h.2).last rfl))) ?_
    rw [CE.toObj, comp2]
    refine Eq.trans ?_ (congrArg Out.bytes (show vint E.u 13 ++ (cat [encObj E.u ids (ent .dataProp p), encObj E.u ids l.toObj] ++ {}) = _ from rfl))
    simp
  | .dataCard k c p, h => by
    refine ⟨1, fun n hn => ?_⟩
    obtain ⟨n, rfl⟩ : ∃ k, n = k + 1 := ⟨n - 1, by omega⟩
    refine Rt.cast ((rt_small hu (n := cardNo 14 k) (by cases k <;> decide)).bind
      (b' := (vint E.u (c.toNat * 2)).bytes ++ (encObj E.u ids (ent .dataProp p)).bytes) ?_) ?_
    · have := rt_dataCard hu (dr := decDR E (n + 1)) k h.2 h.1
      cases k <;> exact this
    · rw [CE.toObj, card_bytes _ _ (.inr ⟨rfl, rfl⟩)]
  | .dataCardQ k c p d, h => by
    obtain ⟨m, hm⟩ := rt_dr hu d h.2.1
    refine ⟨m + 1, fun n hn => ?_⟩
    obtain ⟨n, rfl⟩ : ∃ k, n = k + 1 := ⟨n - 1, by omega⟩
    refine Rt.cast ((rt_small hu (n := cardNo 14 k) (by cases k <;> decide)).bind
      (b' := (vint E.u (c.toNat * 2 + 1)).bytes ++ ((encObj E.u ids (ent .dataProp p)).bytes ++ (encObj E.u ids d.toObj).bytes)) ?_) ?_
    · have := rt_dataCardQ hu k h.2.2 h.1 (hm (n + 1) (by omega))
      cases k <;> exact this
    · rw [CE.toObj, cardq_bytes _ _ (.inr ⟨rfl, rfl⟩)]

theorem rt_ces : ∀ cs : List CE, CE.AllMeet (prtReq E.u ids ix) cs →
    ∃ m, ∀ n, m ≤ n → ∀ o ∈ CE.toObjs cs, RtO E ids ix (decCE E n) o
  | [], _ => ⟨0, fun _ _ _ h => by cases h⟩
  | c :: cs, h => by
    obtain ⟨m, hm⟩ := rt_ce c h.1
    obtain ⟨k, hk⟩ := rt_ces cs h.2
    refine ⟨max m k, fun n hn o ho => ?_⟩
    rcases List.mem_cons.1 ho with e | e
    · rw [e]; exact hm n (by omega)
    · exact hk n (by omega) o e
end

end
end Cowl.Prt
