import Verif.IterLemmas
import Verif.ObjProps
/-! # C09, C10, C41: operands, primitives, collecting iterators -/
namespace Cowl
open IterSpec ObjSpec

/-! ## Samples -/

/-- `SubClassOf(Annotation(q A) ObjectSomeValuesFrom(p owl:Thing) A)`, with the filler omitted. -/
def annotatedAxiom : Obj :=
  getImplAnnot .aSubClass
    [getImpl .ceObjSome [.prim (.ent .objProp (sampleIri "p"))] none, sampleCls "A"]
    (some (false, [getImplAnnot .annotation
      [.prim (.ent .annotProp (sampleIri "q")), .prim (.iri (sampleIri "A"))] none]))

/-- `DisjointUnion(A B C)`. -/
def unionAxiom : Obj :=
  getImplAnnot .aDisjUnion [sampleCls "A", .vec false [sampleCls "B", sampleCls "C"]] none

theorem annotatedAxiom_wf : WellFormed annotatedAxiom := by
  simp [annotatedAxiom, getImplAnnot, getImpl, WellFormed, WellFormedAll, sampleCls, nFields,
    OType.fieldCount, OType.flags]

/-! ## C10 -/

/-- C10. The visits of `cowl_iterate_primitives` on an object form a list that
holds exactly the selected primitives occurring in it, and the iterator runs over
this list until it asks to stop. -/
theorem C10_iterate_primitives (o : Obj) (h : WellFormed o) (flags : BitVec 8) :
    ∃ L : List Prim, (∀ p, p ∈ L ↔ Occurs p o ∧ Selects flags p) ∧
      ∀ (σ : Type) (k : σ → Prim → σ × Ret) (s : σ),
        Run k L s (iterPrims flags k o s).1 (iterPrims flags k o s).2 := by
  refine ⟨(occ o).filter fun p => flags.getLsbD p.bit, fun p => ?_, fun σ k s => ?_⟩
  · rw [List.mem_filter, mem_occ_iff o p h, selects_iff]
  · rw [iterPrims_eq]; exact iterList_run k _ s

example : WellFormed annotatedAxiom ∧ Occurs (.ent .cls owlThing) annotatedAxiom ∧
    Occurs (.ent .annotProp (sampleIri "q")) annotatedAxiom ∧
    Selects 0x11#8 (.ent .annotProp (sampleIri "q")) := by
  refine ⟨annotatedAxiom_wf, .field (List.mem_cons_self ..) (.defaultFiller (.inl rfl)), ?_, ?_⟩
  · exact .field (x := .vec false _) (List.mem_cons_of_mem _ (List.mem_cons_of_mem _ (List.mem_cons_self ..)))
      (.item (List.mem_cons_self ..) (.field (List.mem_cons_self ..) (.self _)))
  · show 0x11#8 &&& 0x10#8 ≠ 0#8; decide

/-- C10, queries. `cowl_has_primitive(o, p)` holds iff `p` occurs in `o`. -/
theorem C10_has_primitive (o : Obj) (h : WellFormed o) (p : Prim) :
    hasPrimitive o p = true ↔ Occurs p o := by
  rw [hasPrimitive_eq, List.any_eq_true, ← mem_occ_iff o p h]
  simp

example : hasPrimitive annotatedAxiom (.ent .cls owlThing) = true ∧
    hasPrimitive annotatedAxiom (.ent .cls (sampleIri "q")) = false := by decide +kernel

/-! ## C09 -/

/-- C09. The visits of `cowl_axiom_iterate_operands` on an axiom with operands
`ops` and possibly annotations are its operands at the requested positions. -/
theorem C09_operands (t : OType) (bit : Bool) (ops annots : List Obj) (u : Nat) (pos : BitVec 8)
    (h : ops.length = t.fieldCount) (σ : Type) (k : σ → Obj → σ × Ret) (s : σ) :
    Run k (operandsAt ops pos) s (iterOperands (.comp t bit (ops ++ annots) u) pos k s).1
      (iterOperands (.comp t bit (ops ++ annots) u) pos k s).2 := by
  rw [iterOperands_eq, opsAt_eq t bit ops annots u pos h]
  exact iterList_run k _ s

/-- C09, the positions in plain words: an object is visited iff it is (an item of) an
operand that is the leftmost one and LEFT is asked for, or the rightmost one and
RIGHT is asked for, or a middle one and MIDDLE is asked for. -/
theorem C09_positions (ops : List Obj) (pos : BitVec 8) (x : Obj) :
    x ∈ operandsAt ops pos ↔
      ∃ i op, ops[i]? = some op ∧ SitsAt ops.length i pos ∧ Expands op x := by
  simp only [operandsAt, List.mem_flatMap, List.mem_filter, List.mem_zipIdx_iff_getElem?,
    Prod.exists, decide_eq_true_eq]
  constructor
  · rintro ⟨op, i, ⟨h1, h2⟩, h3⟩
    exact ⟨i, op, h1, h2, by cases op <;> simpa [Expands] using h3⟩
  · rintro ⟨i, op, h1, h2, h3⟩
    exact ⟨op, i, ⟨h1, h2⟩, by cases op <;> simpa [Expands] using h3⟩

/-- C09, `cowl_axiom_has_operand`. -/
theorem C09_has_operand (t : OType) (bit : Bool) (ops annots : List Obj) (u : Nat)
    (pos : BitVec 8) (h : ops.length = t.fieldCount) (x : Obj) :
    hasOperand (.comp t bit (ops ++ annots) u) x pos = true ↔
      ∃ y ∈ operandsAt ops pos, y.equals x = true := by
  have hcb : containsCb x = fun (s : Unit) o => (s, if o.equals x then Ret.no else .ok) := by
    funext s o
    unfold containsCb
    cases x <;> cases o <;> simp [Obj.equals, Obj.eqv]
  rw [hasOperand, iterOperands_eq, opsAt_eq t bit ops annots u pos h, hcb,
    iterList_found (fun o : Obj => o.equals x), List.any_eq_true]

/-- C09, `cowl_axiom_has_operand_with_iri`: entities and IRIs carry an IRI. -/
theorem C09_has_operand_with_iri (t : OType) (bit : Bool) (ops annots : List Obj) (u : Nat)
    (pos : BitVec 8) (h : ops.length = t.fieldCount) (i : Iri) :
    hasOperandWithIri (.comp t bit (ops ++ annots) u) i pos = true ↔
      ∃ y ∈ operandsAt ops pos, y = .prim (.iri i) ∨ ∃ k, y = .prim (.ent k i) := by
  have hcb : (fun (s : Unit) (o : Obj) => (s, if o.iri? = some i then Ret.no else .ok)) =
      fun (s : Unit) o => (s, if decide (o.iri? = some i) then Ret.no else .ok) := by
    funext s o; simp
  rw [hasOperandWithIri, iterOperands_eq, opsAt_eq t bit ops annots u pos h, hcb,
    iterList_found (fun o : Obj => decide (o.iri? = some i)), List.any_eq_true]
  refine exists_congr fun y => and_congr_right fun _ => ?_
  simp only [decide_eq_true_eq]
  constructor
  · intro hy
    unfold Obj.iri? at hy
    split at hy
    · cases hy; exact .inr ⟨_, rfl⟩
    · cases hy; exact .inl rfl
    · cases hy
  · rintro (rfl | ⟨k, rfl⟩) <;> rfl

/-- The axiom types all have between one and three operands, so the hypothesis
`ops.length = t.fieldCount` speaks about real axioms: here DisjointUnion(A B C),
whose right operands are B and C. -/
example : (unionAxiom matches .comp .aDisjUnion false [_, _] _) = true ∧
    ([sampleCls "A", Obj.vec false [sampleCls "B", sampleCls "C"]].length
      = OType.aDisjUnion.fieldCount) ∧
    operandsAt [sampleCls "A", .vec false [sampleCls "B", sampleCls "C"]] psRight
      = [sampleCls "B", sampleCls "C"] ∧
    hasOperand unionAxiom (sampleCls "B") psRight = true ∧
    hasOperand unionAxiom (sampleCls "B") psLeft = false := by
  refine ⟨by decide +kernel, rfl, rfl, by decide +kernel, by decide +kernel⟩

/-- C47. `cowl_axiom_has_primitive` with a position other than ANY holds iff the
primitive occurs in an operand at that position; with ANY it holds iff it occurs
anywhere in the axiom, its annotations included. -/
theorem C47_axiom_has_primitive (t : OType) (bit : Bool) (ops annots : List Obj) (u : Nat)
    (pos : BitVec 8) (h : ops.length = t.fieldCount)
    (hw : WellFormed (.comp t bit (ops ++ annots) u)) (p : Prim) :
    axiomHasPrimitive (.comp t bit (ops ++ annots) u) p pos = true ↔
      (pos = psAny ∧ Occurs p (.comp t bit (ops ++ annots) u)) ∨
      (pos ≠ psAny ∧ ∃ y ∈ operandsAt ops pos, Occurs p y) := by
  unfold axiomHasPrimitive
  by_cases hp : pos = psAny
  · simp only [hp, if_true, ne_eq, not_true_eq_false, false_and, or_false, true_and]
    exact C10_has_primitive _ hw p
  · have hwf : ∀ y ∈ operandsAt ops pos, WellFormed y := by
      intro y hy
      obtain ⟨i, op, h1, _, h3⟩ := (C09_positions ops pos y).1 hy
      rw [WellFormed] at hw
      have hop : WellFormed op := (wellFormedAll_iff _).1 hw.2 op
        (List.mem_append_left _ (List.mem_of_getElem? h1))
      cases op with
      | vec o xs => rw [WellFormed] at hop; exact (wellFormedAll_iff _).1 hop y h3
      | _ => simp only [Expands] at h3; rw [h3]; exact hop
    simp only [hp, if_false, ne_eq, not_false_eq_true, true_and, false_and, false_or]
    have hcb : axiomHasPrimCb p =
        fun (s : Unit) o => (s, if hasPrimitive o p then Ret.no else .ok) := by
      funext s o
      unfold axiomHasPrimCb
      cases o with
      | prim q =>
        rw [hasPrimitive_eq]
        by_cases hq : q = p <;> simp [occ, hq]
      | _ => simp
    rw [iterOperands_eq, opsAt_eq t bit ops annots u pos h, hcb,
      iterList_found (fun o : Obj => hasPrimitive o p), List.any_eq_true]
    constructor
    · rintro ⟨y, hy, h'⟩; exact ⟨y, hy, (C10_has_primitive y (hwf y hy) p).1 h'⟩
    · rintro ⟨y, hy, h'⟩; exact ⟨y, hy, (C10_has_primitive y (hwf y hy) p).2 h'⟩

example : axiomHasPrimitive annotatedAxiom (.ent .annotProp (sampleIri "q")) psAny = true ∧
    axiomHasPrimitive annotatedAxiom (.ent .annotProp (sampleIri "q")) 3#8 = false ∧
    axiomHasPrimitive annotatedAxiom (.ent .cls owlThing) psLeft = true ∧
    axiomHasPrimitive annotatedAxiom (.ent .cls owlThing) psRight = false := by decide +kernel

/-! ## C41 -/

/-- C41, `cowl_iterator_vec`: the visited objects are appended in order. -/
theorem C41_vec (visited stored : List Obj) :
    Run storeVecCb visited stored (stored ++ visited) .ok := by
  have := iterList_run storeVecCb visited stored
  rwa [iterList_storeVec] at this

/-- C41, `cowl_iterator_count`: the counter grows by the number of visits (as the
32-bit `ulib_uint` it is). -/
theorem C41_count (visited : List Obj) (n : BitVec 32) :
    Run countCb visited n (n + BitVec.ofNat 32 visited.length) .ok := by
  have := iterList_run countCb visited n
  rwa [iterList_count] at this

/-- C41, `cowl_iterator_contains`: the run stops iff an equal object is visited. -/
theorem C41_contains (visited : List Obj) (x : Obj) :
    (Run (containsCb x) visited () () .no ↔ ∃ y ∈ visited, y.equals x = true) ∧
    (Run (containsCb x) visited () () .ok ↔ ¬ ∃ y ∈ visited, y.equals x = true) := by
  have hcb : containsCb x = fun (s : Unit) o => (s, if o.equals x then Ret.no else .ok) := by
    funext s o
    unfold containsCb
    cases x <;> cases o <;> simp [Obj.equals, Obj.eqv]
  induction visited with
  | nil =>
    refine ⟨⟨fun h => (by cases h), by simp⟩, ⟨fun _ => by simp, fun _ => .done ()⟩⟩
  | cons y ys ih =>
    by_cases hy : y.equals x = true
    · have hk : containsCb x () y = ((), .no) := by rw [hcb]; simp [hy]
      refine ⟨⟨fun _ => ⟨y, by simp, hy⟩, fun _ => .stop hk (by simp)⟩, ⟨fun h => ?_, fun h => ?_⟩⟩
      · cases h with
        | stop h' hr => exact absurd rfl hr
        | go h' _ => rw [hk] at h'; cases h'
      · exact absurd ⟨y, by simp, hy⟩ h
    · have hk : containsCb x () y = ((), .ok) := by rw [hcb]; simp [hy]
      have hex : (∃ z ∈ y :: ys, z.equals x = true) ↔ ∃ z ∈ ys, z.equals x = true := by
        simp [hy]
      rw [hex, ← ih.1]
      have hrun : ∀ r, Run (containsCb x) (y :: ys) () () r ↔ Run (containsCb x) ys () () r := by
        intro r
        constructor
        · intro h
          cases h with
          | stop h' hr => rw [hk] at h'; cases h'; exact absurd rfl hr
          | go h' hs => exact hs
        · intro h; exact .go hk h
      rw [hrun, hrun, ih.2, ih.1]
      exact ⟨Iff.rfl, Iff.rfl⟩

example : ∃ y ∈ [sampleCls "A", sampleInter], y.equals sampleInter = true :=
  ⟨sampleInter, by simp, by decide +kernel⟩

/-- C41, `cowl_iterator_set`, proved part: if no visited object equals a stored or
an earlier visited one, all are collected. Missing: repeated visits, where the
iterator stops the iteration (`C41_set_fails`). -/
theorem C41_set_partial (visited stored : List Obj)
    (h : (stored ++ visited).Pairwise fun x y => x.equals y = false) :
    Run (storeSetCb Obj.equals) visited stored (stored ++ visited) .ok := by
  have := iterList_run (storeSetCb Obj.equals) visited stored
  rwa [iterList_storeSet _ _ _ h] at this

example : ([sampleCls "A"] ++ [sampleCls "B", sampleInter]).Pairwise
    fun x y => x.equals y = false := by
  simp only [List.cons_append, List.nil_append, List.pairwise_cons, List.mem_cons]
  refine ⟨?_, ?_, ?_, List.Pairwise.nil⟩
  · rintro y (rfl | rfl | h)
    · decide +kernel
    · decide +kernel
    · cases h
  · rintro y (rfl | h)
    · decide +kernel
    · cases h
  · rintro y h; cases h

/-- C41 is false for `cowl_iterator_set`: visiting A, A, B collects only A, since
the second visit stops the iteration. -/
theorem C41_set_fails : Run (storeSetCb Obj.equals)
    [sampleCls "A", sampleCls "A", sampleCls "B"] [] [sampleCls "A"] .no := by
  refine .go (s' := [sampleCls "A"]) rfl (.stop ?_ (by simp))
  have h : (sampleCls "A").equals (sampleCls "A") = true := by decide +kernel
  simp [storeSetCb, h]

end Cowl
