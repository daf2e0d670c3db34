import Verif.OntoOwn
/-! # C11 to C19, C21, C50: ontologies -/
namespace Cowl
open ObjSpec IterSpec OntoSpec

/-! ## Samples -/

/-- The class `http://x#n` as a primitive. -/
def clsPrim (n : String) : Prim := .ent .cls (sampleIri n)
/-- `SubClassOf(a b)`. -/
def subAx (a b : String) : Obj := getImpl .aSubClass [sampleCls a, sampleCls b] none
/-- `Declaration(Class(a))`. -/
def declAx (a : String) : Obj := getImpl .aDecl [sampleCls a] none
/-- `AnnotationAssertion(p a "v")`, where the subject is the IRI of `a`. -/
def noteAx (a : String) : Obj :=
  getImpl .aAnnotAssert [.prim (.ent .annotProp (sampleIri "p")), .prim (.iri (sampleIri a)),
    .lit (ascii "v") (.dt xsdString)] none

theorem subAx_isAxiom (a b : String) : IsAxiom (subAx a b) := by
  simp [IsAxiom, subAx, getImpl, WellFormed, WellFormedAll, sampleCls, nFields, OType.fieldCount,
    OType.flags, OType.isAxiom]
  decide
theorem declAx_isAxiom (a : String) : IsAxiom (declAx a) := by
  simp [IsAxiom, declAx, getImpl, WellFormed, WellFormedAll, sampleCls, nFields, OType.fieldCount,
    OType.flags, OType.isAxiom]
  decide
theorem noteAx_isAxiom (a : String) : IsAxiom (noteAx a) := by
  simp [IsAxiom, noteAx, getImpl, WellFormed, WellFormedAll, nFields, OType.fieldCount,
    OType.flags, OType.isAxiom]
  decide

/-- A history that adds three axioms, removes one, and removes by filter. -/
def sampleOps : List Op :=
  [.addAxiom ⟨1, subAx "A" "B"⟩, .addAxiom ⟨2, declAx "A"⟩, .addAxiom ⟨3, subAx "B" "C"⟩,
   .addAxiom ⟨4, noteAx "C"⟩, .removeAxiom ⟨1, subAx "A" "B"⟩,
   .removeMatching ⟨Masks.afAll, [clsPrim "C"], none⟩,
   .addImport ⟨5, .prim (.iri (sampleIri "o"))⟩]

/-- The history is legal, and two axioms remain. -/
theorem sampleOps_legal : LegalRun Abs.empty sampleOps ∧
    (Abs.empty.run sampleOps).axioms.map Ref.addr = [2, 4] := by
  refine ⟨⟨⟨subAx_isAxiom .., by simp [Fits, Abs.empty]⟩,
    ⟨declAx_isAxiom .., by simp [Fits, Abs.step, Abs.empty]⟩,
    ⟨subAx_isAxiom .., by simp [Fits, Abs.step, Abs.empty]⟩,
    ⟨noteAx_isAxiom .., by simp [Fits, Abs.step, Abs.empty]⟩,
    ⟨subAx_isAxiom .., by simp [Fits, Abs.step, Abs.empty]⟩, ?_, trivial, trivial⟩, by decide +kernel⟩
  refine .inr ⟨by simp, ?_⟩
  simp only [List.mem_singleton, forall_eq]
  intro a ha
  simp [Abs.step, Abs.empty] at ha
  rcases ha with rfl | rfl | rfl <;> decide +kernel

/-! ## C11 -/

/-- C11. Legal histories never run into undefined behaviour. -/
theorem C11_total (ops : List Op) (h : LegalRun Abs.empty ops) :
    ∃ o, Onto.empty.run ops = some o ∧ Reaches o (Abs.empty.run ops) := by
  obtain ⟨o, h1, _⟩ := inv_run ops _ _ inv_empty h
  exact ⟨o, h1, ops, h, h1, rfl⟩

theorem reaches_inv {o : Onto} {s : Abs} (h : Reaches o s) : Inv o s := by
  obtain ⟨ops, h1, h2, rfl⟩ := h
  obtain ⟨o', h3, h4⟩ := inv_run ops _ _ inv_empty h1
  rw [h2] at h3
  cases h3
  exact h4

theorem legalRun_append : ∀ (ops : List Op) (s : Abs) (op : Op),
    LegalRun s ops → Legal (s.run ops) op → LegalRun s (ops ++ [op])
  | [], _, _, _, h => ⟨h, trivial⟩
  | _ :: ops, _, op, h, h' => ⟨h.1, legalRun_append ops _ op h.2 h'⟩

theorem absRun_append : ∀ (ops : List Op) (s : Abs) (op : Op),
    s.run (ops ++ [op]) = (s.run ops).step op
  | [], _, _ => rfl
  | _ :: ops, _, op => absRun_append ops _ op

theorem run_append : ∀ (ops : List Op) (o : Onto) (op : Op),
    o.run (ops ++ [op]) = (o.run ops).bind fun o' => o'.step op
  | [], o, op => by simp [Onto.run]
  | p :: ops, o, op => by
    simp only [List.cons_append, Onto.run]
    cases o.step p with
    | none => rfl
    | some o1 => exact run_append ops o1 op

theorem reaches_step {o o' : Onto} {s : Abs} {op : Op} (h : Reaches o s) (hl : Legal s op)
    (ho : o.step op = some o') : Reaches o' (s.step op) := by
  obtain ⟨ops, h1, h2, rfl⟩ := h
  exact ⟨ops ++ [op], legalRun_append ops _ op h1 hl, by rw [run_append, h2]; exact ho,
    (absRun_append ops _ op).symm⟩

/-- C11. Iterating over all axioms visits the held axioms, each as often as it
is held; the count is their number. -/
theorem C11_axioms (o : Onto) (s : Abs) (h : Reaches o s) :
    ∃ visited : List Ref, visited.Perm s.axioms ∧
      o.axiomCount = BitVec.ofNat 32 s.axioms.length ∧
      ∀ (σ : Type) (k : σ → Ref → σ × Ret) (x : σ),
        Run k visited x (o.iterAxioms k x).1 (o.iterAxioms k x).2 := by
  have hi := reaches_inv h
  refine ⟨_, allTypes_perm hi, ?_, fun σ k x => ?_⟩
  · rw [Onto.axiomCount, count_types, (allTypes_perm hi).length_eq]
  · rw [Onto.iterAxioms, iterTypes_eq]
    exact iterList_run k _ x

/-- C11, one type: the held axioms of that type are visited and counted. -/
theorem C11_by_type (o : Onto) (s : Abs) (h : Reaches o s) (t : Nat) :
    ∃ visited : List Ref, visited.Perm (s.axioms.filter fun a => OfType t a) ∧
      o.axiomCountForType t = BitVec.ofNat 32 (s.axioms.filter fun a => OfType t a).length ∧
      ∀ (σ : Type) (k : σ → Ref → σ × Ret) (x : σ),
        Run k visited x (o.iterAxiomsOfType t k x).1 (o.iterAxiomsOfType t k x).2 := by
  have hi := reaches_inv h
  have hp : ((o.tindex t).getD []).Perm (s.axioms.filter fun a => OfType t a) := by
    refine (hi.type t).trans (List.Perm.of_eq (List.filter_congr fun a ha => ?_))
    rw [Bool.eq_iff_iff, decide_eq_true_eq, decide_eq_true_eq]
    exact ((isAxiom_axType (hi.axioms a ha)).2 t).symm
  refine ⟨_, hp, ?_, fun σ k x => iterList_run k _ x⟩
  rw [Onto.axiomCountForType, vecCount, hp.length_eq]

/-- C11, several types: the held axioms of the selected types are visited and counted. -/
theorem C11_by_types (o : Onto) (s : Abs) (h : Reaches o s) (types : BitVec 64) :
    ∃ visited : List Ref, visited.Perm (s.axioms.filter fun a => TypeIn types a) ∧
      o.axiomCountForTypes types =
        BitVec.ofNat 32 (s.axioms.filter fun a => TypeIn types a).length ∧
      ∀ (σ : Type) (k : σ → Ref → σ × Ret) (x : σ),
        Run k visited x (o.iterAxiomsOfTypes types k x).1 (o.iterAxiomsOfTypes types k x).2 := by
  have hi := reaches_inv h
  have hp : ((typesOf types).flatMap fun t => (o.tindex t).getD []).Perm
      (s.axioms.filter fun a => TypeIn types a) := by
    refine (byTypes_perm hi _ (typesOf_nodup _)).trans
      (List.Perm.of_eq (List.filter_congr fun a ha => ?_))
    rw [Bool.eq_iff_iff, decide_eq_true_eq, decide_eq_true_eq, mem_typesOf]
    obtain ⟨h1, h2⟩ := isAxiom_axType (hi.axioms a ha)
    constructor
    · rintro ⟨h3, h4⟩; exact ⟨_, h3, (h2 _).2 rfl, h4⟩
    · rintro ⟨t, h3, h4, h5⟩; rw [(h2 t).1 h4]; exact ⟨h3, h5⟩
  refine ⟨_, hp, ?_, fun σ k x => ?_⟩
  · have := count_types o (typesOf types)
    rw [Onto.axiomCountForTypes]
    simp only [Onto.axiomCountForType]
    rw [this, hp.length_eq]
  · rw [Onto.iterAxiomsOfTypes, iterTypes_eq]
    exact iterList_run k _ x

/-- A non-trivial reachable ontology. -/
example : ∃ o s, Reaches o s ∧ s.axioms.map Ref.addr = [2, 4] := by
  obtain ⟨o, _, h⟩ := C11_total sampleOps sampleOps_legal.1
  exact ⟨o, _, h, sampleOps_legal.2⟩

/-! ## C12 -/

/-- C12, proved part. If the axiom and the held axioms list no operand twice,
`cowl_ontology_has_axiom` is membership up to equality. Missing: axioms with a
repeated operand, where it is false (`C12_fails`). -/
theorem C12_partial (o : Onto) (s : Abs) (h : Reaches o s) (x : Obj) (hx : IsAxiom x)
    (hr : Regular false x) (hs : ∀ a ∈ s.axioms, Regular false a.obj) :
    o.hasAxiom x = true ↔ ∃ a ∈ s.axioms, Same a.obj x := by
  have hi := reaches_inv h
  unfold Onto.hasAxiom
  constructor
  · intro he
    split at he
    · cases he
    · rename_i v hv
      rw [List.any_eq_true] at he
      obtain ⟨a, ha, he⟩ := he
      have ha' := (bestIndex_mem hi a).1 v hv ha
      exact ⟨a, ha', (C05_equals_iff_same _ _ (hs a ha') hr).1 he⟩
  · rintro ⟨a, ha, he⟩
    obtain ⟨v, hv, hav⟩ := (bestIndex_mem hi (x := x) a).2 ha
      (by unfold axType; rw [same_otype he])
      (fun p hp => by rw [same_times p he]; exact (mem_occ_times hx.1).1 hp)
    rw [hv]
    exact List.any_eq_true.2 ⟨a, hav, (C05_equals_iff_same _ _ (hs a ha) hr).2 he⟩

example : Regular false (subAx "A" "B") := by
  simp [subAx, getImpl, Regular, RegularFields, RegularItems, nFields, OType.fieldCount,
    OType.flags, sampleCls]

/-- `EquivalentClasses(...)`. -/
def equivAx (ns : List String) : Obj := getImpl .aEquivClasses [.vec false (ns.map sampleCls)] none

/-- C12 is false as stated: the answer depends on the index that is scanned. The
ontologies hold an axiom that equals the query (`cowl_equals`) in both cases, but
the second one, which holds a further axiom, scans the index of B and denies it. -/
theorem C12_fails :
    (equivAx ["A", "A"]).equals (equivAx ["A", "B"]) = true ∧
    (Onto.empty.addAxiom ⟨1, equivAx ["A", "A"]⟩).hasAxiom (equivAx ["A", "B"]) = true ∧
    (((Onto.empty.addAxiom ⟨1, equivAx ["A", "A"]⟩).addAxiom ⟨2, declAx "B"⟩).hasAxiom
      (equivAx ["A", "B"])) = true ∧
    ((((Onto.empty.addAxiom ⟨1, equivAx ["A", "A"]⟩).addAxiom ⟨2, equivAx ["B", "C"]⟩).hasAxiom
      (equivAx ["A", "B"]))) = false := by
  decide +kernel

/-! ## C13 -/

/-- C13, exact: `cowl_ontology_iterate_axioms_for_primitive` visits each held axiom
once per mention of the primitive, plus once per mention of its IRI if it is an
entity; the count agrees with the visits. -/
theorem C13_mentions (o : Onto) (s : Abs) (h : Reaches o s) (p : Prim) :
    ∃ visited : List Ref,
      visited.Perm (s.axioms.flatMap fun a => List.replicate (mentions p a.obj) a) ∧
      o.axiomCountForPrimitive p = BitVec.ofNat 32 visited.length ∧
      ∀ (σ : Type) (k : σ → Ref → σ × Ret) (x : σ),
        Run k visited x (o.iterAxiomsForPrimitive p k x).1 (o.iterAxiomsForPrimitive p k x).2 := by
  refine ⟨_, forPrim_perm (reaches_inv h) p, axiomCountForPrimitive_eq o p, fun σ k x => ?_⟩
  rw [iterAxiomsForPrimitive_eq]
  exact iterList_run k _ x

/-- C13, proved part. If no held axiom mentions the primitive (or its IRI) more
than once, exactly the held axioms that mention it (or its IRI) are visited, each
once, and counted. Missing: axioms with several mentions are visited and counted
once per mention (`C13_fails`). -/
theorem C13_partial (o : Onto) (s : Abs) (h : Reaches o s) (p : Prim)
    (h1 : ∀ a ∈ s.axioms, mentions p a.obj ≤ 1) :
    ∃ visited : List Ref,
      visited.Perm (s.axioms.filter fun a => 0 < mentions p a.obj) ∧
      o.axiomCountForPrimitive p =
        BitVec.ofNat 32 (s.axioms.filter fun a => 0 < mentions p a.obj).length ∧
      ∀ (σ : Type) (k : σ → Ref → σ × Ret) (x : σ),
        Run k visited x (o.iterAxiomsForPrimitive p k x).1 (o.iterAxiomsForPrimitive p k x).2 := by
  obtain ⟨v, h2, h3, h4⟩ := C13_mentions o s h p
  rw [flatMap_replicate_le_one (fun a : Ref => mentions p a.obj) _ h1] at h2
  exact ⟨v, h2, by rw [h3, h2.length_eq], h4⟩

example : ∀ a ∈ (Abs.empty.run sampleOps).axioms, mentions (clsPrim "A") a.obj ≤ 1 := by
  decide +kernel

/-- `mentions` counts occurrences: it is positive iff the primitive, or its IRI if
it is an entity, occurs in the object. -/
theorem C13_mentions_occurs (p : Prim) (x : Obj) :
    0 < mentions p x ↔ Occurs p x ∨ ∃ k i, p = .ent k i ∧ Occurs (.iri i) x := by
  unfold mentions
  cases p with
  | ent k i =>
    rw [← times_pos]
    constructor
    · intro h
      by_cases h1 : 0 < times (.ent k i) x
      · exact .inl h1
      · exact .inr ⟨k, i, rfl, (times_pos _ _).1 (by dsimp only at h; omega)⟩
    · rintro (h | ⟨k', i', h1, h2⟩)
      · omega
      · cases h1
        have := (times_pos _ _).2 h2
        dsimp only
        omega
  | iri i => simp [← times_pos]
  | anon n => simp [← times_pos]

/-- C13 is false as stated: `SubClassOf(A A)` is visited twice for A and counted
twice. -/
theorem C13_fails :
    let o := Onto.empty.addAxiom ⟨1, subAx "A" "A"⟩
    (o.iterAxiomsForPrimitive (clsPrim "A") (fun (s : List Nat) a => (s ++ [a.addr], .ok)) []).1
      = [1, 1] ∧ o.axiomCountForPrimitive (clsPrim "A") = 2#32 ∧ o.axiomCount = 1#32 := by
  decide +kernel

/-- C13, the case of IRIs: an annotation assertion about the IRI of A is visited
for the class A, though it does not mention the class. -/
theorem C13_iri_fails :
    let o := Onto.empty.addAxiom ⟨1, noteAx "A"⟩
    (o.iterAxiomsForPrimitive (clsPrim "A") (fun (s : List Nat) a => (s ++ [a.addr], .ok)) []).1
      = [1] ∧ times (clsPrim "A") (noteAx "A") = 0 := by
  decide +kernel

/-! ## C14 -/

/-- C14, completeness: with a filter that has a primitive, every held axiom that
matches is visited. -/
theorem C14_complete (o : Onto) (s : Abs) (h : Reaches o s) (f : Filter) (hf : f.prims ≠ []) :
    ∃ visited : List Ref, (∀ a ∈ s.axioms, Matches f a → a ∈ visited) ∧
      (∀ a ∈ visited, a ∈ s.axioms) ∧
      ∀ (σ : Type) (k : σ → Ref → σ × Ret) (x : σ),
        Run k visited x (o.iterAxiomsMatching f k x).1 (o.iterAxiomsMatching f k x).2 := by
  refine ⟨matching o f, ?_, ?_, fun σ k x => ?_⟩
  · intro a ha hm
    rcases matching_cases (reaches_inv h) f with ⟨h1, h2⟩ | ⟨p, hp, g, h1, h2⟩ | ⟨h1, h2⟩
    · exfalso
      rcases h2 with h2 | h2 | ⟨p, hp, h2⟩
      · obtain ⟨⟨t, h3, _, h4⟩, _⟩ := hm
        rw [h2 t h3] at h4
        cases h4
      · exact hf h2
      · have := hm.2.1 p hp
        rw [h2 a ha] at this
        omega
    · obtain ⟨h3, h4⟩ := (h2 a).1 hm
      rw [h1.mem_iff, List.mem_filter, mem_mentions]
      refine ⟨⟨ha, ?_⟩, by simpa using h3⟩
      unfold mentions
      omega
    · rw [h1.mem_iff, List.mem_filter]
      exact ⟨ha, by simpa using hm⟩
  · intro a ha
    rcases matching_cases (reaches_inv h) f with ⟨h1, h2⟩ | ⟨p, hp, g, h1, h2⟩ | ⟨h1, h2⟩
    · rw [h1] at ha; cases ha
    · rw [h1.mem_iff, List.mem_filter, mem_mentions] at ha
      exact ha.1.1
    · rw [h1.mem_iff, List.mem_filter] at ha
      exact ha.1
  · rw [iterAxiomsMatching_eq]
    exact iterList_run k _ x

/-- C14, proved part. With a filter that has a primitive, and if no held axiom
mentions one of its primitives more than once or mentions the IRI of one, exactly
the matching held axioms are visited, each once. Missing: filters without
primitives (`C14_types_only_fails`), repeated mentions (`C14_repeat_fails`) and
mentioned IRIs (`C14_iri_fails`). -/
theorem C14_partial (o : Onto) (s : Abs) (h : Reaches o s) (f : Filter) (hf : f.prims ≠ [])
    (hm : ∀ p ∈ f.prims, ∀ a ∈ s.axioms, mentions p a.obj = times p a.obj ∧ times p a.obj ≤ 1) :
    ∃ visited : List Ref, visited.Perm (s.axioms.filter fun a => Matches f a) ∧
      ∀ (σ : Type) (k : σ → Ref → σ × Ret) (x : σ),
        Run k visited x (o.iterAxiomsMatching f k x).1 (o.iterAxiomsMatching f k x).2 := by
  refine ⟨matching o f, ?_, fun σ k x => ?_⟩
  · rcases matching_cases (reaches_inv h) f with ⟨h1, h2⟩ | ⟨p, hp, g, h1, h2⟩ | ⟨h1, h2⟩
    · rw [h1, List.filter_eq_nil_iff.2]
      intro a ha
      rw [decide_eq_true_eq]
      intro hma
      rcases h2 with h2 | h2 | ⟨p, hp, h2⟩
      · obtain ⟨⟨t, h3, _, h4⟩, _⟩ := hma
        rw [h2 t h3] at h4
        cases h4
      · exact hf h2
      · have := hma.2.1 p hp
        rw [h2 a ha] at this
        omega
    · refine h1.trans (List.Perm.of_eq ?_)
      rw [flatMap_replicate_le_one (fun a : Ref => mentions p a.obj) _
        (fun a ha => by have := hm p hp a ha; omega), List.filter_filter]
      apply List.filter_congr
      intro a ha
      rw [Bool.eq_iff_iff]
      simp only [Bool.and_eq_true, decide_eq_true_eq, h2 a, (hm p hp a ha).1]
    · exact h1
  · rw [iterAxiomsMatching_eq]
    exact iterList_run k _ x

example : let s := Abs.empty.run (sampleOps.take 3)
    (∀ p ∈ [clsPrim "B"], ∀ a ∈ s.axioms, mentions p a.obj = times p a.obj ∧ times p a.obj ≤ 1) ∧
    (s.axioms.filter fun a => Matches ⟨2#64, [clsPrim "B"], none⟩ a).map Ref.addr = [1, 3] := by
  decide +kernel

/-- C14 is false as stated: a filter without primitives visits nothing, whatever
the ontology holds and whatever the filter matches. -/
theorem C14_types_only_fails (o : Onto) (types : BitVec 64) (c : Option (Ref → Bool)) (σ : Type)
    (k : σ → Ref → σ × Ret) (x : σ) :
    o.iterAxiomsMatching ⟨types, [], c⟩ k x = (x, .ok) := by
  have : o.bestForFilter ⟨types, [], c⟩ = (⟨0#64, [], c⟩, none) := by
    simp [Onto.bestForFilter, Onto.bestPindex, iterPrims, vecCount, iterPrimsN]
  rw [iterAxiomsMatching_eq, matching, this]
  rfl

/-- Such filters do match held axioms, e.g. all SubClassOf axioms. -/
example : Matches ⟨2#64, [], none⟩ ⟨1, subAx "A" "B"⟩ := by decide +kernel

/-- C14 is false for axioms that mention a primitive twice: they are visited twice. -/
theorem C14_repeat_fails :
    let o := Onto.empty.addAxiom ⟨1, subAx "A" "A"⟩
    (o.iterAxiomsMatching ⟨Masks.afAll, [clsPrim "A"], none⟩
      (fun (s : List Nat) a => (s ++ [a.addr], .ok)) []).1 = [1, 1] := by
  decide +kernel

/-- C14 is false for IRIs: an annotation assertion about the IRI of A is visited by
a filter for class A, which it does not match. -/
theorem C14_iri_fails :
    let o := (Onto.empty.addAxiom ⟨1, declAx "A"⟩).addAxiom ⟨2, noteAx "A"⟩
    (o.iterAxiomsMatching ⟨Masks.afAll, [clsPrim "A"], none⟩
      (fun (s : List Nat) a => (s ++ [a.addr], .ok)) []).1 = [1, 2] ∧
    ¬ Matches ⟨Masks.afAll, [clsPrim "A"], none⟩ ⟨2, noteAx "A"⟩ := by
  decide +kernel

/-! ## C15 -/

/-- C15, proved part. Removing the very axiom that is held returns true, takes out
that axiom and leaves the others. Removing an axiom that equals no held one
returns false and changes nothing. Missing: an argument that equals a held axiom
but is a different object (`C15_fails`). -/
theorem C15_partial (o : Onto) (s : Abs) (h : Reaches o s) (a : Ref) :
    (a ∈ s.axioms → ∃ o' s', o.removeAxiom a = some (o', true) ∧ Reaches o' s' ∧
      s.axioms.Perm (a :: s'.axioms) ∧ s'.annots = s.annots ∧ s'.imports = s.imports) ∧
    ((∀ b ∈ s.axioms, a.obj.equals b.obj = false) → o.removeAxiom a = some (o, false)) := by
  have hi := reaches_inv h
  refine ⟨fun ha => ?_, removeAxiom_none hi⟩
  have hl : Legal s (.removeAxiom a) := ⟨hi.axioms a ha, hi.fits a ha⟩
  obtain ⟨o', h1, _⟩ := inv_removeAndUnindex hi hl.1 hl.2 (tindex_some hi ha)
  have h2 := removeAxiom_held hi ha
  rw [h1] at h2
  refine ⟨o', s.step (.removeAxiom a), h2, reaches_step h hl ?_, eraseP_addr_perm hl.2 ha, rfl, rfl⟩
  simp only [Onto.step, h2, Option.map_some]

example : (⟨2, declAx "A"⟩ : Ref) ∈ (Abs.empty.run sampleOps).axioms ∧
    ∀ b ∈ (Abs.empty.run sampleOps).axioms, (declAx "Z").equals b.obj = false := by
  constructor
  · simp [sampleOps, Abs.run, Abs.step, Abs.empty, Matches, subAx, declAx, noteAx, getImpl, times,
      timesAll, sampleCls, clsPrim, sampleIri, ascii]
  · decide +kernel

/-- C15 is false as stated, in general: removing an axiom that equals a held one but
is a different object returns true and removes nothing; the argument is released
once although the ontology never retained it. -/
theorem C15_fails (o : Onto) (s : Abs) (h : Reaches o s) (a b : Ref) (ha : IsAxiom a.obj)
    (hr : Regular false a.obj) (hrb : Regular false b.obj) (hb : b ∈ s.axioms)
    (he : Same a.obj b.obj) (hne : ∀ c ∈ s.axioms, c.addr ≠ a.addr) :
    ∃ o', o.removeAxiom a = some (o', true) ∧ Reaches o' s ∧
      o'.refs = fun n => o.refs n - if n = a.addr then 1 else 0 := by
  have hi := reaches_inv h
  have hf : Fits s.axioms a := fun c hc e => absurd e (hne c hc)
  obtain ⟨v, hv, hbv⟩ := (bestIndex_mem hi (x := a.obj) b).2 hb
    (by unfold axType; rw [same_otype he])
    (fun p hp => by rw [← same_times p he]; exact (mem_occ_times ha.1).1 hp)
  have ht : ∃ v, o.tindex (axType a.obj) = some v := by
    rcases bestIndex_cases o a.obj (axType a.obj) with ⟨h1, _⟩ | ⟨v, h1, _⟩ | ⟨v, _, _, h1, _⟩
    · rw [h1] at hv; cases hv
    · exact ⟨v, h1⟩
    · exact ⟨v, h1⟩
  obtain ⟨o', h1, h2, _⟩ := inv_removeAndUnindex hi ha hf ht
  have hrem : o.removeAxiom a = some (o', true) := by
    unfold Onto.removeAxiom
    rw [hv]
    dsimp only
    rw [if_pos, h1]
    · rfl
    · exact List.any_eq_true.2 ⟨b, List.mem_reverse.2 hbv, (C05_equals_iff_same _ _ hr hrb).2 he⟩
  refine ⟨o', hrem, ?_, ?_⟩
  · have hs : s.step (.removeAxiom a) = s := by
      simp only [Abs.step]; rw [eraseP_addr_absent hne]
    have := reaches_step h (op := .removeAxiom a) ⟨ha, hf⟩ (o' := o') (by
      simp only [Onto.step, hrem, Option.map_some])
    rwa [hs] at this
  · rw [h2]
    funext n
    unfold bump
    split <;> simp_all
    rfl

/-- The case of `C15_fails` occurs: two objects for the same declaration. -/
example : let o := Onto.empty.addAxiom ⟨1, declAx "A"⟩
    ((o.removeAxiom ⟨2, declAx "A"⟩).map fun r => (r.2, r.1.axiomCount, r.1.hasAxiom (declAx "A"),
      r.1.refs 2)) = some (true, 1#32, true, -1) := by
  decide +kernel

/-! ## C16 -/

/-- C16, proved part. With a filter that has a primitive (or selects no type), and
if no held axiom mentions a primitive of the filter more than once, bulk removal
stays within bounds, removes exactly the matching axioms and returns their number.
Missing: filters without primitives (`C16_types_only_fails`) and repeated mentions
(`C16_repeat_fails`). -/
theorem C16_partial (o : Onto) (s : Abs) (h : Reaches o s) (f : Filter) (hf : Tame s.axioms f) :
    ∃ o' s', o.removeAxiomsMatching f =
        some (o', BitVec.ofNat 32 (s.axioms.filter fun a => Matches f a).length) ∧
      Reaches o' s' ∧ s'.axioms = s.axioms.filter (fun a => ¬ Matches f a) ∧
      s'.annots = s.annots ∧ s'.imports = s.imports := by
  obtain ⟨o', r, h1, _⟩ := removeAxiomsMatching_spec (reaches_inv h) f hf
  refine ⟨o', s.step (.removeMatching f), h1, reaches_step h hf ?_, rfl, rfl, rfl⟩
  simp only [Onto.step, h1, Option.map_some]

example : let s := Abs.empty.run (sampleOps.take 4)
    (∀ p ∈ [clsPrim "B"], ∀ a ∈ s.axioms, times p a.obj ≤ 1) ∧
    (s.axioms.filter fun a => Matches ⟨Masks.afAll, [clsPrim "B"], none⟩ a).map Ref.addr = [1, 3] ∧
    (s.axioms.filter fun a => ¬ Matches ⟨Masks.afAll, [clsPrim "B"], none⟩ a).map Ref.addr = [2, 4] := by
  decide +kernel

/-- C16 is false as stated: removing by A with `SubClassOf(A A)` held reads beyond
the end of the index, which the first removal has emptied. -/
theorem C16_repeat_fails :
    ((Onto.empty.addAxiom ⟨1, subAx "A" "A"⟩).removeAxiomsMatching
      ⟨Masks.afAll, [clsPrim "A"], none⟩).isNone = true := by
  decide +kernel

/-- C16 is false as stated: a filter without primitives removes nothing. -/
theorem C16_types_only_fails (o : Onto) (types : BitVec 64) (c : Option (Ref → Bool)) :
    o.removeAxiomsMatching ⟨types, [], c⟩ = some (o, 0#32) := by
  have : o.bestForFilter ⟨types, [], c⟩ = (⟨0#64, [], c⟩, none) := by
    simp [Onto.bestForFilter, Onto.bestPindex, iterPrims, vecCount, iterPrimsN]
  unfold Onto.removeAxiomsMatching
  rw [this]
  dsimp only
  split
  · rfl
  · have : typesOf 0#64 = [] := by rw [typesOf_eq]; decide
    rw [this, removeTypes]

/-! ## C17 -/

/-- C17, exact: `cowl_ontology_has_primitive` holds iff the primitive, or its IRI if
it is an entity, was mentioned by an axiom or annotation added at any time. -/
theorem C17_ever (ops : List Op) (h : LegalRun Abs.empty ops) (p : Prim) :
    ∃ o, Onto.empty.run ops = some o ∧
      (o.hasPrimitive p = true ↔ OrIri (EverMentioned ops) p) := by
  obtain ⟨o, h1, _⟩ := inv_run ops _ _ inv_empty h
  refine ⟨o, h1, ?_⟩
  rw [hasPrimitive_iff]
  apply orIri_congr
  intro q
  have := keys_run ops _ _ inv_empty h o h1 q
  simpa [Onto.empty] using this

/-- C17, one direction for all histories: what a held axiom or annotation mentions is
reported. -/
theorem C17_held (o : Onto) (s : Abs) (h : Reaches o s) (p : Prim) (hp : Mentioned s p) :
    o.hasPrimitive p = true := by
  obtain ⟨x, hx, hp⟩ := hp
  have hk := (reaches_inv h).keys p x hx hp
  rw [hasPrimitive_iff]
  cases p with
  | ent k i => exact .inl hk
  | iri i => exact hk
  | anon n => exact hk

/-- C17, proved part. With additions only, `cowl_ontology_has_primitive` holds iff a
held axiom or annotation mentions the primitive, or its IRI if it is an entity.
Missing: after a removal the primitive is still reported (`C17_fails`), and an
entity is reported on account of its IRI (`C17_iri_fails`). -/
theorem C17_partial (ops : List Op) (h : LegalRun Abs.empty ops) (ha : ∀ op ∈ ops, op.Adds)
    (p : Prim) : ∃ o, Onto.empty.run ops = some o ∧
      (o.hasPrimitive p = true ↔ OrIri (Mentioned (Abs.empty.run ops)) p) := by
  obtain ⟨o, h1, h2⟩ := C17_ever ops h p
  refine ⟨o, h1, h2.trans (orIri_congr (fun q => ?_) p)⟩
  rw [mentioned_run ops _ ha]
  simp [Mentioned, Abs.empty]

example : LegalRun Abs.empty (sampleOps.take 4) ∧ ∀ op ∈ sampleOps.take 4, op.Adds := by
  obtain ⟨h1, h2, h3, h4, _⟩ := sampleOps_legal.1
  refine ⟨⟨h1, h2, h3, h4, trivial⟩, ?_⟩
  simp [sampleOps, Op.Adds]

/-- C17. Iteration over primitives (in whatever order the hash tables have) visits
each selected primitive that was ever mentioned, once, and the count is the number
of visits. -/
theorem C17_iterate (ops : List Op) (h : LegalRun Abs.empty ops)
    (order : List Prim → List Prim) (ho : ∀ ps, (order ps).Perm ps) (mask : BitVec 8) :
    ∃ o, Onto.empty.run ops = some o ∧ ∃ visited : List Prim, visited.Nodup ∧
      (∀ p, p ∈ visited ↔ Selects mask p ∧ EverMentioned ops p) ∧
      o.primitiveCount mask = BitVec.ofNat 32 visited.length ∧
      ∀ (σ : Type) (k : σ → Prim → σ × Ret) (x : σ),
        Run k visited x (o.iterPrimitives order mask k x).1 (o.iterPrimitives order mask k x).2 := by
  obtain ⟨o, h1, hi⟩ := inv_run ops _ _ inv_empty h
  have hp := visitedKeys_perm o order ho mask
  refine ⟨o, h1, (((List.range 8).filter fun i => Masks.hasType mask i).flatMap fun i =>
    (order (o.keys i)).filter fun p => mask.getLsbD p.bit), ?_, fun p => ?_, ?_, fun σ k x => ?_⟩
  rotate_left 3
  · rw [Onto.iterPrimitives, iterTables_eq]
    exact iterList_run k _ x
  · exact hp.nodup_iff.2 (hi.nodup.filter _)
  · have hk := keys_run ops _ _ inv_empty h o h1 p
    rw [hp.mem_iff, List.mem_filter, selects_iff, and_comm]
    rw [hk]
    simp [Onto.empty]
  · rw [primitiveCount_eq, hp.length_eq]

example : ∃ order : List Prim → List Prim, ∀ ps, (order ps).Perm ps :=
  ⟨List.reverse, fun ps => List.reverse_perm ps⟩

/-- C17 is false as stated: after its only axiom is removed, A is still reported,
counted and visited. (The table does not own its keys, so the key may by then be a
dangling pointer.) -/
theorem C17_fails :
    ((Onto.empty.addAxiom ⟨1, declAx "A"⟩).removeAxiom ⟨1, declAx "A"⟩).map (fun r =>
      (r.1.axiomCount, r.1.hasPrimitive (clsPrim "A"), r.1.primitiveCount Masks.pfAll))
      = some (0#32, true, 1#32) := by
  decide +kernel

/-- C17: a class is reported because an annotation assertion mentions its IRI. -/
theorem C17_iri_fails :
    let o := Onto.empty.addAxiom ⟨1, noteAx "A"⟩
    o.hasPrimitive (clsPrim "A") = true ∧ o.hasKey (clsPrim "A") = false ∧
    times (clsPrim "A") (noteAx "A") = 0 := by
  decide +kernel

/-! ## C18 -/

/-- C18, exact: the imports are a list; adding appends, removing takes out the first
equal one. -/
theorem C18_list (o : Onto) (s : Abs) (h : Reaches o s) (x : Ref) :
    (o.hasImport x = true ↔ ∃ y ∈ s.imports, y.obj.equals x.obj = true) ∧
    o.importCount = BitVec.ofNat 32 s.imports.length ∧
    ((o.removeImport x).2 = true ↔ ∃ y ∈ s.imports, y.obj.equals x.obj = true) ∧
    ∀ (σ : Type) (k : σ → Ref → σ × Ret) (z : σ),
      Run k s.imports z (o.iterImports k z).1 (o.iterImports k z).2 := by
  have hi := reaches_inv h
  refine ⟨?_, ?_, ?_, fun σ k z => ?_⟩
  · rw [Onto.hasImport, hi.imports, List.any_eq_true]
  · rw [Onto.importCount, vecCount, hi.imports]
  · simp only [Onto.removeImport]
    rw [(vecPtrRemove_spec _ _).2, hi.imports, List.any_eq_true]
  · rw [Onto.iterImports, iterVec, hi.imports]
    exact iterList_run k _ z

/-- C18, proved part. If no IRI is added while it is imported, imports behave as a
set: an IRI is imported iff the last operation on it was an add, and the visited
imports are distinct. Missing: an IRI added twice (`C18_fails`). -/
theorem C18_partial (ops : List Op) (h : LegalRun Abs.empty ops) (h1 : OnceEach Abs.empty ops)
    (a : Nat) (p : Prim) : ∃ o, Onto.empty.run ops = some o ∧
      (o.hasImport ⟨a, .prim p⟩ = true ↔ lastIsAdd p false ops = true) ∧
      ∃ visited : List Ref, (visited.Pairwise fun x y => ¬ Same x.obj y.obj) ∧
        (∀ q, (∃ x ∈ visited, x.obj = .prim q) ↔ lastIsAdd q false ops = true) ∧
        o.importCount = BitVec.ofNat 32 visited.length ∧
        ∀ (σ : Type) (k : σ → Ref → σ × Ret) (z : σ),
          Run k visited z (o.iterImports k z).1 (o.iterImports k z).2 := by
  obtain ⟨o, h2, h3⟩ := C11_total ops h
  have key := fun q => imports_run q ops Abs.empty false ⟨by simp [Abs.empty], by simp [Abs.empty]⟩
    h1 (by simp [Abs.empty])
  obtain ⟨h4, h5, _, h6⟩ := C18_list o _ h3 ⟨a, .prim p⟩
  refine ⟨o, h2, ?_, _, (key p).1.2, fun q => (key q).2.symm, h5, h6⟩
  rw [h4, (key p).2]
  simp only [equals_prim]

example : OnceEach Abs.empty [.addImport ⟨1, .prim (.iri (sampleIri "a"))⟩,
    .removeImport ⟨2, .prim (.iri (sampleIri "a"))⟩, .addImport ⟨3, .prim (.iri (sampleIri "a"))⟩] := by
  refine ⟨⟨⟨_, rfl⟩, by simp [Abs.empty]⟩, ⟨_, rfl⟩, ⟨⟨_, rfl⟩, ?_⟩, trivial⟩
  simp [Abs.step, Abs.empty, Obj.equals, Obj.eqv]

/-- C18 is false as stated: an IRI imported twice counts twice, and is still there
after it has been removed once. -/
theorem C18_fails :
    let x : Ref := ⟨1, .prim (.iri (sampleIri "a"))⟩
    let o := (Onto.empty.addImport x).addImport x
    o.importCount = 2#32 ∧ (o.removeImport x).2 = true ∧ (o.removeImport x).1.hasImport x = true := by
  decide +kernel

/-! ## C19 -/

/-- C19. The annotations are visited in the order in which they were added; an added
annotation is visited last; removal returns true iff an equal annotation is held
and takes out the first such annotation only. -/
theorem C19_annotations (o : Onto) (s : Abs) (h : Reaches o s) (x : Ref) :
    (∀ (σ : Type) (k : σ → Ref → σ × Ret) (z : σ),
      Run k s.annots z (o.iterAnnot k z).1 (o.iterAnnot k z).2) ∧
    (WellFormed x.obj → Reaches (o.addAnnot x) { s with annots := s.annots ++ [x] }) ∧
    ((o.removeAnnot x).2 = true ↔ ∃ y ∈ s.annots, y.obj.equals x.obj = true) ∧
    ∃ s', Reaches (o.removeAnnot x).1 s' ∧ s'.axioms = s.axioms ∧ s'.imports = s.imports ∧
      ((∀ y ∈ s.annots, y.obj.equals x.obj = false) → s'.annots = s.annots) ∧
      (∀ l y r, s.annots = l ++ y :: r → (∀ z ∈ l, z.obj.equals x.obj = false) →
        y.obj.equals x.obj = true → s'.annots = l ++ r) := by
  have hi := reaches_inv h
  refine ⟨fun σ k z => ?_, fun hx => ?_, ?_, s.step (.removeAnnot x), ?_, rfl, rfl, ?_, ?_⟩
  · rw [Onto.iterAnnot, iterVec, hi.annot]
    exact iterList_run k _ z
  · exact reaches_step h (op := .addAnnot x) hx rfl
  · simp only [Onto.removeAnnot]
    rw [(vecPtrRemove_spec _ _).2, hi.annot, List.any_eq_true]
  · exact reaches_step h (op := .removeAnnot x) trivial rfl
  · intro hn
    exact List.eraseP_of_forall_not (fun y hy => by simp [hn y hy])
  · intro l y r he hl hy
    simp only [Abs.step]
    rw [he, List.eraseP_append_right _ (fun z hz => by simp [hl z hz]), List.eraseP_cons, hy]
    rfl

/-- An annotation to add and remove. -/
example : WellFormed (getImpl .annotation [.prim (.ent .annotProp (sampleIri "p")),
    .lit (ascii "v") (.dt xsdString)] none) := by
  simp [getImpl, WellFormed, WellFormedAll, nFields, OType.fieldCount, OType.flags]

/-! ## C21 -/

/-- C21, exact: for each held axiom, the related constructs found in it are visited
once per mention of the primitive. -/
theorem C21_related (o : Onto) (s : Abs) (h : Reaches o s) (p : Prim) (types : BitVec 64)
    (pos : BitVec 8) :
    ∃ visited : List Obj,
      visited.Perm (s.axioms.flatMap fun a =>
        (List.replicate (times p a.obj) (related p types pos a)).flatten) ∧
      ∀ (σ : Type) (k : σ → Obj → σ × Ret) (x : σ),
        Run k visited x (o.iterRelated p types pos k x).1 (o.iterRelated p types pos k x).2 := by
  have hi := reaches_inv h
  refine ⟨(ix o.idx p).flatMap (relatedIn p types pos), ?_, fun σ k x => ?_⟩
  rotate_left
  · rw [iterRelated_eq]
    exact iterList_run k _ x
  · refine ((hi.prim p).flatMap_right _).trans (List.Perm.of_eq ?_)
    rw [refsTo, List.flatMap_assoc]
    have : ∀ xs : List Ref, (∀ a ∈ xs, IsAxiom a.obj) →
        (xs.flatMap fun a => (List.replicate (times p a.obj) a).flatMap (relatedIn p types pos)) =
        xs.flatMap fun a => (List.replicate (times p a.obj) (related p types pos a)).flatten := by
      intro xs
      induction xs with
      | nil => intro _; rfl
      | cons a xs ih =>
        intro hx
        rw [List.flatMap_cons, List.flatMap_cons, ih fun b hb => hx b (List.mem_cons_of_mem _ hb),
          flatMap_replicate, relatedIn_eq (hx a (by simp))]
    exact this _ hi.axioms

theorem expands_occurs {op : Obj} {p : Prim} (h : OperandIs p op) : Occurs p op := by
  rw [operandIs_iff] at h
  cases op with
  | vec o xs => exact .item h (.self p)
  | prim q => cases h; exact .self _
  | str _ => cases h
  | lit _ _ => cases h
  | other _ _ => cases h
  | comp _ _ _ _ => cases h

theorem hasOperand_times {p : Prim} {a : Ref} (h : HasOperand p a) : 0 < times p a.obj := by
  obtain ⟨op, h1, h2⟩ := h
  rw [times_pos]
  cases hx : a.obj with
  | comp t b fs u =>
    rw [hx] at h1
    exact .field (List.mem_of_mem_take h1) (expands_occurs h2)
  | _ => rw [hx] at h1; simp [operands] at h1

/-- C21, as a set: exactly the operands at the position, other than the primitive,
of the held axioms of a selected type that have the primitive as an operand. -/
theorem C21_visited (o : Onto) (s : Abs) (h : Reaches o s) (p : Prim) (types : BitVec 64)
    (pos : BitVec 8) :
    ∃ visited : List Obj,
      (∀ x, x ∈ visited ↔ ∃ a ∈ s.axioms, TypeIn types a ∧ HasOperand p a ∧
        x ∈ operandsAt (operands a.obj) pos ∧ x ≠ .prim p) ∧
      ∀ (σ : Type) (k : σ → Obj → σ × Ret) (x : σ),
        Run k visited x (o.iterRelated p types pos k x).1 (o.iterRelated p types pos k x).2 := by
  obtain ⟨v, h1, h2⟩ := C21_related o s h p types pos
  refine ⟨v, fun x => ?_, h2⟩
  rw [h1.mem_iff, List.mem_flatMap]
  refine exists_congr fun a => and_congr_right fun _ => ?_
  simp only [List.mem_flatten, List.mem_replicate]
  constructor
  · rintro ⟨l, ⟨_, rfl⟩, hx⟩
    unfold related at hx
    split at hx
    · rename_i hc
      rw [List.mem_filter, decide_eq_true_eq, isPrim_iff] at hx
      exact ⟨hc.1, hc.2, hx.1, hx.2⟩
    · cases hx
  · rintro ⟨h3, h4, h5, h6⟩
    refine ⟨_, ⟨?_, rfl⟩, ?_⟩
    · have := hasOperand_times h4
      omega
    · rw [related, if_pos ⟨h3, h4⟩, List.mem_filter, decide_eq_true_eq, isPrim_iff]
      exact ⟨h5, h6⟩

/-- C21, proved part: once each. If no held axiom mentions the primitive more than
once, the related constructs of each axiom are visited once. Missing: axioms with
several mentions, whose operands are visited once per mention (`C21_fails`). -/
theorem C21_partial (o : Onto) (s : Abs) (h : Reaches o s) (p : Prim) (types : BitVec 64)
    (pos : BitVec 8) (h1 : ∀ a ∈ s.axioms, times p a.obj ≤ 1) :
    ∃ visited : List Obj, visited.Perm (s.axioms.flatMap (related p types pos)) ∧
      ∀ (σ : Type) (k : σ → Obj → σ × Ret) (x : σ),
        Run k visited x (o.iterRelated p types pos k x).1 (o.iterRelated p types pos k x).2 := by
  obtain ⟨v, h2, h3⟩ := C21_related o s h p types pos
  refine ⟨v, h2.trans (List.Perm.of_eq ?_), h3⟩
  have : ∀ xs : List Ref, (∀ a ∈ xs, times p a.obj ≤ 1) →
      (xs.flatMap fun a => (List.replicate (times p a.obj) (related p types pos a)).flatten) =
      xs.flatMap (related p types pos) := by
    intro xs
    induction xs with
    | nil => intro _; rfl
    | cons a xs ih =>
      intro hx
      rw [List.flatMap_cons, List.flatMap_cons, ih fun b hb => hx b (List.mem_cons_of_mem _ hb)]
      congr 1
      have ha := hx a (by simp)
      rcases Nat.lt_or_ge 0 (times p a.obj) with h4 | h4
      · have : times p a.obj = 1 := by omega
        simp [this]
      · have h5 : times p a.obj = 0 := by omega
        rw [h5]
        simp only [List.replicate_zero, List.flatten_nil]
        rw [related, if_neg]
        rintro ⟨_, h6⟩
        have := hasOperand_times h6
        omega
  exact this _ h1

/-- The content of a primitive. -/
def primOf : Obj → Option Prim
  | .prim p => some p
  | _ => none

/-- The superclasses of B among three axioms. -/
example : (related (clsPrim "B") 2#64 psRight ⟨1, subAx "B" "C"⟩).map primOf = [some (clsPrim "C")] ∧
    (related (clsPrim "B") 2#64 psRight ⟨1, subAx "A" "B"⟩).map primOf = [] ∧
    (related (clsPrim "B") 2#64 psRight ⟨1, declAx "B"⟩).map primOf = [] := by
  decide +kernel

/-- C21 is false if every construct is to be visited once: for
`EquivalentClasses(A ObjectIntersectionOf(A B))` the second operand is visited
twice. -/
theorem C21_fails :
    let a := getImpl .aEquivClasses [.vec false [sampleCls "A", sampleInter]] none
    ((Onto.empty.addAxiom ⟨1, a⟩).iterRelated (clsPrim "A") Masks.afAll psAny
      (fun (n : Nat) _ => (n + 1, .ok)) 0).1 = 2 ∧
    (related (clsPrim "A") Masks.afAll psAny ⟨1, a⟩).length = 1 := by
  decide +kernel

/-! ## C50 -/

/-- C50, proved part. If removals are called with the very object that is held, or
with one that equals nothing held, then at every point the ontology owns exactly
one reference per held axiom, annotation and import, and releases exactly these
when it is freed. Missing: removals through an equal but distinct object
(`C50_fails`). -/
theorem C50_partial (ops : List Op) (h : LegalRun Abs.empty ops) (hh : HonestRun Abs.empty ops) :
    ∃ o, Onto.empty.run ops = some o ∧
      (∀ n, o.refs n = ((Abs.empty.run ops).owned n : Int)) ∧ ∀ n, o.free n = 0 := by
  obtain ⟨o, h1, _⟩ := inv_run ops _ _ inv_empty h
  obtain ⟨h2, h3⟩ := owned_run ops _ _ inv_empty (by simp [Onto.empty, Abs.owned, Abs.empty]) h hh o h1
  refine ⟨o, h1, h3, fun n => ?_⟩
  rw [free_apply h2, h3]
  omega

example : HonestRun Abs.empty sampleOps := by
  refine ⟨trivial, trivial, trivial, trivial, .inl ?_, trivial, trivial, trivial⟩
  simp [Abs.step, Abs.empty]

/-- C50 is false as stated: removing an annotation through an equal copy drops the
held object without releasing it (a leak) and releases the copy instead, and
freeing the ontology does not restore the balance. -/
theorem C50_fails :
    let x := getImpl .annotation [.prim (.ent .annotProp (sampleIri "p")),
      .lit (ascii "v") (.dt xsdString)] none
    let r := (Onto.empty.addAnnot ⟨1, x⟩).removeAnnot ⟨2, x⟩
    r.2 = true ∧ r.1.refs 1 = 1 ∧ r.1.refs 2 = -1 ∧ r.1.free 1 = 1 ∧ r.1.free 2 = -1 := by
  decide +kernel

end Cowl
