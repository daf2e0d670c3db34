import Verif.OntoOomLemmas
import Verif.OntoProps
/-! # C73: additions to an ontology when memory runs out -/
namespace Cowl
open ObjSpec IterSpec OntoSpec OntoOom

/-- C73. An addition that returns OK has done exactly what it does with enough
memory, whatever happened to its allocations. -/
theorem C73_ok (os : List Out) (o o' : Onto) (x : Add) (h : x.run os o = some (o', .ok)) :
    o.step x.op = some o' := by
  rcases run_spec os o x with ⟨o2, e, h'⟩ | ⟨o2, e, _⟩ | ⟨e, _⟩ <;> rw [h] at e <;> cases e
  exact h'

/-- C73. With enough memory an addition returns OK. -/
theorem C73_enough (os : List Out) (o : Onto) (x : Add) (h : ∀ y ∈ os, y = .ok) :
    ∃ o', x.run os o = some (o', .ok) ∧ o.step x.op = some o' := by
  rcases run_spec os o x with h' | ⟨o2, _, _, h1 | h1⟩ | ⟨_, h1⟩
  · exact h'
  all_goals exact absurd (h _ h1) (by simp)

/-- C73. If the vector objects can be allocated, nothing is undefined. -/
theorem C73_defined (os : List Out) (o : Onto) (x : Add) (h : .vec ∉ os) :
    ∃ o' r, x.run os o = some (o', r) := by
  rcases run_spec os o x with ⟨o2, e, _⟩ | ⟨o2, e, _⟩ | ⟨_, h1⟩
  · exact ⟨_, _, e⟩
  · exact ⟨_, _, e⟩
  · exact absurd h1 h

/-- C73, in part. An addition that does not return OK reports lack of memory. It
leaves all axioms, annotations and imports with their counts as they were. For
each primitive the index lists what it listed, followed by the object at most as
often as the object mentions the primitive; it loses no primitive and gains only
mentioned ones. The balance of references is unchanged, unless a vector could not
grow. Missing: the index and the balance are not always what they were
(`C73_fails_index`, `C73_fails_release`), and the call may be undefined
(`C73_fails`). -/
theorem C73_partial (os : List Out) (o o' : Onto) (x : Add) (r : Ret)
    (hx : WellFormed x.obj.obj) (h : x.run os o = some (o', r)) (hr : r ≠ .ok) :
    r = .errMem ∧ Same o o' ∧
    (∀ p, ∃ n, n ≤ times p x.obj.obj ∧ listed o' p = listed o p ++ List.replicate n x.obj) ∧
    (∀ p, o.hasKey p = true → o'.hasKey p = true) ∧
    (∀ p, o'.hasKey p = true → o.hasKey p = true ∨ 0 < times p x.obj.obj) ∧
    (.push ∉ os → o'.refs = o.refs) ∧
    (∀ n, n ≠ x.obj.addr → o'.refs n = o.refs n) := by
  rcases run_spec os o x with ⟨o2, e, _⟩ | ⟨o2, e, hl, _⟩ | ⟨e, _⟩ <;> rw [h] at e <;> cases e
  · exact absurd rfl hr
  refine ⟨rfl, hl.alike.same, fun p => ?_, fun p => ?_, fun p => ?_, fun hp => ?_, fun n hn => ?_⟩
  · obtain ⟨n, h1, h2⟩ := hl.listed p
    exact ⟨n, by rwa [count_occ p _ hx] at h1, h2⟩
  · unfold Onto.hasKey
    rw [lookup_isSome_iff, lookup_isSome_iff]
    exact hl.keys p
  · unfold Onto.hasKey
    rw [lookup_isSome_iff, lookup_isSome_iff, ← count_occ p _ hx, List.count_pos_iff]
    exact hl.new p
  · exact hl.refs.resolve_right fun h => hp h.2
  · rcases hl.refs with h | ⟨h, _⟩ <;> rw [h]
    simp [bump, hn]

/-- C73. A failed addition of an import changes no index and no reference; nor
does a failed addition of an axiom while indexing is disabled. -/
theorem C73_quiet (os : List Out) (o o' : Onto) (x : Add) (r : Ret)
    (hx : (o.disabled = true ∧ ∃ y, x = .ax y) ∨ ∃ y, x = .imp y)
    (h : x.run os o = some (o', r)) (hr : r ≠ .ok) : o'.idx = o.idx ∧ o'.refs = o.refs := by
  rcases run_spec os o x with ⟨o2, e, _⟩ | ⟨o2, e, hl, _⟩ | ⟨e, _⟩ <;> rw [h] at e <;> cases e
  · exact absurd rfl hr
  · exact hl.quiet hx

/-- C73. A failed addition of an annotation lists no further axiom under any
primitive and changes no reference. -/
theorem C73_annot (os : List Out) (o o' : Onto) (x : Ref) (r : Ret)
    (h : OntoOom.addAnnot os o x = some (o', r)) (hr : r ≠ .ok) :
    (∀ p, listed o' p = listed o p) ∧ o'.refs = o.refs := by
  rcases run_spec os o (.annot x) with ⟨o2, e, _⟩ | ⟨o2, e, hl, _⟩ | ⟨e, _⟩ <;>
    rw [show (Add.annot x).run os o = OntoOom.addAnnot os o x from rfl, h] at e <;> cases e
  · exact absurd rfl hr
  · exact hl.annot ⟨x, rfl⟩

/-- C73. After any additions, some of which failed, the ontology holds what it
would hold had the failed calls not been made: that other ontology exists, it
answers every question about axioms, annotations and imports by type in the same
way, and the index lists for each primitive all it lists there, in that order. -/
theorem C73_history (o : Onto) (ops : List Op) (h : Grows o ops) :
    ∃ o2, Reaches o2 (Abs.empty.run ops) ∧ Onto.empty.run ops = some o2 ∧ Same o2 o ∧
      (∀ p, (listed o2 p).Sublist (listed o p)) ∧ (∀ p, o2.hasKey p = true → o.hasKey p = true) := by
  suffices hs : ∃ o2, LegalRun Abs.empty ops ∧ Onto.empty.run ops = some o2 ∧ Alike o2 o ∧
      o.disabled = false ∧ (∀ p, (ix o2.idx p).Sublist (ix o.idx p)) ∧
      (∀ p, p ∈ o2.idx.map Prod.fst → p ∈ o.idx.map Prod.fst) by
    obtain ⟨o2, h1, h2, h3, _, h4, h5⟩ := hs
    refine ⟨o2, ⟨ops, h1, h2, rfl⟩, h2, h3.same, h4, fun p => ?_⟩
    unfold Onto.hasKey
    rw [lookup_isSome_iff, lookup_isSome_iff]
    exact h5 p
  induction h with
  | @start o ops h e =>
    exact ⟨o, h, e, Alike.refl o, (reaches_inv ⟨ops, h, e, rfl⟩).enabled, fun _ => List.Sublist.refl _,
      fun _ h => h⟩
  | @failed o o' ops os x r _ hl e hr ih =>
    obtain ⟨o2, h1, h2, h3, h4, h5, h6⟩ := ih
    rcases run_spec os o x with ⟨o3, e', _⟩ | ⟨o3, e', hl', _⟩ | ⟨e', _⟩ <;> rw [e] at e' <;> cases e'
    · exact absurd rfl hr
    refine ⟨o2, h1, h2, h3.trans hl'.alike, hl'.disabled.trans h4, fun p => ?_,
      fun p h => hl'.keys p (h6 p h)⟩
    obtain ⟨n, _, hn⟩ := hl'.listed p
    rw [hn]
    exact (h5 p).trans (List.sublist_append_left ..)
  | @ok o o' ops os x _ hl e ih =>
    obtain ⟨o2, h1, h2, h3, h4, h5, h6⟩ := ih
    have h4' := (reaches_inv ⟨ops, h1, h2, rfl⟩).enabled
    have hstep := C73_ok os o o' x e
    have hrun : ∀ o3, o2.step x.op = some o3 → Onto.empty.run (ops ++ [x.op]) = some o3 := by
      intro o3 h3
      have : ∀ (ops : List Op) (o : Onto), o.run ops = some o2 → o.run (ops ++ [x.op]) = some o3 := by
        intro ops
        induction ops with
        | nil => intro o h; cases h; simp [Onto.run, h3]
        | cons op ops ih =>
          intro o h
          rw [Onto.run] at h
          obtain ⟨o', e1, e2⟩ := Option.bind_eq_some_iff.1 h
          rw [List.cons_append, Onto.run, e1]
          exact ih o' e2
      exact this ops _ h2
    have hlegal := legalRun_append ops _ x.op h1 hl
    cases x with
    | imp x =>
      cases hstep
      refine ⟨o2.addImport x, hlegal, hrun _ rfl, ⟨h3.type, h3.annot, ?_⟩, h4, h5, h6⟩
      simp only [Onto.addImport, vecPtrAdd, Option.getD_some, h3.imports]
    | annot x =>
      cases hstep
      have hi : ∀ o : Onto, (o.addAnnot x).idx = (occ x.obj).foldl putKey o.idx :=
        fun o => iterPrims_fold _ _ _
      refine ⟨o2.addAnnot x, hlegal, hrun _ rfl, ⟨h3.type, ?_, h3.imports⟩, h4, fun p => ?_, fun p => ?_⟩
      · simp only [Onto.addAnnot, vecPtrAdd, Option.getD_some, h3.annot]
      · rw [hi, hi, (putKeys_spec _ _).1, (putKeys_spec _ _).1]; exact h5 p
      · rw [hi, hi, (putKeys_spec _ _).2.1, (putKeys_spec _ _).2.1]
        exact Or.imp_left (h6 p)
    | ax a =>
      cases hstep
      have hi : ∀ o : Onto, o.disabled = false →
          (o.addAxiom a).idx = (occ a.obj).foldl (putAxiom a) o.idx := fun o hd => by
        simp only [Onto.addAxiom, hd]
        exact iterPrims_fold _ _ _
      refine ⟨o2.addAxiom a, hlegal, hrun _ rfl, ⟨fun t => ?_, h3.annot, h3.imports⟩, h4, fun p => ?_,
        fun p => ?_⟩
      · simp only [Onto.addAxiom, Onto.tindex, setType]
        by_cases ht : t = axType a.obj
        · rw [if_pos ht, if_pos ht]
          have := h3.type (axType a.obj)
          simp only [Onto.tindex] at this
          simp only [vecPtrAdd, Option.getD_some, this]
        · rw [if_neg ht, if_neg ht]; exact h3.type t
      · rw [hi _ h4, hi _ h4', ix_putAll, ix_putAll]
        exact (h5 p).append (List.Sublist.refl _)
      · rw [hi _ h4, hi _ h4', keys_putAll, keys_putAll]
        exact Or.imp_left (h6 p)

/-- An ontology with `SubClassOf(A B)` at address 1. -/
def oomOnto : Onto := Onto.empty.addAxiom ⟨1, subAx "A" "B"⟩

/-- What can be seen of an attempt to add `SubClassOf(B C)` at address 2: the
return code, the number of axioms, what is listed for `B`, whether `C` is there,
and the balance of the axiom. -/
def oomTry (os : List Out) : Option (Ret × BitVec 32 × List Nat × Bool × Int) :=
  (OntoOom.addAxiom os oomOnto ⟨2, subAx "B" "C"⟩).map fun r =>
    (r.2, r.1.axiomCount, (listed r.1 (clsPrim "B")).map Ref.addr, r.1.hasPrimitive (clsPrim "C"),
      r.1.refs 2)

/-- The hypotheses of `C73_ok`, `C73_enough`, `C73_defined` and `C73_partial` are
met by calls that succeed, and by calls that fail early, late, and at the end. -/
example : oomTry [.ok, .ok, .ok] = some (.ok, 2#32, [1, 2], true, 1) ∧
    oomTry [.vec, .ok, .vec] = some (.ok, 2#32, [1, 2], true, 1) ∧
    oomTry [.put] = some (.errMem, 1#32, [1], false, 0) ∧
    oomTry [.ok, .put] = some (.errMem, 1#32, [1, 2], false, 0) ∧
    WellFormed (subAx "B" "C") :=
  ⟨by decide +kernel, by decide +kernel, by decide +kernel, by decide +kernel,
    (subAx_isAxiom "B" "C").1⟩

/-- The hypotheses of `C73_quiet` and `C73_annot`. -/
example :
    (OntoOom.addImport [.push] oomOnto ⟨5, .prim (.iri (sampleIri "o"))⟩).map (·.2) = some .errMem ∧
    (OntoOom.addAxiom [.push] { oomOnto with disabled := true } ⟨2, subAx "B" "C"⟩).map (·.2)
      = some .errMem ∧
    (OntoOom.addAnnot [.put] oomOnto ⟨6, sampleCls "D"⟩).map (·.2) = some .errMem := by
  decide +kernel

/-- A history for `C73_history`: one axiom, a failed addition, and a second try. -/
example : ∃ o, Grows o [.addAxiom ⟨1, subAx "A" "B"⟩, .addAxiom ⟨2, subAx "B" "C"⟩] ∧
    o.axiomCount = 2#32 ∧ (listed o (clsPrim "B")).map Ref.addr = [1, 2, 2] := by
  have h1 : Grows oomOnto [.addAxiom ⟨1, subAx "A" "B"⟩] :=
    .start ⟨⟨subAx_isAxiom .., by simp [Fits, Abs.empty]⟩, trivial⟩ rfl
  have hl : Legal (Abs.empty.run [.addAxiom ⟨1, subAx "A" "B"⟩])
      (Add.ax ⟨2, subAx "B" "C"⟩).op :=
    ⟨subAx_isAxiom .., by simp [Fits, Abs.run, Abs.step, Abs.empty]⟩
  obtain ⟨o1, r1, e1⟩ := C73_defined [.ok, .put] oomOnto (.ax ⟨2, subAx "B" "C"⟩) (by simp)
  have k1 : ((Add.ax ⟨2, subAx "B" "C"⟩).run [.ok, .put] oomOnto).map (·.2) = some .errMem := by
    decide +kernel
  rw [e1] at k1
  obtain ⟨o2, e2, _⟩ := C73_enough [] o1 (.ax ⟨2, subAx "B" "C"⟩) (by simp)
  refine ⟨o2, .ok (.failed h1 hl e1 (by cases k1; simp)) hl e2, ?_⟩
  have k2 : (((Add.ax ⟨2, subAx "B" "C"⟩).run [.ok, .put] oomOnto).bind fun r =>
      (Add.ax ⟨2, subAx "B" "C"⟩).run [] r.1).map
        (fun r => (r.1.axiomCount, (listed r.1 (clsPrim "B")).map Ref.addr))
      = some (2#32, [1, 2, 2]) := by decide +kernel
  rw [e1, Option.bind_some, e2] at k2
  exact Prod.mk.inj (Option.some.inj k2)

/-- C73 fails: when the vector for a new primitive cannot be allocated, a bit of
the null pointer is set. -/
theorem C73_fails : oomTry [.ok, .vec] = none := by decide +kernel

/-- C73 fails: when the vector of a primitive cannot grow, the call reports lack of
memory, and has released a reference to the axiom that nobody retained for it. -/
theorem C73_fails_release :
    oomTry [.push] = some (.errMem, 1#32, [1], false, -1) := by decide +kernel

/-- C73 fails: after a failed addition the index lists an axiom that the ontology
does not hold (no reference is kept to it, so it dangles once the caller lets go),
and the primitives not held by anything else. -/
theorem C73_fails_index :
    oomTry [.ok, .ok, .push] = some (.errMem, 1#32, [1, 2], true, 0) := by decide +kernel

end Cowl
