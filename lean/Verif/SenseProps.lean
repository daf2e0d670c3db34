import Verif.SenseLemmas
import Verif.IterProps
import Verif.OntoProps
import Verif.PrtMeanProps
/-! # Properties: the primitives that the program finds settle what is said

The meaning of axioms is that of `SemSpec.lean`; what the program finds is that of `Iter.lean` and `Onto.lean`. -/
namespace Cowl
open Sem Ast IterSpec OntoSpec

theorem agrees_visited {I : Interp} {w : Reading I} {x : Obj} (h : ∀ p, Occurs p x → Selects 0xEF#8 p → w.Agrees p) :
    AgreesOn w x := by
  intro p hp
  cases p with
  | iri i => exact h _ hp (by show 0xEF#8 &&& 0x80#8 ≠ 0#8; decide)
  | anon s => exact h _ hp (by show 0xEF#8 &&& 0x40#8 ≠ 0#8; decide)
  | ent k i => cases k with
    | annotProp => trivial
    | cls => exact h _ hp (by show 0xEF#8 &&& 0x01#8 ≠ 0#8; decide)
    | datatype => exact h _ hp (by show 0xEF#8 &&& 0x02#8 ≠ 0#8; decide)
    | objProp => exact h _ hp (by show 0xEF#8 &&& 0x04#8 ≠ 0#8; decide)
    | dataProp => exact h _ hp (by show 0xEF#8 &&& 0x08#8 ≠ 0#8; decide)
    | namedInd => exact h _ hp (by show 0xEF#8 &&& 0x20#8 ≠ 0#8; decide)

/-- C115. Readings that agree about the primitives that `cowl_has_primitive` finds in an axiom agree about the axiom. -/
theorem C115_axiom (I : Interp) (w : Reading I) (a : Axiom) (h : ∀ p, hasPrimitive a.toObj p = true → w.Agrees p) :
    sat (I.read w) a.ax ↔ sat I a.ax :=
  iff_of_eq (sat_fields (on_fields fun p hp => h p ((C10_has_primitive _ (isAxiom_toObj a).1 p).2 hp)))

/-- C115, visits. `cowl_iterate_primitives`, asked for all kinds but annotation properties, runs over a list of primitives such that
readings that agree about these agree about the axiom. -/
theorem C115_visited (a : Axiom) :
    ∃ L : List Prim,
      (∀ (I : Interp) (w : Reading I), (∀ p ∈ L, w.Agrees p) → (sat (I.read w) a.ax ↔ sat I a.ax)) ∧
      ∀ (σ : Type) (k : σ → Prim → σ × Ret) (s : σ),
        Run k L s (iterPrims 0xEF#8 k a.toObj s).1 (iterPrims 0xEF#8 k a.toObj s).2 := by
  obtain ⟨L, h1, h2⟩ := C10_iterate_primitives a.toObj (isAxiom_toObj a).1 0xEF#8
  refine ⟨L, fun I w h => iff_of_eq (sat_fields (on_fields (agrees_visited fun p hp hs => h p ((h1 p).2 ⟨hp, hs⟩)))), h2⟩

/-- C115, ontologies. Readings that agree about the primitives that `cowl_ontology_has_primitive` finds agree about the ontology. -/
theorem C115_ontology (I : Interp) (w : Reading I) (o : Onto) (s : Abs) (hs : Reaches o s)
    (h : ∀ p, o.hasPrimitive p = true → w.Agrees p) :
    HoldsIn (I.read w) (s.axioms.map Ref.obj) ↔ HoldsIn I (s.axioms.map Ref.obj) := by
  have key : ∀ x ∈ s.axioms.map Ref.obj, ∀ a : Axiom, x = a.toObj → sat (I.read w) a.ax = sat I a.ax := by
    intro x hx a e
    obtain ⟨r, hr, rfl⟩ := List.mem_map.1 hx
    exact sat_fields (on_fields fun p hp => h p (C17_held o s hs p ⟨r, .inl hr, (times_pos p _).2 (by rw [e]; exact hp)⟩))
  exact ⟨fun k x hx a e => (key x hx a e) ▸ k x hx a e, fun k x hx a e => (key x hx a e).symm ▸ k x hx a e⟩

/-- C115, changes. Let an ontology hold, and read one primitive otherwise. The ontology still holds iff the axioms do that
`cowl_ontology_iterate_axioms_for_primitive` visits for this primitive: no others need be looked at. -/
theorem C115_changed (I : Interp) (w : Reading I) (o : Onto) (s : Abs) (hs : Reaches o s) (p : Prim)
    (h : ∀ q, q ≠ p → w.Agrees q) (hI : HoldsIn I (s.axioms.map Ref.obj)) :
    ∃ visited : List Ref,
      (HoldsIn (I.read w) (s.axioms.map Ref.obj) ↔ HoldsIn (I.read w) (visited.map Ref.obj)) ∧
      ∀ (σ : Type) (k : σ → Ref → σ × Ret) (x : σ),
        Run k visited x (o.iterAxiomsForPrimitive p k x).1 (o.iterAxiomsForPrimitive p k x).2 := by
  obtain ⟨v, hv, -, hrun⟩ := C13_mentions o s hs p
  have mem : ∀ r, r ∈ v ↔ r ∈ s.axioms ∧ 0 < mentions p r.obj := by
    intro r
    rw [hv.mem_iff, List.mem_flatMap]
    constructor
    · rintro ⟨a, ha, hr⟩
      obtain ⟨h1, rfl⟩ := List.mem_replicate.1 hr
      exact ⟨ha, Nat.pos_of_ne_zero h1⟩
    · exact fun ⟨ha, h1⟩ => ⟨r, ha, List.mem_replicate.2 ⟨Nat.ne_of_gt h1, rfl⟩⟩
  refine ⟨v, ⟨fun k x hx a e => ?_, fun k x hx a e => ?_⟩, hrun⟩
  · obtain ⟨r, hr, rfl⟩ := List.mem_map.1 hx
    exact k _ (List.mem_map_of_mem ((mem r).1 hr).1) a e
  · obtain ⟨r, hr, rfl⟩ := List.mem_map.1 hx
    by_cases hm : 0 < mentions p r.obj
    · exact k _ (List.mem_map_of_mem ((mem r).2 ⟨hr, hm⟩)) a e
    · have : sat (I.read w) a.ax = sat I a.ax := by
        refine sat_fields (on_fields fun q hq => h q fun eq => hm ?_)
        exact (C13_mentions_occurs p _).2 (.inl (by rw [e, ← eq]; exact hq))
      rw [this]
      exact hI _ hx a e

/-! ### Examples -/

/-- One thing, in every class. -/
def fullWorld : Interp where
  Thing := Unit
  Value := Unit
  cls _ _ := True
  objProp _ _ _ := True
  dataProp _ _ _ := True
  datatype _ _ := True
  named _ := ()
  anon _ := ()
  lit _ _ := ()
  facet _ _ _ := True
  isNamed _ := True

/-- The class `i` is read as empty, the rest as before. -/
def without (i : Iri) : Reading fullWorld where
  cls j _ := j ≠ i
  objProp _ _ _ := True
  dataProp _ _ _ := True
  datatype _ _ := True
  named _ := ()
  anon _ := ()
  lit _ _ := ()
  facet _ _ _ := True

theorem without_agrees (i : Iri) (q : Prim) (h : q ≠ .ent .cls i) : (without i).Agrees q := by
  cases q with
  | ent k j => cases k with
    | cls => exact funext fun _ => eq_true fun e => h (by rw [e])
    | datatype => exact ⟨rfl, fun _ _ _ => rfl⟩
    | annotProp => trivial
    | _ => rfl
  | _ => rfl

/-- `SubClassOf(ObjectSomeValuesFrom(p owl:Thing) A)`. -/
def fillerAxiom : Axiom := ⟨.subClass (.objSome (.prop (sampleIri "p")) (.cls owlThing)) (.cls (sampleIri "A")), []⟩

/-- The hypothesis of `C115_axiom` is met by a reading that differs from the interpretation. -/
example : (∀ p, hasPrimitive fillerAxiom.toObj p = true → (without (sampleIri "B")).Agrees p) ∧
    ¬ (without (sampleIri "B")).Agrees (clsPrim "B") := by
  refine ⟨fun p hp => without_agrees _ p fun e => ?_, fun h => ?_⟩
  · subst e
    exact absurd hp (by decide +kernel)
  · have := congrFun h ()
    exact absurd (this.symm ▸ trivial : (without (sampleIri "B")).cls (sampleIri "B") ()) (fun k => k rfl)

/-- The filler `owl:Thing`, which the object does not keep, is found nevertheless, and the meaning depends on it: another reading of
`owl:Thing` changes whether the axiom holds. -/
example : hasPrimitive fillerAxiom.toObj (.ent .cls owlThing) = true ∧
    ¬ sat (fullWorld.read (without (sampleIri "A"))) fillerAxiom.ax ∧
    sat (fullWorld.read { without (sampleIri "A") with cls := fun j _ => j ≠ sampleIri "A" ∧ j ≠ owlThing }) fillerAxiom.ax := by
  refine ⟨by decide +kernel, fun h => ?_, fun x hx => ?_⟩
  · have h' : ∀ x : Unit, (∃ y : Unit, True ∧ owlThing ≠ sampleIri "A") → sampleIri "A" ≠ sampleIri "A" := h
    exact h' () ⟨(), trivial, by decide +kernel⟩ rfl
  · obtain ⟨y, -, -, h⟩ := (show ∃ y : Unit, True ∧ (owlThing ≠ sampleIri "A" ∧ owlThing ≠ owlThing) from hx)
    exact absurd rfl h

/-- A history that adds two axioms. -/
def chainOps : List Op := [.addAxiom ⟨1, subAx "A" "B"⟩, .addAxiom ⟨3, subAx "B" "C"⟩]

/-- The hypotheses of `C115_ontology` and of `C115_changed` are met by an ontology with two axioms. -/
example : ∃ (o : Onto) (s : Abs), Reaches o s ∧ s.axioms = [⟨1, subAx "A" "B"⟩, ⟨3, subAx "B" "C"⟩] ∧
    HoldsIn fullWorld (s.axioms.map Ref.obj) ∧ (∀ q, q ≠ clsPrim "A" → (without (sampleIri "A")).Agrees q) ∧
    ∀ p, o.hasPrimitive p = true → (without (sampleIri "D")).Agrees p := by
  obtain ⟨o, h1, h2⟩ := C11_total chainOps ⟨⟨subAx_isAxiom .., by simp [Fits, Abs.empty]⟩,
    ⟨subAx_isAxiom .., by simp [Fits, Abs.step, Abs.empty]⟩, trivial⟩
  have hx : (Abs.empty.run chainOps).axioms = [⟨1, subAx "A" "B"⟩, ⟨3, subAx "B" "C"⟩] := rfl
  refine ⟨o, _, h2, hx, ?_, without_agrees _, fun p hp => without_agrees _ p fun e => ?_⟩
  · rw [hx]
    refine (holds_map (as := [⟨.subClass (.cls (sampleIri "A")) (.cls (sampleIri "B")), []⟩,
      ⟨.subClass (.cls (sampleIri "B")) (.cls (sampleIri "C")), []⟩]) fun x => ?_).2 ?_
    · simp [Axiom.toObj, annotated, Annot.toObjs, Ax.fields, CE.toObj, ent, Ax.type, subAx, getImpl, sampleCls]
    · intro a ha
      rcases List.mem_cons.1 ha with rfl | ha
      · exact fun _ _ => trivial
      · rw [List.mem_singleton.1 ha]; exact fun _ _ => trivial
  · have : (Onto.empty.run chainOps).map (fun o => o.hasPrimitive (clsPrim "D")) = some false := by decide +kernel
    rw [h1] at this
    rw [e] at hp
    exact absurd (hp.symm.trans (Option.some.inj this)) (by decide)

end Cowl
