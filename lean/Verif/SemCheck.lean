import Verif.SemSpec
/-!
# Check of the specification: the shortcuts of the standard

The structural specification of OWL 2 (https://www.w3.org/TR/owl2-syntax, sections 7 to 9) says of many constructs that they are
shortcuts for others. The meaning of `SemSpec.lean` must agree with this. Nothing here is about the program.
-/
namespace Cowl.Sem
open Ast

/-- What the standard asks of `owl:Thing` and `rdfs:Literal`. -/
structure Interp.Usual (I : Interp) : Prop where
  thing : ∀ x, I.cls owlThing x
  literal : ∀ v, I.datatype rdfsLiteral v

/-- There is such an interpretation, with a property that is not trivial. -/
example : ∃ I : Interp, I.Usual ∧ ∃ p x y, I.objProp p x y ∧ ¬ I.objProp p y x :=
  ⟨⟨Bool, Nat, fun _ _ => True, fun _ x y => x = true ∧ y = false, fun _ _ _ => False, fun _ _ => True, fun _ => true, fun _ => true,
    fun _ _ => 0, fun _ _ _ => True, fun _ => True⟩, ⟨fun _ => trivial, fun _ => trivial⟩, owlThing, true, false, ⟨rfl, rfl⟩, by decide⟩

variable {I : Interp}

theorem atLeast_one {α : Type} {p : α → Prop} : AtLeast 1 p ↔ ∃ x, p x := by
  constructor
  · rintro ⟨l, -, h2, h3⟩
    match l, h2 with
    | [x], _ => exact ⟨x, h3 x (List.mem_singleton.2 rfl)⟩
  · rintro ⟨x, h⟩
    exact ⟨[x], by simp, rfl, fun y hy => by cases List.mem_singleton.1 hy; exact h⟩

theorem atLeast_two {α : Type} {p : α → Prop} : AtLeast 2 p ↔ ∃ x y, p x ∧ p y ∧ x ≠ y := by
  constructor
  · rintro ⟨l, h1, h2, h3⟩
    match l, h2 with
    | [x, y], _ =>
      exact ⟨x, y, h3 x (by simp), h3 y (by simp), fun e => by simp [e] at h1⟩
  · rintro ⟨x, y, hx, hy, h⟩
    refine ⟨[x, y], by simp [h], rfl, fun z hz => ?_⟩
    rcases List.mem_cons.1 hz with rfl | hz
    · exact hx
    · cases List.mem_singleton.1 hz; exact hy

theorem atLeast_le {α : Type} {p : α → Prop} {m n : Nat} (h : m ≤ n) (k : AtLeast n p) : AtLeast m p := by
  obtain ⟨l, h1, h2, h3⟩ := k
  exact ⟨l.take m, h1.sublist (List.take_sublist m l), by simp; omega, fun x hx => h3 x (List.mem_of_mem_take hx)⟩

/-! ## Class expressions (8.2 to 8.5) -/

theorem objSome_min (p : Ope) (c : CE) (x : I.Thing) : ce I (.objSome p c) x ↔ ce I (.objCardQ .min 1 p c) x := by
  simp only [ce, Card]; exact atLeast_one.symm

theorem objAll_max (p : Ope) (c : CE) (x : I.Thing) : ce I (.objAll p c) x ↔ ce I (.objCardQ .max 0 p (.compl c)) x := by
  simp only [ce, Card]
  refine Iff.trans ?_ (not_congr atLeast_one).symm
  exact ⟨fun h ⟨y, h1, h2⟩ => h2 (h y h1), fun h y h1 => Classical.byContradiction fun h2 => h ⟨y, h1, h2⟩⟩

theorem objHasValue_some (p : Ope) (i : Ind) (x : I.Thing) :
    ce I (.objHasValue p i) x ↔ ce I (.objSome p (.oneOf [i])) x := by
  simp [ce]

theorem objExact_both (n : UInt32) (p : Ope) (c : CE) (x : I.Thing) :
    ce I (.objCardQ .exact n p c) x ↔ ce I (.inter [.objCardQ .min n p c, .objCardQ .max n p c]) x := by
  simp [ce, ces, Card]

/-- Restrictions without a class are about `owl:Thing`. -/
theorem objCard_thing (hI : I.Usual) (k : CardKind) (n : UInt32) (p : Ope) (x : I.Thing) :
    ce I (.objCard k n p) x ↔ ce I (.objCardQ k n p (.cls owlThing)) x := by
  simp only [ce, hI.thing, and_true]

/-- At least as many are at least fewer, and at most as many are at most more. -/
theorem objCard_le {m n : UInt32} (h : m.toNat ≤ n.toNat) (p : Ope) (c : CE) (x : I.Thing) :
    (ce I (.objCardQ .min n p c) x → ce I (.objCardQ .min m p c) x) ∧ (ce I (.objCardQ .max m p c) x → ce I (.objCardQ .max n p c) x) := by
  simp only [ce, Card]
  exact ⟨atLeast_le h, fun k j => k (atLeast_le (by omega) j)⟩

theorem dataSome_min (p : Iri) (d : DR) (x : I.Thing) : ce I (.dataSome p d) x ↔ ce I (.dataCardQ .min 1 p d) x := by
  simp only [ce, Card]; exact atLeast_one.symm

theorem dataAll_max (p : Iri) (d : DR) (x : I.Thing) : ce I (.dataAll p d) x ↔ ce I (.dataCardQ .max 0 p (.compl d)) x := by
  simp only [ce, Card, dr]
  refine Iff.trans ?_ (not_congr atLeast_one).symm
  exact ⟨fun h ⟨y, h1, h2⟩ => h2 (h y h1), fun h y h1 => Classical.byContradiction fun h2 => h ⟨y, h1, h2⟩⟩

theorem dataHasValue_some (p : Iri) (l : Lit) (x : I.Thing) :
    ce I (.dataHasValue p l) x ↔ ce I (.dataSome p (.oneOf [l])) x := by
  simp [ce, dr]

theorem dataExact_both (n : UInt32) (p : Iri) (d : DR) (x : I.Thing) :
    ce I (.dataCardQ .exact n p d) x ↔ ce I (.inter [.dataCardQ .min n p d, .dataCardQ .max n p d]) x := by
  simp [ce, ces, Card]

/-- Restrictions without a data range are about `rdfs:Literal`. -/
theorem dataCard_literal (hI : I.Usual) (k : CardKind) (n : UInt32) (p : Iri) (x : I.Thing) :
    ce I (.dataCard k n p) x ↔ ce I (.dataCardQ k n p (.dt rdfsLiteral)) x := by
  simp only [ce, dr, hI.literal, and_true]

/-! ## Connectives (7.1 to 7.4, 8.1) -/

theorem compl_compl (c : CE) (x : I.Thing) : ce I (.compl (.compl c)) x ↔ ce I c x := by
  simp only [ce, Classical.not_not]

theorem compl_union (c d : CE) (x : I.Thing) : ce I (.compl (.union [c, d])) x ↔ ce I (.inter [.compl c, .compl d]) x := by
  simp [ce, ces]

theorem oneOf_union (i j : Ind) (x : I.Thing) : ce I (.oneOf [i, j]) x ↔ ce I (.union [.oneOf [i], .oneOf [j]]) x := by
  simp [ce, ces]

theorem dr_compl_inter (c d : DR) (v : I.Value) : dr I (.compl (.inter [c, d])) v ↔ dr I (.union [.compl c, .compl d]) v := by
  simp only [dr, drs, List.mem_cons, List.not_mem_nil, or_false, forall_eq_or_imp, forall_eq, exists_eq_or_imp, exists_eq_left]
  exact Classical.not_and_iff_not_or_not

theorem dr_oneOf_union (l m : Lit) (v : I.Value) : dr I (.oneOf [l, m]) v ↔ dr I (.union [.oneOf [l], .oneOf [m]]) v := by
  simp [dr, drs]

/-- A restriction without facets is the datatype; with more facets there are fewer values. -/
theorem dr_restr (i : Iri) (f : Iri × Lit) (fs : List (Iri × Lit)) (v : I.Value) :
    (dr I (.restr i []) v ↔ dr I (.dt i) v) ∧ (dr I (.restr i (f :: fs)) v ↔ dr I (.inter [.restr i [f], .restr i fs]) v) := by
  constructor
  · simp [dr]
  · simp only [dr, drs, List.map_cons, List.map_nil, List.mem_cons, List.not_mem_nil, or_false, forall_eq_or_imp, forall_eq]
    exact ⟨fun ⟨a, b, c⟩ => ⟨⟨a, b⟩, a, c⟩, fun ⟨⟨a, b⟩, _, c⟩ => ⟨a, b, c⟩⟩

/-! ## Axioms about classes (9.1) -/

theorem equiv_subs (c d : CE) : sat I (.equivClasses [c, d]) ↔ sat I (.subClass c d) ∧ sat I (.subClass d c) := by
  simp only [sat, ces, List.pairwise_cons, List.mem_singleton, forall_eq, List.not_mem_nil, false_implies, implies_true, List.Pairwise.nil,
    and_true]
  exact ⟨fun e => by rw [e]; exact ⟨fun _ h => h, fun _ h => h⟩, fun h => funext fun x => propext ⟨h.1 x, h.2 x⟩⟩

theorem disj_compl (c d : CE) : sat I (.disjClasses [c, d]) ↔ sat I (.subClass c (.compl d)) := by
  simp [sat, ces, ce, Disj]

theorem disjUnion_both (i : Iri) (cs : List CE) :
    sat I (.disjUnion i cs) ↔ sat I (.equivClasses [.cls i, .union cs]) ∧ sat I (.disjClasses cs) := by
  rw [equiv_subs]
  simp only [sat, ce]
  exact and_congr_left fun _ => ⟨fun h => ⟨fun x => (h x).1, fun x => (h x).2⟩, fun h x => ⟨h.1 x, h.2 x⟩⟩

/-! ## Axioms about properties (9.2, 9.3) -/

theorem equivObj_subs (p q : Ope) : sat I (.equivObjProp [p, q]) ↔ sat I (.subObjProp (.ope p) q) ∧ sat I (.subObjProp (.ope q) p) := by
  simp only [sat, subOpe, List.map_cons, List.map_nil, List.pairwise_cons, List.mem_singleton, forall_eq, List.not_mem_nil, false_implies,
    implies_true, List.Pairwise.nil, and_true]
  exact ⟨fun e => by rw [e]; exact ⟨fun _ _ h => h, fun _ _ h => h⟩,
    fun h => funext fun x => funext fun y => propext ⟨h.1 x y, h.2 x y⟩⟩

theorem inverse_equiv (p : Ope) (i : Iri) : sat I (.invObjProp p (.prop i)) ↔ sat I (.equivObjProp [p, .inv i]) := by
  rw [equivObj_subs]
  simp only [sat, subOpe, ope]
  exact ⟨fun h => ⟨fun x y => (h x y).1, fun x y => (h x y).2⟩, fun h x y => ⟨h.1 x y, h.2 x y⟩⟩

/-- The inverse of the inverse is the property. -/
theorem inverse_inverse (i : Iri) : sat I (.invObjProp (.prop i) (.inv i)) := fun _ _ => Iff.rfl

/-- A chain of one property is the property. -/
theorem chain_one (p q : Ope) : sat I (.subObjProp (.chain [p]) q) ↔ sat I (.subObjProp (.ope p) q) := by
  simp [sat, subOpe, chain]

theorem domain_some (hI : I.Usual) (p : Ope) (c : CE) :
    sat I (.objPropDomain p c) ↔ sat I (.subClass (.objSome p (.cls owlThing)) c) := by
  simp only [sat, ce, hI.thing, and_true]
  exact ⟨fun h x ⟨y, k⟩ => h x y k, fun h x y k => h x ⟨y, k⟩⟩

theorem range_all (hI : I.Usual) (p : Ope) (c : CE) :
    sat I (.objPropRange p c) ↔ sat I (.subClass (.cls owlThing) (.objAll p c)) := by
  simp only [sat, ce, hI.thing, true_implies]

theorem functional_max (hI : I.Usual) (p : Ope) :
    sat I (.objPropChar .func p) ↔ sat I (.subClass (.cls owlThing) (.objCard .max 1 p)) := by
  simp only [sat, ce, hI.thing, true_implies, char, Card]
  refine forall_congr' fun x => Iff.trans ?_ (not_congr atLeast_two).symm
  exact ⟨fun h ⟨y, z, h1, h2, h3⟩ => h3 (h y z h1 h2), fun h y z h1 h2 => Classical.byContradiction fun h3 => h ⟨y, z, h1, h2, h3⟩⟩

theorem invFunctional_max (hI : I.Usual) (i : Iri) :
    sat I (.objPropChar .invFunc (.prop i)) ↔ sat I (.subClass (.cls owlThing) (.objCard .max 1 (.inv i))) := by
  rw [← functional_max hI]
  simp only [sat, char, ope]

theorem reflexive_self (hI : I.Usual) (p : Ope) :
    sat I (.objPropChar .refl p) ↔ sat I (.subClass (.cls owlThing) (.objHasSelf p)) := by
  simp only [sat, ce, hI.thing, true_implies, char]

theorem irreflexive_self (hI : I.Usual) (p : Ope) :
    sat I (.objPropChar .irrefl p) ↔ sat I (.subClass (.objHasSelf p) (.compl (.cls owlThing))) := by
  simp only [sat, ce, hI.thing, not_true, char]

theorem symmetric_sub (i : Iri) : sat I (.objPropChar .symm (.prop i)) ↔ sat I (.subObjProp (.ope (.prop i)) (.inv i)) := by
  simp only [sat, subOpe, ope, char]

theorem asymmetric_disj (i : Iri) : sat I (.objPropChar .asymm (.prop i)) ↔ sat I (.disjObjProp [.prop i, .inv i]) := by
  simp [sat, ope, char, Disj2]

theorem transitive_chain (p : Ope) : sat I (.objPropChar .trans p) ↔ sat I (.subObjProp (.chain [p, p]) p) := by
  simp only [sat, subOpe, char, chain, List.map_cons, List.map_nil]
  exact ⟨fun h x y ⟨z, h1, w, h2, h3⟩ => h x z y h1 (h3 ▸ h2), fun h x z y h1 h2 => h x y ⟨z, h1, y, h2, rfl⟩⟩

theorem equivData_subs (p q : Iri) : sat I (.equivDataProp [p, q]) ↔ sat I (.subDataProp p q) ∧ sat I (.subDataProp q p) := by
  simp only [sat, List.map_cons, List.map_nil, List.pairwise_cons, List.mem_singleton, forall_eq, List.not_mem_nil, false_implies,
    implies_true, List.Pairwise.nil, and_true]
  exact ⟨fun e => by rw [e]; exact ⟨fun _ _ h => h, fun _ _ h => h⟩,
    fun h => funext fun x => funext fun y => propext ⟨h.1 x y, h.2 x y⟩⟩

/-- Two data properties are disjoint exactly if no thing has a value of the one that is one of the other. -/
theorem disjData_pair (p q : Iri) : sat I (.disjDataProp [p, q]) ↔ ∀ x v, I.dataProp p x v → ¬ I.dataProp q x v := by
  simp [sat, Disj2]

theorem dataDomain_some (hI : I.Usual) (p : Iri) (c : CE) :
    sat I (.dataPropDomain p c) ↔ sat I (.subClass (.dataSome p (.dt rdfsLiteral)) c) := by
  simp only [sat, ce, dr, hI.literal, and_true]
  exact ⟨fun h x ⟨y, k⟩ => h x y k, fun h x y k => h x ⟨y, k⟩⟩

theorem dataRange_all (hI : I.Usual) (p : Iri) (d : DR) :
    sat I (.dataPropRange p d) ↔ sat I (.subClass (.cls owlThing) (.dataAll p d)) := by
  simp only [sat, ce, hI.thing, true_implies]

theorem functionalData_max (hI : I.Usual) (p : Iri) :
    sat I (.funcDataProp p) ↔ sat I (.subClass (.cls owlThing) (.dataCard .max 1 p)) := by
  simp only [sat, ce, hI.thing, true_implies, Card]
  refine forall_congr' fun x => Iff.trans ?_ (not_congr atLeast_two).symm
  exact ⟨fun h ⟨y, z, h1, h2, h3⟩ => h3 (h y z h1 h2), fun h y z h1 h2 => Classical.byContradiction fun h3 => h ⟨y, z, h1, h2, h3⟩⟩

/-! ## Definitions, keys and assertions (9.4 to 9.6) -/

/-- A defined datatype may be replaced by what it is defined as. -/
theorem datatypeDef_replace {i : Iri} {d : DR} (h : sat I (.datatypeDef i d)) (p : Iri) (x : I.Thing) :
    ce I (.dataSome p (.dt i)) x ↔ ce I (.dataSome p d) x := by
  simp only [ce, dr]
  exact exists_congr fun v => and_congr_right fun _ => h v

/-- If all things have names, a single key is an inverse functional property. -/
theorem key_invFunctional (hI : I.Usual) (hn : ∀ x, I.isNamed x) (p : Ope) :
    sat I (.hasKey (.cls owlThing) [p] []) ↔ sat I (.objPropChar .invFunc p) := by
  simp only [sat, ce, hI.thing, hn, true_implies, char, List.map_cons, List.map_nil, List.mem_singleton, forall_eq, List.not_mem_nil,
    false_implies, implies_true, true_and]
  exact ⟨fun h x y z h1 h2 => h y z ⟨x, h1, h2⟩, fun h x y ⟨z, h1, h2⟩ => h z x y h1 h2⟩

/-- Keys say nothing about things without names. -/
theorem key_unnamed (hn : ∀ x, ¬ I.isNamed x) (c : CE) (ps : List Ope) (ds : List Iri) : sat I (.hasKey c ps ds) :=
  fun x _ _ h => absurd h (hn x)

/-- More properties make a weaker key. -/
theorem key_more (c : CE) (ps qs : List Ope) (ds es : List Iri) (h : sat I (.hasKey c ps ds)) : sat I (.hasKey c (ps ++ qs) (ds ++ es)) := by
  intro x y h1 h2 h3 h4 h5 h6
  refine h x y h1 h2 h3 h4 (fun r hr => h5 r ?_) fun r hr => h6 r ?_
  · rw [List.map_append]; exact List.mem_append_left _ hr
  · rw [List.map_append]; exact List.mem_append_left _ hr

theorem same_sub (i j : Ind) : sat I (.sameInd [i, j]) ↔ sat I (.subClass (.oneOf [i]) (.oneOf [j])) := by
  simp [sat, ce]

theorem different_compl (i j : Ind) : sat I (.diffInd [i, j]) ↔ sat I (.subClass (.oneOf [i]) (.compl (.oneOf [j]))) := by
  simp [sat, ce]

theorem classAssert_sub (c : CE) (i : Ind) : sat I (.classAssert c i) ↔ sat I (.subClass (.oneOf [i]) c) := by
  simp [sat, ce]

theorem objAssert_sub (p : Ope) (i j : Ind) : sat I (.objPropAssert p i j) ↔ sat I (.subClass (.oneOf [i]) (.objHasValue p j)) := by
  simp [sat, ce]

theorem negObjAssert_sub (p : Ope) (i j : Ind) :
    sat I (.negObjPropAssert p i j) ↔ sat I (.subClass (.oneOf [i]) (.compl (.objHasValue p j))) := by
  simp [sat, ce]

theorem dataAssert_sub (p : Iri) (i : Ind) (l : Lit) :
    sat I (.dataPropAssert p i l) ↔ sat I (.subClass (.oneOf [i]) (.dataHasValue p l)) := by
  simp [sat, ce]

theorem negDataAssert_sub (p : Iri) (i : Ind) (l : Lit) :
    sat I (.negDataPropAssert p i l) ↔ sat I (.subClass (.oneOf [i]) (.compl (.dataHasValue p l))) := by
  simp [sat, ce]

end Cowl.Sem
