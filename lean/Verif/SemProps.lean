import Verif.SemLemmas
import Verif.Queries
import Verif.ExamplesProps
/-! # C108, C109: equality and queries do justice to the meaning -/
namespace Cowl
open Ast ObjSpec OntoSpec IterSpec Examples Queries Sem

/-! ## C108 -/

theorem sameAll_append_cut : ∀ {xs ys as bs : List Obj}, xs.length = ys.length → SameAll (xs ++ as) (ys ++ bs) → SameAll xs ys
  | [], [], _, _, _, _ => .nil
  | [], _ :: _, _, _, h, _ => by cases h
  | _ :: _, [], _, _, h, _ => by cases h
  | x :: xs, y :: ys, as, bs, h, k => by
    obtain ⟨a, b⟩ := sameAll_cons.1 k
    exact .cons a (sameAll_append_cut (by simpa using h) b)

theorem annotated_eq (t : OType) (fs as : List Obj) : ∃ b e, annotated t fs as = .comp t b (fs ++ e) 0 := by
  cases as with
  | nil => exact ⟨false, [], by simp [annotated]⟩
  | cons a as => exact ⟨true, [.vec false (a :: as)], rfl⟩

theorem same_axiom {a b : Axiom} (h : Same a.toObj b.toObj) (I : Interp) : sat I a.ax ↔ sat I b.ax := by
  unfold Axiom.toObj at h
  obtain ⟨b1, e1, h1⟩ := annotated_eq a.ax.type a.ax.fields (Annot.toObjs a.annots)
  obtain ⟨b2, e2, h2⟩ := annotated_eq b.ax.type b.ax.fields (Annot.toObjs b.annots)
  rw [h1, h2] at h
  obtain ⟨ht, _, hf, _⟩ := same_comp.1 h
  exact same_sat _ _ ht (sameAll_append_cut (by rw [fields_length, fields_length, ht]) hf)

/-- C108, in part: axioms that `cowl_equals` takes for equal, and that list no operand twice, hold in the same interpretations.
Missing: axioms that list an operand twice (`C108_fails`). -/
theorem C108_partial {a b : Axiom} (ha : Regular false a.toObj) (hb : Regular false b.toObj) (h : a.toObj.equals b.toObj = true)
    (I : Interp) : sat I a.ax ↔ sat I b.ax :=
  same_axiom ((C05_equals_iff_same _ _ ha hb).1 h) I

/-- C108 for class expressions: they have the same members. -/
theorem C108_classes {c d : CE} (hc : Regular false c.toObj) (hd : Regular false d.toObj) (h : c.toObj.equals d.toObj = true)
    (I : Interp) : ce I c = ce I d :=
  same_ce c d ((C05_equals_iff_same _ _ hc hd).1 h)

/-- C108 for data ranges: they have the same values. -/
theorem C108_ranges {c d : DR} (hc : Regular false c.toObj) (hd : Regular false d.toObj) (h : c.toObj.equals d.toObj = true)
    (I : Interp) : dr I c = dr I d :=
  same_dr c d ((C05_equals_iff_same _ _ hc hd).1 h)

theorem regularItems_take : ∀ {xs ys : List Obj}, RegularItems (xs ++ ys) → RegularItems xs
  | [], _, _ => trivial
  | x :: xs, ys, h => by
    simp only [List.cons_append, RegularItems] at h ⊢
    exact ⟨h.1, regularItems_take h.2⟩

theorem regularFields_take {c : Bool} : ∀ {xs ys : List Obj}, RegularFields c (xs ++ ys) → RegularFields c xs
  | [], _, _ => trivial
  | x :: xs, ys, h => by
    simp only [List.cons_append, RegularFields] at h ⊢
    exact ⟨h.1, regularItems_take h.2⟩

theorem eqvPrefix_take (f : Bool) : ∀ (n : Nat) (xs ys as bs : List Obj), xs.length = n → ys.length = n →
    eqvPrefix f n (xs ++ as) (ys ++ bs) = eqvPrefix f n xs ys
  | 0, xs, ys, as, bs, _, _ => by rw [eqvPrefix_zero, eqvPrefix_zero]
  | n + 1, [], _, _, _, h, _ => by cases h
  | n + 1, _ :: _, [], _, _, _, h => by cases h
  | n + 1, x :: xs, y :: ys, as, bs, h, k => by
    rw [List.cons_append, List.cons_append, eqvPrefix_cons, eqvPrefix_cons,
      eqvPrefix_take f n xs ys as bs (by simpa using h) (by simpa using k)]

/-- C108 for the comparison without annotations, `cowl_axiom_equals`. -/
theorem C108_unannotated {a b : Axiom} (ha : Regular false a.toObj) (hb : Regular false b.toObj)
    (h : axiomEquals a.toObj b.toObj false = true) (I : Interp) : sat I a.ax ↔ sat I b.ax := by
  unfold Axiom.toObj at ha hb h
  obtain ⟨b1, e1, h1⟩ := annotated_eq a.ax.type a.ax.fields (Annot.toObjs a.annots)
  obtain ⟨b2, e2, h2⟩ := annotated_eq b.ax.type b.ax.fields (Annot.toObjs b.annots)
  rw [h1] at ha h
  rw [h2] at hb h
  simp only [axiomEquals, Bool.false_and] at h
  by_cases ht : a.ax.type = b.ax.type
  · rw [ht] at h
    simp only [bne_self_eq_false, Bool.false_eq_true, if_false] at h
    have n1 : a.ax.fields.length = nFields b.ax.type false := by rw [fields_length, ht]; rfl
    have n2 : b.ax.fields.length = nFields b.ax.type false := by rw [fields_length]; rfl
    rw [eqvPrefix_take _ _ _ _ _ _ n1 n2, ← n1] at h
    simp only [Regular] at ha hb
    rw [ht] at ha
    exact same_sat _ _ ht ((eqvFields_iff _ _ _ _ (regularFields_take ha.2) (regularFields_take hb.2) (n1.trans n2.symm)).1 h)
  · simp [ht] at h

/-- C108: what `cowl_ontology_has_axiom` affirms follows from the ontology. -/
theorem C108_has {o : Onto} {as : List Axiom} (h : HoldsAxioms o as) {x : Axiom} (hx : Regular false x.toObj)
    (hs : ∀ a ∈ as, Regular false a.toObj) (hh : o.hasAxiom x.toObj = true) : Follows as fun I => sat I x.ax := by
  obtain ⟨s, hr, e⟩ := h
  have mem : ∀ r ∈ s.axioms, ∃ a ∈ as, a.toObj = r.obj := fun r hr' => by
    have : r.obj ∈ as.map Axiom.toObj := by rw [← e]; exact List.mem_map_of_mem hr'
    exact List.mem_map.1 this
  obtain ⟨r, hm, hsame⟩ := (C12_partial o s hr x.toObj (isAxiom_toObj x) hx fun r hr' => by
    obtain ⟨a, ha, ea⟩ := mem r hr'
    rw [← ea]; exact hs a ha).1 hh
  obtain ⟨a, ha, ea⟩ := mem r hm
  rw [← ea] at hsame
  exact fun I hI => (same_axiom hsame I).1 (hI a ha)

/-- An interpretation with one thing and one value, in which exactly the named classes have members. -/
def oneThing (p : Iri → Prop) : Interp where
  Thing := Unit
  Value := Unit
  cls i _ := p i
  objProp _ _ _ := False
  dataProp _ _ _ := False
  datatype _ _ := True
  named _ := ()
  anon _ := ()
  lit _ _ := ()
  facet _ _ _ := True
  isNamed _ := True

/-- `EquivalentClasses` of classes with these names. -/
def sameClasses (l : List String) : Axiom := ⟨.equivClasses (l.map fun n => .cls (foodIri n)), []⟩

/-- C108 fails if an operand is listed twice: `EquivalentClasses(A A B)` is taken for equal to `EquivalentClasses(A B C)`, but it
can hold without the other one. An ontology with the former is said to have the latter. -/
theorem C108_fails : (sameClasses ["A", "A", "B"]).toObj.equals (sameClasses ["A", "B", "C"]).toObj = true ∧
    (Onto.empty.addAxiom ⟨1, (sameClasses ["A", "A", "B"]).toObj⟩).hasAxiom (sameClasses ["A", "B", "C"]).toObj = true ∧
    ∃ I, sat I (sameClasses ["A", "A", "B"]).ax ∧ ¬ sat I (sameClasses ["A", "B", "C"]).ax := by
  refine ⟨by decide +kernel, by decide +kernel, oneThing (fun i => i ≠ foodIri "C"), ?_, ?_⟩
  · have hA : foodIri "A" ≠ foodIri "C" := by decide +kernel
    have hB : foodIri "B" ≠ foodIri "C" := by decide +kernel
    simp [sameClasses, sat, ces, ce, oneThing, hA, hB]
  · have hA : foodIri "A" ≠ foodIri "C" := by decide +kernel
    simp only [sameClasses, sat, List.map_cons, List.map_nil, ces, ce, oneThing]
    intro h
    have := List.rel_of_pairwise_cons h (a' := fun _ => foodIri "C" ≠ foodIri "C") (by simp)
    exact absurd rfl ((congrFun this ()) ▸ hA)

theorem sameClasses_regular {m n : String} (h : foodIri m ≠ foodIri n) : Regular false (sameClasses [m, n]).toObj := by
  have : ¬ Same (.prim (.ent .cls (foodIri m))) (.prim (.ent .cls (foodIri n))) := fun k => h (Prim.ent.inj (same_prim.1 k)).2
  simp [sameClasses, Axiom.toObj, annotated, Annot.toObjs, Ax.type, Ax.fields, CE.toObjs, CE.toObj, ent, Regular, RegularFields,
    RegularItems, nFields, OType.fieldCount, OType.flags, this]

/-- A concrete case for C108: the operands come in another order. -/
example : Regular false (sameClasses ["A", "B"]).toObj ∧ Regular false (sameClasses ["B", "A"]).toObj ∧
    (sameClasses ["A", "B"]).toObj.equals (sameClasses ["B", "A"]).toObj = true ∧
    axiomEquals (sameClasses ["A", "B"]).toObj (sameClasses ["B", "A"]).toObj false = true ∧
    (Onto.empty.addAxiom ⟨1, (sameClasses ["A", "B"]).toObj⟩).hasAxiom (sameClasses ["B", "A"]).toObj = true :=
  ⟨sameClasses_regular (by decide +kernel), sameClasses_regular (by decide +kernel), by decide +kernel, by decide +kernel,
    by decide +kernel⟩

/-! ## C109 -/

/-- What the queries visit, in terms of the axioms of a type. -/
theorem visited_axioms {o : Onto} {as : List Axiom} (h : HoldsAxioms o as) (p : Prim) (types : BitVec 64) (pos : BitVec 8) (t : OType)
    (ht : ∀ r : Ref, TypeIn types r ↔ r.obj.otype = t) : ∃ v : List Obj,
    (∀ x, x ∈ v ↔ ∃ a ∈ as, a.ax.type = t ∧ (∃ op ∈ a.ax.fields, OperandIs p op) ∧ x ∈ operandsAt a.ax.fields pos ∧ x ≠ .prim p) ∧
    ∀ (σ : Type) (k : σ → Obj → σ × Ret) (x : σ), Run k v x (o.iterRelated p types pos k x).1 (o.iterRelated p types pos k x).2 := by
  obtain ⟨s, hs, e⟩ := h
  obtain ⟨v, h1, h2⟩ := C21_visited o s hs p types pos
  refine ⟨v, fun x => ?_, h2⟩
  rw [h1]
  have ho : ∀ a : Axiom, operands a.toObj = a.ax.fields := fun a => operands_annotated (fields_length _).symm
  constructor
  · rintro ⟨r, hr, hT, hop, hx, hne⟩
    have : r.obj ∈ as.map Axiom.toObj := by rw [← e]; exact List.mem_map_of_mem hr
    obtain ⟨a, ha, ea⟩ := List.mem_map.1 this
    refine ⟨a, ha, ?_, ?_, ?_, hne⟩
    · rw [ht, ← ea] at hT
      exact (otype_annotated _ _ _).symm.trans hT
    · unfold HasOperand at hop
      rwa [← ea, ho] at hop
    · rwa [← ea, ho] at hx
  · rintro ⟨a, ha, hT, hop, hx, hne⟩
    have : a.toObj ∈ s.axioms.map Ref.obj := by rw [e]; exact List.mem_map_of_mem ha
    obtain ⟨r, hr, er⟩ := List.mem_map.1 this
    refine ⟨r, hr, ?_, ?_, ?_, hne⟩
    · rw [ht, er]
      exact (otype_annotated _ _ _).trans hT
    · unfold HasOperand
      rwa [er, ho]
    · rwa [er, ho]

theorem typeIn_of {types : BitVec 64} {n : Nat} {t : OType} (h1 : ∀ m, m < 37 → (types.getLsbD m = true ↔ m = n)) (hn : n < 37)
    (h2 : t.code = OType.aDecl.code + n) (h3 : ∀ x : OType, x.code = t.code → x = t) (r : Ref) : TypeIn types r ↔ r.obj.otype = t := by
  constructor
  · rintro ⟨m, hm, hc, hb⟩
    rw [h1 m hm] at hb
    subst hb
    exact h3 _ (hc.trans h2.symm)
  · intro h
    exact ⟨n, hn, by show r.obj.otype.code = _; rw [h, h2], (h1 n hn).2 rfl⟩

theorem code_inj {x t : OType} (h : x.code = t.code) : x = t := by
  revert h; cases x <;> cases t <;> first | exact fun _ => rfl | (intro h; exact absurd h (by decide))

theorem operandsAt_right {x y : Obj} (hy : ∀ b xs, y ≠ .vec b xs) : operandsAt [x, y] psRight = [y] := by
  have : ([x, y].zipIdx.filter fun (_, i) => SitsAt [x, y].length i psRight) = [(y, 1)] := by
    simp [List.zipIdx, List.filter, SitsAt, psLeft, psRight, psMiddle]
  unfold operandsAt
  rw [this]
  cases y with
  | vec b xs => exact absurd rfl (hy b xs)
  | _ => rfl

theorem operandsAt_any {b : Bool} {xs : List Obj} : operandsAt [.vec b xs] psAny = xs := by
  have : ([Obj.vec b xs].zipIdx.filter fun (_, i) => SitsAt [Obj.vec b xs].length i psAny) = [(Obj.vec b xs, 0)] := by
    simp [List.zipIdx, List.filter, SitsAt, psLeft, psRight, psMiddle, psAny]
  unfold operandsAt
  rw [this]
  simp

theorem mem_toObjs {x : Obj} {cs : List CE} : x ∈ CE.toObjs cs ↔ ∃ d ∈ cs, x = d.toObj := by
  rw [toObjs_map, List.mem_map]
  exact ⟨fun ⟨d, h, e⟩ => ⟨d, h, e.symm⟩, fun ⟨d, h, e⟩ => ⟨d, h, e.symm⟩⟩

theorem cls_mem {c : Iri} {cs : List CE} : OperandIs (.ent .cls c) (.vec false (CE.toObjs cs)) ↔ .cls c ∈ cs := by
  simp only [OperandIs]
  constructor
  · rintro ⟨x, hx, hp⟩
    obtain ⟨d, hd, rfl⟩ := mem_toObjs.1 hx
    rwa [← isPrim_ce.1 hp]
  · intro h
    exact ⟨_, mem_toObjs.2 ⟨_, h, rfl⟩, isPrim_ce.2 rfl⟩

theorem pairwise_mem {α : Type} {R : α → α → Prop} (hR : ∀ x y, R x y → R y x) {l : List α} (h : l.Pairwise R) {x y : α} (hx : x ∈ l)
    (hy : y ∈ l) (hne : x ≠ y) : R x y := by
  induction h with
  | nil => cases hx
  | cons h1 _ ih =>
    rcases List.mem_cons.1 hx with ex | hx' <;> rcases List.mem_cons.1 hy with ey | hy'
    · exact absurd (ex.trans ey.symm) hne
    · rw [ex]; exact h1 _ hy'
    · rw [ey]; exact hR _ _ (h1 _ hx')
    · exact ih hx' hy'

theorem pairwise_map_mem {α β : Type} {f : α → β} {R : β → β → Prop} (hR : ∀ x y, R x y → R y x) {l : List α} (h : (l.map f).Pairwise R)
    {x y : α} (hx : x ∈ l) (hy : y ∈ l) (hne : x ≠ y) : R (f x) (f y) :=
  pairwise_mem (R := fun x y => R (f x) (f y)) (fun _ _ k => hR _ _ k) (List.pairwise_map.1 h) hx hy hne

/-- C109, subclasses: the query visits the class expressions that an axiom puts below the class, and each of them is a subclass in
all interpretations in which the ontology holds. -/
theorem C109_subClasses {o : Onto} {as : List Axiom} (h : HoldsAxioms o as) (c : Iri) : ∃ v : List Obj,
    (∀ x, x ∈ v ↔ ∃ d, d ≠ .cls c ∧ x = d.toObj ∧ ∃ a ∈ as, a.ax = .subClass d (.cls c)) ∧
    (∀ d : CE, d.toObj ∈ v → Follows as fun I => ∀ t, ce I d t → I.cls c t) ∧
    ∀ (σ : Type) (k : σ → Obj → σ × Ret) (x : σ), Run k v x (iterSubClasses o c k x).1 (iterSubClasses o c k x).2 := by
  obtain ⟨v, h1, h2⟩ := visited_axioms h (.ent .cls c) afSubClass psLeft .aSubClass
    (typeIn_of (n := 1) (by decide +kernel) (by decide) rfl fun _ => code_inj)
  have key : ∀ x, x ∈ v ↔ ∃ d, d ≠ .cls c ∧ x = d.toObj ∧ ∃ a ∈ as, a.ax = .subClass d (.cls c) := by
    intro x
    rw [h1]
    constructor
    · rintro ⟨a, ha, ht, hop, hx, hne⟩
      cases e : a.ax with
      | subClass y z =>
        rw [e] at hop hx
        rw [show (Ax.subClass y z).fields = [y.toObj, z.toObj] from rfl] at hop hx
        rw [operandsAt_left fun _ _ => ce_not_vec, List.mem_singleton] at hx
        have hy : y ≠ .cls c := by rintro rfl; exact hne hx
        refine ⟨y, hy, hx, a, ha, ?_⟩
        obtain ⟨op, hm, hi⟩ := hop
        rcases List.mem_cons.1 hm with rfl | hm'
        · exact absurd (operandIs_ce.1 hi) hy
        · rw [List.mem_singleton.1 hm'] at hi
          rw [e, operandIs_ce.1 hi]
      | objPropChar k p => rw [e] at ht; cases k <;> cases ht
      | _ => rw [e] at ht; cases ht
    · rintro ⟨d, hne, rfl, a, ha, e⟩
      refine ⟨a, ha, by rw [e]; rfl, ?_, ?_, fun k => hne (isPrim_ce.1 (by rw [k]; rfl))⟩
      · rw [e]; exact ⟨(CE.cls c).toObj, by simp [Ax.fields], operandIs_ce.2 rfl⟩
      · rw [e, show (Ax.subClass d (.cls c)).fields = [d.toObj, (CE.cls c).toObj] from rfl, operandsAt_left fun _ _ => ce_not_vec]
        simp
  refine ⟨v, key, fun d hd I hI t ht => ?_, h2⟩
  obtain ⟨d', _, e, a, ha, ea⟩ := (key _).1 hd
  have := hI a ha
  rw [ea] at this
  exact this t (by rw [← same_ce d d' (e ▸ Same.refl _)]; exact ht)

/-- C109, superclasses. -/
theorem C109_superClasses {o : Onto} {as : List Axiom} (h : HoldsAxioms o as) (c : Iri) : ∃ v : List Obj,
    (∀ x, x ∈ v ↔ ∃ d, d ≠ .cls c ∧ x = d.toObj ∧ ∃ a ∈ as, a.ax = .subClass (.cls c) d) ∧
    (∀ d : CE, d.toObj ∈ v → Follows as fun I => ∀ t, I.cls c t → ce I d t) ∧
    ∀ (σ : Type) (k : σ → Obj → σ × Ret) (x : σ), Run k v x (iterSuperClasses o c k x).1 (iterSuperClasses o c k x).2 := by
  obtain ⟨v, h1, h2⟩ := visited_axioms h (.ent .cls c) afSubClass psRight .aSubClass
    (typeIn_of (n := 1) (by decide +kernel) (by decide) rfl fun _ => code_inj)
  have key : ∀ x, x ∈ v ↔ ∃ d, d ≠ .cls c ∧ x = d.toObj ∧ ∃ a ∈ as, a.ax = .subClass (.cls c) d := by
    intro x
    rw [h1]
    constructor
    · rintro ⟨a, ha, ht, hop, hx, hne⟩
      cases e : a.ax with
      | subClass y z =>
        rw [e] at hop hx
        rw [show (Ax.subClass y z).fields = [y.toObj, z.toObj] from rfl] at hop hx
        rw [operandsAt_right fun _ _ => ce_not_vec, List.mem_singleton] at hx
        have hz : z ≠ .cls c := by rintro rfl; exact hne hx
        refine ⟨z, hz, hx, a, ha, ?_⟩
        obtain ⟨op, hm, hi⟩ := hop
        rcases List.mem_cons.1 hm with rfl | hm'
        · rw [e, operandIs_ce.1 hi]
        · rw [List.mem_singleton.1 hm'] at hi
          exact absurd (operandIs_ce.1 hi) hz
      | objPropChar k p => rw [e] at ht; cases k <;> cases ht
      | _ => rw [e] at ht; cases ht
    · rintro ⟨d, hne, rfl, a, ha, e⟩
      refine ⟨a, ha, by rw [e]; rfl, ?_, ?_, fun k => hne (isPrim_ce.1 (by rw [k]; rfl))⟩
      · rw [e]; exact ⟨(CE.cls c).toObj, by simp [Ax.fields], operandIs_ce.2 rfl⟩
      · rw [e, show (Ax.subClass (.cls c) d).fields = [(CE.cls c).toObj, d.toObj] from rfl, operandsAt_right fun _ _ => ce_not_vec]
        simp
  refine ⟨v, key, fun d hd I hI t ht => ?_, h2⟩
  obtain ⟨d', _, e, a, ha, ea⟩ := (key _).1 hd
  have := hI a ha
  rw [ea] at this
  rw [same_ce d d' (e ▸ Same.refl _)]
  exact this t ht

/-- C109, equivalent classes. -/
theorem C109_eqClasses {o : Onto} {as : List Axiom} (h : HoldsAxioms o as) (c : Iri) : ∃ v : List Obj,
    (∀ x, x ∈ v ↔ ∃ d, d ≠ .cls c ∧ x = d.toObj ∧ ∃ a ∈ as, ∃ cs, a.ax = .equivClasses cs ∧ .cls c ∈ cs ∧ d ∈ cs) ∧
    (∀ d : CE, d.toObj ∈ v → Follows as fun I => ce I d = I.cls c) ∧
    ∀ (σ : Type) (k : σ → Obj → σ × Ret) (x : σ), Run k v x (iterEqClasses o c k x).1 (iterEqClasses o c k x).2 := by
  obtain ⟨v, h1, h2⟩ := visited_axioms h (.ent .cls c) afEquivClasses psAny .aEquivClasses
    (typeIn_of (n := 2) (by decide +kernel) (by decide) rfl fun _ => code_inj)
  have key : ∀ x, x ∈ v ↔ ∃ d, d ≠ .cls c ∧ x = d.toObj ∧ ∃ a ∈ as, ∃ cs, a.ax = .equivClasses cs ∧ .cls c ∈ cs ∧ d ∈ cs := by
    intro x
    rw [h1]
    constructor
    · rintro ⟨a, ha, ht, hop, hx, hne⟩
      cases e : a.ax with
      | equivClasses cs =>
        rw [e] at hop hx
        rw [show (Ax.equivClasses cs).fields = [.vec false (CE.toObjs cs)] from rfl] at hop hx
        rw [operandsAt_any] at hx
        obtain ⟨d, hd, ed⟩ := mem_toObjs.1 hx
        obtain ⟨op, hm, hi⟩ := hop
        rw [List.mem_singleton.1 hm, cls_mem] at hi
        exact ⟨d, by rintro rfl; exact hne ed, ed, a, ha, cs, e, hi, hd⟩
      | objPropChar k p => rw [e] at ht; cases k <;> cases ht
      | _ => rw [e] at ht; cases ht
    · rintro ⟨d, hne, rfl, a, ha, cs, e, hc, hd⟩
      refine ⟨a, ha, by rw [e]; rfl, ?_, ?_, fun k => hne (isPrim_ce.1 (by rw [k]; rfl))⟩
      · rw [e]; exact ⟨.vec false (CE.toObjs cs), by simp [Ax.fields], cls_mem.2 hc⟩
      · rw [e, show (Ax.equivClasses cs).fields = [.vec false (CE.toObjs cs)] from rfl, operandsAt_any]
        exact mem_toObjs.2 ⟨d, hd, rfl⟩
  refine ⟨v, key, fun d hd I hI => ?_, h2⟩
  obtain ⟨d', hne, e, a, ha, cs, ea, hc, hd'⟩ := (key _).1 hd
  have hs := hI a ha
  rw [ea] at hs
  simp only [sat, ces_map] at hs
  rw [same_ce d d' (e ▸ Same.refl _)]
  exact pairwise_map_mem (R := fun p q => p = q) (fun _ _ => eq_symm) hs hd' hc hne

/-- C109, disjoint classes. -/
theorem C109_disjointClasses {o : Onto} {as : List Axiom} (h : HoldsAxioms o as) (c : Iri) : ∃ v : List Obj,
    (∀ x, x ∈ v ↔ ∃ d, d ≠ .cls c ∧ x = d.toObj ∧ ∃ a ∈ as, ∃ cs, a.ax = .disjClasses cs ∧ .cls c ∈ cs ∧ d ∈ cs) ∧
    (∀ d : CE, d.toObj ∈ v → Follows as fun I => ∀ t, ¬ (ce I d t ∧ I.cls c t)) ∧
    ∀ (σ : Type) (k : σ → Obj → σ × Ret) (x : σ), Run k v x (iterDisjointClasses o c k x).1 (iterDisjointClasses o c k x).2 := by
  obtain ⟨v, h1, h2⟩ := visited_axioms h (.ent .cls c) afDisjClasses psAny .aDisjClasses
    (typeIn_of (n := 3) (by decide +kernel) (by decide) rfl fun _ => code_inj)
  have key : ∀ x, x ∈ v ↔ ∃ d, d ≠ .cls c ∧ x = d.toObj ∧ ∃ a ∈ as, ∃ cs, a.ax = .disjClasses cs ∧ .cls c ∈ cs ∧ d ∈ cs := by
    intro x
    rw [h1]
    constructor
    · rintro ⟨a, ha, ht, hop, hx, hne⟩
      cases e : a.ax with
      | disjClasses cs =>
        rw [e] at hop hx
        rw [show (Ax.disjClasses cs).fields = [.vec false (CE.toObjs cs)] from rfl] at hop hx
        rw [operandsAt_any] at hx
        obtain ⟨d, hd, ed⟩ := mem_toObjs.1 hx
        obtain ⟨op, hm, hi⟩ := hop
        rw [List.mem_singleton.1 hm, cls_mem] at hi
        exact ⟨d, by rintro rfl; exact hne ed, ed, a, ha, cs, e, hi, hd⟩
      | objPropChar k p => rw [e] at ht; cases k <;> cases ht
      | _ => rw [e] at ht; cases ht
    · rintro ⟨d, hne, rfl, a, ha, cs, e, hc, hd⟩
      refine ⟨a, ha, by rw [e]; rfl, ?_, ?_, fun k => hne (isPrim_ce.1 (by rw [k]; rfl))⟩
      · rw [e]; exact ⟨.vec false (CE.toObjs cs), by simp [Ax.fields], cls_mem.2 hc⟩
      · rw [e, show (Ax.disjClasses cs).fields = [.vec false (CE.toObjs cs)] from rfl, operandsAt_any]
        exact mem_toObjs.2 ⟨d, hd, rfl⟩
  refine ⟨v, key, fun d hd I hI => ?_, h2⟩
  obtain ⟨d', hne, e, a, ha, cs, ea, hc, hd'⟩ := (key _).1 hd
  have hs := hI a ha
  rw [ea] at hs
  simp only [sat, ces_map] at hs
  rw [same_ce d d' (e ▸ Same.refl _)]
  exact pairwise_map_mem (R := Disj) (fun _ _ => disj_symm) hs hd' hc hne

theorem operandIs_ind {i j : Ind} : OperandIs (indPrim i) j.toObj ↔ j = i := by
  cases i <;> cases j <;> simp [OperandIs, IsPrim, Ind.toObj, ent, indPrim]

theorem ce_not_ind {i : Ind} {c : CE} : ¬ OperandIs (indPrim i) c.toObj := by
  intro h
  cases e : c.toObj with
  | vec => exact ce_not_vec e
  | prim p =>
    obtain ⟨j, _, rfl⟩ := ce_prim e
    rw [e] at h
    cases i <;> simp [OperandIs, IsPrim, indPrim] at h
  | _ => rw [e] at h; exact h

/-- C109, types of individuals. -/
theorem C109_types {o : Onto} {as : List Axiom} (h : HoldsAxioms o as) (i : Ind) : ∃ v : List Obj,
    (∀ x, x ∈ v ↔ ∃ d : CE, x = d.toObj ∧ ∃ a ∈ as, a.ax = .classAssert d i) ∧
    (∀ d : CE, d.toObj ∈ v → Follows as fun I => ce I d (ind I i)) ∧
    ∀ (σ : Type) (k : σ → Obj → σ × Ret) (x : σ), Run k v x (iterIndTypes o i k x).1 (iterIndTypes o i k x).2 := by
  obtain ⟨v, h1, h2⟩ := visited_axioms h (indPrim i) afClassAssert psLeft .aClassAssert
    (typeIn_of (n := 28) (by decide +kernel) (by decide) rfl fun _ => code_inj)
  have key : ∀ x, x ∈ v ↔ ∃ d : CE, x = d.toObj ∧ ∃ a ∈ as, a.ax = .classAssert d i := by
    intro x
    rw [h1]
    constructor
    · rintro ⟨a, ha, ht, hop, hx, hne⟩
      cases e : a.ax with
      | classAssert y j =>
        rw [e] at hop hx
        rw [show (Ax.classAssert y j).fields = [y.toObj, j.toObj] from rfl] at hop hx
        rw [operandsAt_left fun _ _ => ce_not_vec, List.mem_singleton] at hx
        refine ⟨y, hx, a, ha, ?_⟩
        obtain ⟨op, hm, hi⟩ := hop
        rcases List.mem_cons.1 hm with rfl | hm'
        · exact absurd hi ce_not_ind
        · rw [List.mem_singleton.1 hm'] at hi
          rw [e, operandIs_ind.1 hi]
      | objPropChar k p => rw [e] at ht; cases k <;> cases ht
      | _ => rw [e] at ht; cases ht
    · rintro ⟨d, rfl, a, ha, e⟩
      refine ⟨a, ha, by rw [e]; rfl, ?_, ?_, fun k => ?_⟩
      · rw [e]; exact ⟨i.toObj, by simp [Ax.fields], operandIs_ind.2 rfl⟩
      · rw [e, show (Ax.classAssert d i).fields = [d.toObj, i.toObj] from rfl, operandsAt_left fun _ _ => ce_not_vec]
        simp
      · obtain ⟨j, _, e⟩ := ce_prim k
        cases i <;> cases e
  refine ⟨v, key, fun d hd I hI => ?_, h2⟩
  obtain ⟨d', e, a, ha, ea⟩ := (key _).1 hd
  have := hI a ha
  rw [ea] at this
  rw [same_ce d d' (e ▸ Same.refl _)]
  exact this

theorem below_follows {as : List Axiom} {c i : Iri} (h : Below as c i) : Follows as fun I => ∀ t, I.cls i t → I.cls c t := by
  have one : ∀ {c i : Iri}, Child as c i → Follows as fun I => ∀ t, I.cls i t → I.cls c t := by
    rintro c i ⟨-, a, ha, e⟩ I hI t ht
    have := hI a ha
    rw [e] at this
    exact this t ht
  induction h with
  | one h => exact one h
  | more h _ ih => exact fun I hI t ht => one h I hI t (ih I hI t ht)

/-- C109, the recursive query of the example program: what it prints are names of subclasses, if it ends. -/
theorem C109_recursive {o : Onto} {as : List Axiom} (h : HoldsAxioms o as) (rank : Iri → Nat) (hr : ∀ c i, Child as c i → rank i < rank c)
    (fuel : Nat) (c : Iri) (hf : rank c < fuel) : ∃ names : List Iri, recQuery fuel o c = some (names.map Iri.rem) ∧
    ∀ i ∈ names, Follows as fun I => ∀ t, I.cls i t → I.cls c t := by
  obtain ⟨names, h1, h2⟩ := C99_partial h rank hr fuel c hf
  exact ⟨names, h2, fun i hi => below_follows ((h1 i).1 hi)⟩

/-- A concrete case for C109: an axiom of each kind. -/
example : HoldsAxioms (twoBelow (below "A" "B") (below "B" "F")) [below "A" "B", below "B" "F"] ∧
    (iterSuperClasses (twoBelow (below "A" "B") (below "B" "F")) (foodIri "A") (fun n _ => (n + 1, .ok)) 0).1 = 1 ∧
    (iterEqClasses (Onto.empty.addAxiom ⟨1, (sameClasses ["A", "B", "C"]).toObj⟩) (foodIri "A") (fun n _ => (n + 1, .ok)) 0).1 = 2 ∧
    (iterDisjointClasses (Onto.empty.addAxiom ⟨1, (Axiom.mk (.disjClasses [.cls (foodIri "A"), .cls (foodIri "B")]) []).toObj⟩)
      (foodIri "A") (fun n _ => (n + 1, .ok)) 0).1 = 1 ∧
    (iterIndTypes (Onto.empty.addAxiom ⟨1, (Axiom.mk (.classAssert (.cls (foodIri "A")) (.anon (ascii "x"))) []).toObj⟩)
      (.anon (ascii "x")) (fun n _ => (n + 1, .ok)) 0).1 = 1 :=
  ⟨twoBelow_holds _ _ _ _, by decide +kernel, by decide +kernel, by decide +kernel, by decide +kernel⟩

end Cowl
