import Verif.ObjLemmas
/-! # C05, C06, C07: equality and hash of objects -/
namespace Cowl
open ObjSpec

/-! ## Sample objects -/

/-- IRI `http://x#n`. -/
def sampleIri (n : String) : Iri := ⟨ascii "http://x#", ascii n⟩
/-- Class with IRI `http://x#n`. -/
def sampleCls (n : String) : Obj := .prim (.ent .cls (sampleIri n))
/-- `ObjectIntersectionOf(A B)`. -/
def sampleInter : Obj := getImpl .ceObjIntersect [.vec false [sampleCls "A", sampleCls "B"]] none
/-- `SubClassOf(ObjectMinCardinality(3 p ObjectIntersectionOf(A B)) A)`. -/
def sampleAxiom : Obj :=
  getImpl .aSubClass
    [getImplUint .ceObjMinCard [.prim (.ent .objProp (sampleIri "p"))] 3 (some sampleInter),
     sampleCls "A"] none

theorem sampleCls_ne : ¬ Same (sampleCls "A") (sampleCls "B") := by
  intro h
  rw [← eqv_iff_same _ _ false false (by simp [Regular, sampleCls]) (by simp [Regular, sampleCls])] at h
  revert h
  decide +kernel

theorem sampleAxiom_regular : Regular false sampleAxiom := by
  have h : ¬ Same (sampleCls "A") (sampleCls "B") := sampleCls_ne
  simp only [sampleAxiom, sampleInter, getImpl, getImplUint]
  simp [Regular, RegularFields, RegularItems, nFields, OType.fieldCount, OType.flags,
    sampleCls]
  exact h

/-! ## C05 -/

/-- C05, characterisation. On objects built without listing an operand twice,
`cowl_equals` holds exactly for objects that are the same up to the order of
operands in unordered vectors. -/
theorem C05_equals_iff_same (a b : Obj) (ha : Regular false a) (hb : Regular false b) :
    a.equals b = true ↔ Same a b :=
  eqv_iff_same a b false false ha hb

/-- C05, proved part. `cowl_equals` is an equivalence relation on objects built
without listing an operand twice. Missing from the full statement: objects with
a repeated operand in an unordered vector, where it is false (`C05_fails`). -/
theorem C05_partial :
    (∀ a, Regular false a → a.equals a = true) ∧
    (∀ a b, Regular false a → Regular false b → a.equals b = true → b.equals a = true) ∧
    (∀ a b c, Regular false a → Regular false b → Regular false c →
      a.equals b = true → b.equals c = true → a.equals c = true) := by
  refine ⟨fun a ha => ?_, fun a b ha hb h => ?_, fun a b c ha hb hc h1 h2 => ?_⟩
  · exact (C05_equals_iff_same a a ha ha).2 (Same.refl a)
  · exact (C05_equals_iff_same b a hb ha).2 ((C05_equals_iff_same a b ha hb).1 h).symm
  · exact (C05_equals_iff_same a c ha hc).2
      (((C05_equals_iff_same a b ha hb).1 h1).trans ((C05_equals_iff_same b c hb hc).1 h2))

/-- Hypotheses of `C05_partial`, `C05_equals_iff_same` on a nested axiom; and the
relation is not trivial: operand order is ignored, operands are not. -/
example : Regular false sampleAxiom ∧
    (Obj.vec false [sampleCls "A", sampleCls "B"]).equals
      (.vec false [sampleCls "B", sampleCls "A"]) = true ∧
    (Obj.vec true [sampleCls "A", sampleCls "B"]).equals
      (.vec true [sampleCls "B", sampleCls "A"]) = false :=
  ⟨sampleAxiom_regular, by decide +kernel, by decide +kernel⟩

/-- C05, reflexivity holds for every well-formed object, repeated operands included. -/
theorem C05_refl (a : Obj) (h : WellFormed a) : a.equals a = true := eqv_refl a false h

example : WellFormed (.vec false [sampleCls "A", sampleCls "A"]) := by
  simp [WellFormed, WellFormedAll, sampleCls]

/-- C05 is false as stated: with a repeated operand, equality is not symmetric.
`ObjectIntersectionOf(A A)` equals `ObjectIntersectionOf(A B)`, not conversely. -/
theorem C05_fails :
    let a := getImpl .ceObjIntersect [.vec false [sampleCls "A", sampleCls "A"]] none
    let b := getImpl .ceObjIntersect [.vec false [sampleCls "A", sampleCls "B"]] none
    WellFormed a ∧ WellFormed b ∧ a.equals b = true ∧ b.equals a = false := by
  refine ⟨?_, ?_, by decide +kernel, by decide +kernel⟩ <;>
    simp [getImpl, WellFormed, WellFormedAll, sampleCls, nFields, OType.fieldCount, OType.flags]

/-- C05 also fails when the same operands sit in an ordered and in an unordered
vector (a caller's vector becomes ordered when it is used as a property chain). -/
theorem C05_mixed_order_fails :
    let a := Obj.vec false [sampleCls "A", sampleCls "B"]
    let b := Obj.vec true [sampleCls "B", sampleCls "A"]
    a.equals b = true ∧ b.equals a = false := by
  refine ⟨by decide +kernel, by decide +kernel⟩

/-! ## C06 -/

/-- C06, proved part. For every choice of mixing functions and addresses, equal
objects have equal hashes, for objects built without listing an operand twice.
Missing: repeated operands, where it is false (`C06_fails`). -/
theorem C06_partial (H : Hasher) (a b : Obj) (ha : Regular false a) (hb : Regular false b)
    (h : a.equals b = true) : a.hash H = b.hash H :=
  hash_same H ((C05_equals_iff_same a b ha hb).1 h)

/-- Two different regular objects that are equal, so the claim is not only reflexivity. -/
example : Regular false sampleInter ∧
    Regular false (getImpl .ceObjIntersect [.vec false [sampleCls "B", sampleCls "A"]] none) ∧
    sampleInter.equals (getImpl .ceObjIntersect [.vec false [sampleCls "B", sampleCls "A"]] none)
      = true := by
  have h1 : ¬ Same (.prim (.ent .cls (sampleIri "A"))) (.prim (.ent .cls (sampleIri "B"))) :=
    sampleCls_ne
  have h2 : ¬ Same (.prim (.ent .cls (sampleIri "B"))) (.prim (.ent .cls (sampleIri "A"))) :=
    fun h => h1 h.symm
  refine ⟨?_, ?_, by decide +kernel⟩ <;>
    simp [sampleInter, getImpl, Regular, RegularFields, RegularItems, nFields, OType.fieldCount,
      OType.flags, sampleCls, h1, h2]

/-- C06 is false as stated: whenever the hashes of the classes `A` and `B`
differ, the equal objects `[A A]` and `[A B]` have different hashes. -/
theorem C06_fails (H : Hasher) (hne : (sampleCls "A").hash H ≠ (sampleCls "B").hash H) :
    (Obj.vec false [sampleCls "A", sampleCls "A"]).equals
      (.vec false [sampleCls "A", sampleCls "B"]) = true ∧
    (Obj.vec false [sampleCls "A", sampleCls "A"]).hash H ≠
      (Obj.vec false [sampleCls "A", sampleCls "B"]).hash H := by
  refine ⟨by decide +kernel, ?_⟩
  simp only [Obj.hash, hashUnord, Bool.false_eq_true, if_false]
  intro h
  apply hne
  have := congrArg (fun z => (sampleCls "A").hash H ^^^ (0 ^^^ z)) h
  simpa [← UInt32.xor_assoc] using this

/-- There are such hash functions. -/
example : ∃ H : Hasher, (sampleCls "A").hash H ≠ (sampleCls "B").hash H :=
  ⟨⟨fun a _ => a, fun _ => 0,
    fun p => if p = .ent .cls (sampleIri "A") then 1 else 0, fun _ => 0, fun _ => 0⟩, by
    decide +kernel⟩

/-! ## C07 -/

/-- C07, first half: comparing axioms with annotations is `cowl_equals`. Every
composite that is not a cardinality restriction is covered, so every axiom. -/
theorem C07_with_annotations (t t' : OType) (b b' : Bool) (fs gs : List Obj) (u v : Nat)
    (ht : t.isAxiom = true) :
    axiomEquals (.comp t b fs u) (.comp t' b' gs v) true =
      (Obj.comp t b fs u).equals (.comp t' b' gs v) := by
  have hc : t.flags.card = false := by revert ht; cases t <;> decide
  simp only [axiomEquals, Obj.equals, Obj.eqv, hc, Bool.true_and]
  by_cases h : t = t'
  · subst h
    by_cases hb : b = b'
    · subst hb; simp
    · have hn : nFields t b ≠ nFields t b' := by
        cases b <;> cases b' <;> simp_all [nFields]
      simp [hb, hn]
  · simp [h]

/-- C07, second half: without annotations, two well-formed axioms are equal iff they
have the same type and operands that are pairwise `cowl_equals`; annotations
(`xs`, `ys`, possibly absent) play no role. -/
theorem C07_without_annotations (t t' : OType) (ops ops' : List Obj)
    (ann ann' : Option (Bool × List Obj)) (ht : ops.length = t.fieldCount)
    (ht' : ops'.length = t'.fieldCount) :
    axiomEquals (getImplAnnot t ops ann) (getImplAnnot t' ops' ann') false = true ↔
      t = t' ∧ ops.length = ops'.length ∧
        ∀ (i : Nat) (x y : Obj), ops[i]? = some x → ops'[i]? = some y → x.equals y = true := by
  have shape : ∀ (t : OType) (ops : List Obj) (ann : Option (Bool × List Obj)),
      ∃ bit ext, getImplAnnot t ops ann = .comp t bit (ops ++ ext) 0 := by
    intro t ops ann
    match ann with
    | none => exact ⟨false, [], by simp [getImplAnnot, getImpl]⟩
    | some (o, xs) =>
      by_cases h : xs.length = 0
      · exact ⟨false, [], by simp [getImplAnnot, getImpl, h]⟩
      · exact ⟨true, [.vec o xs], by simp only [getImplAnnot, getImpl, h, if_false]⟩
  obtain ⟨bit, ext, e⟩ := shape t ops ann
  obtain ⟨bit', ext', e'⟩ := shape t' ops' ann'
  rw [e, e']
  have key : ∀ (as bs cs ds : List Obj), as.length = bs.length →
      (eqvPrefix false as.length (as ++ cs) (bs ++ ds) = true ↔
        ∀ (i : Nat) (x y : Obj), as[i]? = some x → bs[i]? = some y → x.equals y = true) := by
    intro as
    induction as with
    | nil => intro bs cs ds h; simp [eqvPrefix_zero]
    | cons a as ih =>
      intro bs cs ds h
      cases bs with
      | nil => simp at h
      | cons b bs =>
        simp only [List.length_cons, List.cons_append, eqvPrefix_cons, Bool.and_eq_true]
        rw [ih bs cs ds (by simpa using h)]
        constructor
        · rintro ⟨h1, h2⟩ i x y hx hy
          cases i with
          | zero => simp at hx hy; subst hx hy; exact h1
          | succ i => simp at hx hy; exact h2 i x y hx hy
        · intro h
          exact ⟨h 0 a b (by simp) (by simp), fun i x y hx hy => h (i + 1) x y (by simpa) (by simpa)⟩
  simp only [axiomEquals, Bool.false_and]
  by_cases h : t = t'
  · subst h
    simp only [bne_self_eq_false, Bool.false_eq_true, if_false, true_and]
    have hn : nFields t false = ops.length := by simp [nFields, ht]
    rw [hn, key ops ops' ext ext' (by omega)]
    simp [ht, ht']
  · simp [h]

/-- Two annotated subclass axioms that differ in annotations only. -/
example :
    let ann (s : String) := Obj.comp .annotation false [.prim (.ent .annotProp (sampleIri "c")),
      .lit (ascii s) (.lang (ascii "en"))] 0
    let ax (s : String) := getImplAnnot .aSubClass [sampleCls "A", sampleCls "B"]
      (some (false, [ann s]))
    axiomEquals (ax "x") (ax "y") false = true ∧ axiomEquals (ax "x") (ax "y") true = false := by
  decide +kernel

end Cowl
