import Verif.ApiLemmas
/-! # C76: constructors and accessors -/
namespace Cowl
open Api Ast

/-! ## A sample -/

/-- `SubClassOf(Annotation(:n "x") ObjectIntersectionOf(:A ObjectMinCardinality(2 ObjectInverseOf(:p)
:B)) ObjectSomeValuesFrom(:q owl:Thing))`, built and taken apart. -/
def apiSample : Axiom :=
  let i (s : String) : Iri := ⟨ascii "http://e#", ascii s⟩
  ⟨.subClass (.inter [.cls (i "A"), .objCardQ .min 2 (.inv (i "p")) (.cls (i "B"))])
      (.objSome (.prop (i "q")) (.cls owlThing)),
    [.mk (i "n") (.lit ⟨ascii "x", .dt xsdString⟩) []]⟩

/-! ## C76 -/

/-- C76. The constructors of axioms do not fail for lack of a valid type, and yield the object that
stands for the construct (`Ast.Axiom.toObj`). -/
theorem C76_build (a : Axiom) : a.build = some a.toObj := by
  rw [Axiom.build, Annot.buildAll_eq, Ax.build_eq]; rfl

/-- C76. What an axiom was built from is got back from it. -/
theorem C76_axioms (a : Axiom) :
    ∃ o, a.build = some o ∧ ∃ m, ∀ n, m ≤ n → readAxiom n o = some a :=
  ⟨_, C76_build a, readAxiom_eq a⟩

example : ∃ o, apiSample.build = some o ∧ o.otype = .aSubClass ∧ (readAxiom 4 o).isSome :=
  ⟨_, C76_build _, rfl, rfl⟩

/-- C76. The same for class expressions. -/
theorem C76_classes (c : CE) :
    ∃ o, c.build = some o ∧ o = c.toObj ∧ ∃ m, ∀ n, m ≤ n → readCE n o = some c :=
  ⟨_, c.build_eq, rfl, readCE_eq c⟩

/-- C76. The same for data ranges. -/
theorem C76_ranges (d : DR) :
    ∃ o, d.build = some o ∧ o = d.toObj ∧ ∃ m, ∀ n, m ≤ n → readDR n o = some d :=
  ⟨_, d.build_eq, rfl, readDR_eq d⟩

/-- C76. The same for annotations. -/
theorem C76_annotations (a : Annot) :
    a.build = a.toObj ∧ ∃ m, ∀ n, m ≤ n → readAnnot n a.build = some a := by
  rw [a.build_eq]; exact ⟨rfl, readAnnot_eq a⟩

/-- C76. Different axioms are different objects. -/
theorem C76_injective (a b : Axiom) (h : a.build = b.build) : a = b := by
  rw [C76_build, C76_build] at h
  obtain ⟨m, ha⟩ := readAxiom_eq a
  obtain ⟨k, hb⟩ := readAxiom_eq b
  have ea := ha (max m k) (by omega)
  rw [Option.some.inj h, hb _ (by omega)] at ea
  exact (Option.some.inj ea).symm

/-- C76. No annotations and an empty vector of them are the same. -/
theorem C76_no_annotations (a : Ax) (b : Bool) : a.build none = a.build (some (b, [])) := by
  cases a with
  | subObjProp p q => cases p <;> rfl
  | objPropChar k p => cases k <;> rfl
  | _ => rfl

/-- C76. `cowl_get_annot` yields the annotations of an axiom, or NULL if there are none. -/
theorem C76_get_annot (a : Axiom) :
    getAnnot a.toObj = some (if a.annots = [] then none else some (.vec false (Annot.toObjs a.annots))) := by
  have ht : a.toObj.otype = a.ax.type := otype_of _ _ _
  have hx : a.ax.type.isAxiom = true := by
    cases a.ax with
    | objPropChar k _ => cases k <;> rfl
    | _ => rfl
  rw [getAnnot, ht, if_pos hx, axiomGetAnnot, Axiom.toObj, annots_of _ _ _ a.ax.fields_length]
  cases a.annots <;> simp [Annot.toObjs]

/-- C76. Objects bear the names of their constructs. -/
theorem C76_names (a : Axiom) (c : CE) (d : DR) :
    a.toObj.otype.name = a.ax.keyword ∧ c.toObj.otype.name = c.keyword ∧
    d.toObj.otype.name = d.keyword := by
  refine ⟨?_, ?_, ?_⟩
  · rw [show a.toObj.otype = a.ax.type from otype_of _ _ _]
    cases a.ax with
    | objPropChar k _ => cases k <;> rfl
    | _ => rfl
  · cases c with
    | objSome | objAll | dataSome | dataAll => rw [CE.toObj]; split <;> rfl
    | objCard k | objCardQ k | dataCard k | dataCardQ k => cases k <;> rfl
    | _ => rfl
  · cases d <;> rfl

/-- C76. The predicates on categories of constructs hold of the constructs of the category only. -/
theorem C76_categories (a : Axiom) (c : CE) (d : DR) (p : Ope) (i : Iri) (x : Ind) (l : Lit) :
    categories a.toObj = [true, false, false, false, false, false] ∧
    categories c.toObj = [false, true, false, false, false, false] ∧
    categories d.toObj = [false, false, true, false, false, false] ∧
    categories p.toObj = [false, false, false, true, false, false] ∧
    categories (ent .dataProp i) = [false, false, false, false, true, false] ∧
    categories x.toObj = [false, false, false, false, false, true] ∧
    categories l.toObj = [false, false, false, false, false, false] ∧
    categories (.prim (.iri i)) = [false, false, false, false, false, false] ∧
    categories (ent .annotProp i) = [false, false, false, false, false, false] := by
  refine ⟨?_, ?_, ?_, ?_, rfl, ?_, rfl, rfl, rfl⟩
  · unfold categories isDataPropExp
    rw [show a.toObj.otype = a.ax.type from otype_of _ _ _]
    cases a.ax with
    | objPropChar k _ => cases k <;> rfl
    | _ => rfl
  · cases c with
    | objSome | objAll | dataSome | dataAll => rw [CE.toObj]; split <;> rfl
    | objCard k | objCardQ k | dataCard k | dataCardQ k => cases k <;> rfl
    | _ => rfl
  · cases d <;> rfl
  · cases p <;> rfl
  · cases x <;> rfl

/-- C76. Primitives and entities: which objects are, and of which type they are. -/
theorem C76_primitives (o : Obj) : (isPrimitive o = true → ∃ p : Prim, o.otype = p.otype) ∧
    (∀ p : Prim, o = .prim p → isPrimitive o = true ∧ (isEntity o = true ↔ ∃ k i, p = .ent k i) ∧
      PT.values[primitiveGetType o]? = some (match p with
        | .iri _ => .iri
        | .anon _ => .anonInd
        | .ent .cls _ => .cls
        | .ent .datatype _ => .datatype
        | .ent .objProp _ => .objProp
        | .ent .dataProp _ => .dataProp
        | .ent .annotProp _ => .annotProp
        | .ent .namedInd _ => .namedInd)) := by
  constructor
  · intro h
    have i : Iri := ⟨[], []⟩
    unfold isPrimitive at h
    revert h
    cases o.otype <;> intro h <;> first
      | exact ⟨.iri i, rfl⟩
      | exact ⟨.anon [], rfl⟩
      | exact ⟨.ent .cls i, rfl⟩
      | exact ⟨.ent .datatype i, rfl⟩
      | exact ⟨.ent .objProp i, rfl⟩
      | exact ⟨.ent .dataProp i, rfl⟩
      | exact ⟨.ent .annotProp i, rfl⟩
      | exact ⟨.ent .namedInd i, rfl⟩
      | cases h
  · rintro p rfl
    cases p with
    | iri i => exact ⟨rfl, ⟨nofun, nofun⟩, rfl⟩
    | anon i => exact ⟨rfl, ⟨nofun, nofun⟩, rfl⟩
    | ent k i => cases k <;> exact ⟨rfl, ⟨fun _ => ⟨_, _, rfl⟩, fun _ => rfl⟩, rfl⟩

/-- C76. Constructors that are told the type of the construct by a number: a number that is one of
the enumeration is the one that the accessor yields, with any other nothing is made. -/
theorem C76_numbers (v : Nat) (o : Obj) (f : Option Obj) (xs : Vec) (as : Option Vec) (n : Nat) :
    (if v < 2 then ∃ r, naryCls v xs = some r ∧ naryClsGetType r = some v ∧ naryClsGetOperands r = some xs
      else naryCls v xs = none) ∧
    (if v < 2 then ∃ r, naryData v xs = some r ∧ naryDataGetType r = some v ∧ naryDataGetOperands r = some xs
      else naryData v xs = none) ∧
    (if v < 2 then ∃ r, naryClsAxiom v xs as = some r ∧ naryClsAxiomGetType r = some v
      else naryClsAxiom v xs as = none) ∧
    (if v < 2 then ∃ r, naryObjPropAxiom v xs as = some r ∧ naryObjPropAxiomGetType r = some v
      else naryObjPropAxiom v xs as = none) ∧
    (if v < 2 then ∃ r, naryDataPropAxiom v xs as = some r ∧ naryDataPropAxiomGetType r = some v
      else naryDataPropAxiom v xs as = none) ∧
    (if v < 2 then ∃ r, naryIndAxiom v xs as = some r ∧ naryIndAxiomGetType r = some v
      else naryIndAxiom v xs as = none) ∧
    (if v < 7 then ∃ r, objPropCharAxiom v o as = some r ∧ objPropCharAxiomGetType r = some v
      else objPropCharAxiom v o as = none) ∧
    (if v < 2 then ∃ r, Api.objQuant v o f = some r ∧ objQuantGetType r = some v
      else Api.objQuant v o f = none) ∧
    (if v < 2 then ∃ r, Api.dataQuant v o f = some r ∧ dataQuantGetType r = some v
      else Api.dataQuant v o f = none) ∧
    (if v < 3 then ∃ r, Api.objCard v o f n = some r ∧ objCardGetType r = some v ∧
        objCardGetCardinality r = some n ∧ objCardGetFiller r = some f ∧ objCardIsQualified r = f.isSome
      else Api.objCard v o f n = none) ∧
    (if v < 3 then ∃ r, Api.dataCard v o f n = some r ∧ dataCardGetType r = some v ∧
        dataCardGetCardinality r = some n ∧ dataCardGetRange r = some f ∧ dataCardIsQualified r = f.isSome
      else Api.dataCard v o f n = none) := by
  have hi : ∀ t fs x, (getImpl t fs x).otype = t := fun t fs x => by cases x <;> rfl
  have hu : ∀ t fs n x, (getImplUint t fs n x).otype = t := fun t fs n x => by cases x <;> rfl
  have ha : ∀ t fs x, (getImplAnnot t fs x).otype = t := fun t fs x => by
    rcases x with _ | ⟨b, _ | _⟩ <;> rfl
  have lt2 : v < 2 → v = 0 ∨ v = 1 := fun h => by omega
  have lt3 : v < 3 → v = 0 ∨ v = 1 ∨ v = 2 := fun h => by omega
  refine ⟨?_, ?_, ?_, ?_, ?_, ?_, ?_, ?_, ?_, ?_, ?_⟩
  · split
    · rcases lt2 ‹_› with rfl | rfl <;> exact ⟨_, rfl, rfl, rfl⟩
    · simp [naryCls, enumType, *]
  · split
    · rcases lt2 ‹_› with rfl | rfl <;> exact ⟨_, rfl, rfl, rfl⟩
    · simp [naryData, enumType, *]
  · split
    · rcases lt2 ‹_› with rfl | rfl <;>
        exact ⟨_, rfl, by rw [naryClsAxiomGetType, typeFrom, ha]; rfl⟩
    · simp [naryClsAxiom, enumType, *]
  · split
    · rcases lt2 ‹_› with rfl | rfl <;>
        exact ⟨_, rfl, by rw [naryObjPropAxiomGetType, typeFrom, ha]; rfl⟩
    · simp [naryObjPropAxiom, enumType, *]
  · split
    · rcases lt2 ‹_› with rfl | rfl <;>
        exact ⟨_, rfl, by rw [naryDataPropAxiomGetType, typeFrom, ha]; rfl⟩
    · simp [naryDataPropAxiom, enumType, *]
  · split
    · rcases lt2 ‹_› with rfl | rfl <;>
        exact ⟨_, rfl, by rw [naryIndAxiomGetType, typeFrom, ha]; rfl⟩
    · simp [naryIndAxiom, enumType, *]
  · split
    · have : v = 0 ∨ v = 1 ∨ v = 2 ∨ v = 3 ∨ v = 4 ∨ v = 5 ∨ v = 6 := by omega
      rcases this with rfl | rfl | rfl | rfl | rfl | rfl | rfl <;>
        exact ⟨_, rfl, by rw [objPropCharAxiomGetType, typeFrom, ha]; rfl⟩
    · simp [objPropCharAxiom, enumType, *]
  · split
    · rcases lt2 ‹_› with rfl | rfl <;>
        exact ⟨_, rfl, by rw [objQuantGetType, typeFrom, hi]; rfl⟩
    · simp [Api.objQuant, enumType, *]
  · split
    · rcases lt2 ‹_› with rfl | rfl <;>
        exact ⟨_, rfl, by rw [dataQuantGetType, typeFrom, hi]; rfl⟩
    · simp [Api.dataQuant, enumType, *]
  · split
    · rcases lt3 ‹_› with rfl | rfl | rfl <;> cases f <;> exact ⟨_, rfl, rfl, rfl, rfl, rfl⟩
    · simp [Api.objCard, enumType, *]
  · split
    · rcases lt3 ‹_› with rfl | rfl | rfl <;> cases f <;> exact ⟨_, rfl, rfl, rfl, rfl, rfl⟩
    · simp [Api.dataCard, enumType, *]

/-- C76. The macros that take the operands one by one make the same as the functions that take a
vector: `cowl_obj_intersect_of` and so on. -/
theorem C76_macros (xs : List Obj) :
    some (naryGetImpl .ceObjIntersect xs) = objIntersect (false, xs) ∧
    some (naryGetImpl .ceObjUnion xs) = objUnion (false, xs) ∧
    some (naryGetImpl .drDataIntersect xs) = dataIntersect (false, xs) ∧
    some (naryGetImpl .drDataUnion xs) = dataUnion (false, xs) ∧
    some (naryGetImpl .aEquivClasses xs) = equivClsAxiom (false, xs) none ∧
    some (naryGetImpl .aDisjClasses xs) = disjClsAxiom (false, xs) none ∧
    some (naryGetImpl .aEquivObjProp xs) = equivObjPropAxiom (false, xs) none ∧
    some (naryGetImpl .aDisjObjProp xs) = disjObjPropAxiom (false, xs) none ∧
    some (naryGetImpl .aEquivDataProp xs) = equivDataPropAxiom (false, xs) none ∧
    some (naryGetImpl .aDisjDataProp xs) = disjDataPropAxiom (false, xs) none ∧
    some (naryGetImpl .aSameInd xs) = sameIndAxiom (false, xs) none ∧
    some (naryGetImpl .aDiffInd xs) = diffIndAxiom (false, xs) none :=
  ⟨rfl, rfl, rfl, rfl, rfl, rfl, rfl, rfl, rfl, rfl, rfl, rfl⟩

/-- C76. Deprecated names do what those that replace them do. -/
theorem C76_deprecated (v : Nat) (xs : Vec) (o : Obj) :
    naryBool v xs = naryCls v xs ∧ naryBoolGetType o = naryClsGetType o ∧
    naryBoolGetOperands o = naryClsGetOperands o ∧ objHasValueGetInd o = objHasValueGetValue o ∧
    dataPropAssertAxiomGetObject o = dataPropAssertAxiomGetValue o :=
  ⟨rfl, rfl, rfl, rfl, rfl⟩

/-- C76. A key without one of its vectors is a key with an empty one. -/
theorem C76_keys (c : Obj) (xs ys : Option Vec) (as : Option Vec) :
    hasKeyAxiomGetClsExp (hasKeyAxiom c xs ys as) = some c ∧
    hasKeyAxiomGetObjProps (hasKeyAxiom c xs ys as) = some (xs.getD (false, [])) ∧
    hasKeyAxiomGetDataProps (hasKeyAxiom c xs ys as) = some (ys.getD (false, [])) := by
  rcases as with _ | ⟨b, _ | _⟩ <;> exact ⟨rfl, rfl, rfl⟩

end Cowl
