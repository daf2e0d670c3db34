import Verif.ConvertProps
import Verif.PrtStreamProps
/-!
# The tests of cowl, run on the model

What the tests under `/repo/test/src` assert, asserted of the model. Those without files are theorems, checked when this
module is built. Those with files (`/repo/data`) are far too long for the kernel; `report` computes what they compare, and is
meant to be run:

    printf 'import Verif.RepoTests\ndef main := Cowl.RepoTests.report' > /tmp/r.lean
    lake env lean --run /tmp/r.lean /repo/data/test_import.owl /repo/data/test_onto.owl

Nothing of cowl is run. The expected numbers are those of `cowl_ontology_tests.c:26-71`.
-/
namespace Cowl.RepoTests
open Cowl.Prefix Cowl.Func Cowl.Change Cowl.Ast Cowl.Prt

/-! ## `cowl_iri_tests.c` -/

/-- `cowl_iri_tests.c:14-15`. -/
def iriNs : Str := ascii "http://site.com/ontology.owl#"
/-- `cowl_iri_tests.c:14-15`. -/
def iriRem : Str := ascii "remainder"

/-- `cowl_test_iri_get_ns` and `cowl_test_iri_get_rem`, `cowl_iri_tests.c:24-56`. -/
theorem iri_ns_rem :
    iriFromString (iriNs ++ iriRem) = some (iriNs, iriRem) ∧ iriFromString iriRem = some ([], iriRem) ∧
    iriFromString iriNs = some (iriNs, []) := by
  refine ⟨?_, ?_, ?_⟩ <;> decide +kernel

/-- `cowl_test_iri_equals`, `cowl_iri_tests.c:58-86`. -/
theorem iri_equals :
    (∀ x ∈ [(iriNs, iriRem), ([], iriNs ++ iriRem), (iriNs ++ iriRem, []),
        (ascii "http://site.com/onto", ascii "logy.owl#remainder"), (ascii "http://site.com/ontology.owl#rem", ascii "ainder")],
      some (iriOfParts x.1 x.2) = iriFromString (iriNs ++ iriRem)) ∧
    iriFromString (iriNs ++ iriRem ++ ascii "_2") ≠ iriFromString (iriNs ++ iriRem) := by
  refine ⟨?_, ?_⟩ <;> decide +kernel

/-! ## `cowl_axiom_tests.c` -/

/-- A name of these tests, `cowl_axiom_tests.c:15`. -/
def name (s : String) : Iri := ⟨ascii "http://test.org/axiom#", ascii s⟩

/-- `cowl_axiom_tests.c:18`. -/
def clsA : Obj := .prim (.ent .cls (name "A"))
/-- `cowl_axiom_tests.c:19`. -/
def clsB : Obj := .prim (.ent .cls (name "B"))
/-- `cowl_axiom_tests.c:50`. -/
def propP : Obj := .prim (.ent .objProp (name "p"))
/-- `cowl_axiom_tests.c:51`. -/
def propQ : Obj := .prim (.ent .objProp (name "q"))
/-- `cowl_axiom_tests.c:52`. -/
def propR : Obj := .prim (.ent .dataProp (name "r"))
/-- `cowl_axiom_tests.c:54`. -/
def indS : Obj := .prim (.ent .namedInd (name "s"))
/-- `cowl_axiom_tests.c:55`. -/
def indO : Obj := .prim (.ent .namedInd (name "o"))

/-- `cowl_decl_axiom`, as in `cowl_axiom_tests.c:20-22`, `36`. -/
def declOf (x : Obj) (annots : List Obj) : Obj := annotated .aDecl [x] annots
/-- `cowl_sub_cls_axiom`, as in `cowl_axiom_tests.c:23`. -/
def subAx : Obj := .comp .aSubClass false [clsA, clsB] 0
/-- `cowl_axiom_tests.c:32-34`. -/
def annotation : Obj := .comp .annotation false [.prim (.ent .annotProp (name "annot")), .lit (ascii "annot-value") (.dt xsdString)] 0
/-- `cowl_axiom_tests.c:58`, `123`. -/
def assertAx (i j : Obj) : Obj := .comp .aObjPropAssert false [propP, i, j] 0
/-- `cowl_axiom_tests.c:60-62`. -/
def keyAx : Obj := .comp .aHasKey false [clsA, .vec false [propP, propQ], .vec false [propR]] 0

/-- `cowl_test_axiom_equals`, `cowl_axiom_tests.c:17-44`. -/
theorem axiom_equals :
    (declOf clsA []).equals (declOf clsA []) = true ∧ axiomEquals (declOf clsA []) (declOf clsA []) true = true ∧
    (declOf clsA []).equals (declOf clsB []) = false ∧ axiomEquals (declOf clsA []) (declOf clsB []) true = false ∧
    (declOf clsA []).equals subAx = false ∧ axiomEquals (declOf clsA []) subAx true = false ∧
    (declOf clsA []).equals (declOf clsA [annotation]) = false ∧
    axiomEquals (declOf clsA []) (declOf clsA [annotation]) false = true ∧
    axiomEquals (declOf clsA []) (declOf clsA [annotation]) true = false := by
  refine ⟨?_, ?_, ?_, ?_, ?_, ?_, ?_, ?_, ?_⟩ <;> decide +kernel

/-- Number of operands at a position, with `cowl_iterator_count`. -/
def countAt (x : Obj) (pos : BitVec 8) : Nat × Ret := iterOperands x pos (fun n _ => (n + 1, .ok)) 0

/-- `cowl_test_axiom_operands`, `cowl_axiom_tests.c:46-114`. -/
theorem axiom_operands :
    hasOperand subAx clsA psLeft = true ∧ hasOperand subAx clsB psRight = true ∧
    hasOperand subAx clsA psRight = false ∧ hasOperand subAx clsB psLeft = false ∧
    hasOperand keyAx propP psMiddle = true ∧ hasOperand keyAx propQ psMiddle = true ∧
    hasOperand keyAx clsA psLeft = true ∧ hasOperand keyAx propR psRight = true ∧
    hasOperand keyAx clsA psMiddle = false ∧ hasOperand keyAx propR psLeft = false ∧
    hasOperandWithIri (assertAx indS indO) (name "p") psLeft = true ∧
    hasOperandWithIri (assertAx indS indO) (name "s") psMiddle = true ∧
    hasOperandWithIri (assertAx indS indO) (name "o") psRight = true ∧
    hasOperandWithIri (assertAx indS indO) (name "p") psRight = false ∧
    hasOperandWithIri (assertAx indS indO) (name "A") psAny = false ∧
    countAt keyAx psAny = (4, .ok) ∧ countAt keyAx psLeft = (1, .ok) ∧ countAt keyAx psMiddle = (2, .ok) ∧
    countAt keyAx psRight = (1, .ok) ∧ (iterOperands keyAx psMiddle (containsCb propQ) ()).2 = .no ∧
    (iterOperands keyAx psRight (containsCb propQ) ()).2 = .ok := by
  refine ⟨?_, ?_, ?_, ?_, ?_, ?_, ?_, ?_, ?_, ?_, ?_, ?_, ?_, ?_, ?_, ?_, ?_, ?_, ?_, ?_, ?_⟩ <;> decide +kernel

/-- `cowl_test_axiom_primitives`, `cowl_axiom_tests.c:116-137`. -/
theorem axiom_primitives :
    axiomHasPrimitive subAx (.ent .cls (name "A")) psLeft = true ∧ axiomHasPrimitive subAx (.ent .cls (name "B")) psRight = true ∧
    axiomHasPrimitive subAx (.ent .cls (name "A")) psRight = false ∧ axiomHasPrimitive subAx (.ent .cls (name "B")) psLeft = false ∧
    axiomHasPrimitive (assertAx indS indS) (.ent .objProp (name "p")) psLeft = true ∧
    axiomHasPrimitive (assertAx indS indS) (.ent .namedInd (name "s")) psMiddle = true ∧
    axiomHasPrimitive (assertAx indS indS) (.ent .namedInd (name "s")) psRight = true ∧
    axiomHasPrimitive (assertAx indS indS) (.ent .objProp (name "p")) psRight = false ∧
    axiomHasPrimitive (assertAx indS indS) (.ent .cls (name "A")) psAny = false := by
  refine ⟨?_, ?_, ?_, ?_, ?_, ?_, ?_, ?_, ?_⟩ <;> decide +kernel

/-! ## `cowl_ontology_tests.c` -/

/-- The filter, `cowl_ontology_tests.c:275-278`. -/
def editFilter : Filter := (Filter.mk (Masks.fromType 64 0 ||| Masks.fromType 64 1) [] (some fun x => hasOperand x.obj clsA psAny)).addPrimitive (.ent .cls (name "A"))

/-- `cowl_test_ontology_edit`, `cowl_ontology_tests.c:242-284`: the number of axioms after each step, and whether the axiom
is there. -/
def edit : Option (List (Nat × Bool) × List Nat) := do
  let o1 := Onto.empty.addAxiom ⟨1, declOf clsA []⟩
  let o2 := o1.addAxiom ⟨2, declOf clsB []⟩
  let o3 := o2.addAxiom ⟨3, subAx⟩
  let (o4, b) ← o3.removeAxiom ⟨3, subAx⟩
  let o5 := o4.addAxiom ⟨3, subAx⟩
  let (o6, n) ← o5.removeAxiomsMatching editFilter
  some ([(Onto.empty.axiomCount.toNat, true), (o1.axiomCount.toNat, o1.hasAxiom (declOf clsA [])),
    (o2.axiomCount.toNat, o2.hasAxiom (declOf clsB [])), (o3.axiomCount.toNat, o3.hasAxiom subAx),
    (o4.axiomCount.toNat, b && !o4.hasAxiom subAx)], [n.toNat, o6.axiomCount.toNat])

theorem ontology_edit : edit = some ([(0, true), (1, true), (2, true), (3, true), (2, true)], [2, 1]) := by decide +kernel

/-- `cowl_test_ontology_init`, `cowl_ontology_tests.c:80-92`: the ontology read from one file, then from another one. -/
def loadBoth (imp txt : Str) : OntoSt × List Outcome :=
  let r := readNew [] imp
  let q := funcRead ontoHandler (create [0, 1, 2, 3] []) 100000 txt (r.1, 200000)
  (q.1.1, [r.2, q.2])

/-- A name of these tests, `cowl_ontology_tests.c:15`. -/
def ontoName (s : String) : Iri :=
  match iriFromString (ascii ("http://visualdataweb.de/ontobench/ontology/1/" ++ s)) with
  | some x => ⟨x.1, x.2⟩
  | none => ⟨[], []⟩

/-- The primitives of these tests with and without an addition to the name, `cowl_ontology_tests.c:16-22`. -/
def ontoPrims (e : String) : List Prim :=
  [.ent .cls (ontoName ("Class1" ++ e)), .ent .datatype (ontoName ("DataUnionOf_Datatype1" ++ e)),
   .ent .objProp (ontoName ("equivalentObjectProperty_1" ++ e)), .ent .dataProp (ontoName ("equivalentDataProperty_1" ++ e)),
   .ent .annotProp (ontoName ("customAnnotationProperty" ++ e)), .ent .namedInd (ontoName ("AllDifferent_Individual1" ++ e)),
   .iri (ontoName ("ClassWithInfos" ++ e))]

/-- `generate_datatype_def`, `cowl_ontology_tests.c:211-221`. -/
def oneOfDef (vs : List String) : Obj :=
  (Axiom.mk (.datatypeDef (ontoName "DataOneOf") (.oneOf (vs.map fun v => ⟨ascii v, .dt xsdString⟩))) []).toObj

/-- What `cowl_ontology_tests.c:98-236` compares, with whether it is as expected. -/
def ontologyTests (imp txt : Str) : List (String × Bool) :=
  let (s, outcomes) := loadBoth imp txt
  let o := s.onto
  let byType : List (Nat × Nat) :=
    [(0, 264), (1, 35), (2, 4), (3, 4), (4, 1), (5, 2), (6, 2), (7, 2), (8, 1), (9, 39), (10, 39), (11, 1), (12, 1), (13, 1), (14, 1),
     (15, 1), (16, 1), (17, 1), (18, 1), (19, 1), (20, 2), (21, 66), (22, 66), (23, 1), (24, 2), (25, 3), (26, 1), (27, 1), (28, 2), (29, 1),
     (30, 1), (31, 10), (32, 1), (33, 19), (34, 1), (35, 1), (36, 1)]
  [("read", outcomes == [.ok, .ok]),
   ("iri", s.iri == some (ontoName "") && s.version == none),
   ("axiom_count", o.axiomCount == 581#32),
   ("imports_count", o.importCount == 2#32),
   ("axiom_count_for_type", byType.all fun e => o.axiomCountForType e.1 == BitVec.ofNat 32 e.2),
   ("axiom_count_for_types", o.axiomCountForTypes (Masks.fromType 64 1 ||| Masks.fromType 64 29 ||| Masks.fromType 64 33) == 55#32 &&
      o.axiomCountForTypes Masks.afAll == 581#32),
   ("primitive_count", (List.range 8).map (fun i => (o.primitiveCount (BitVec.ofNat 8 (2 ^ i))).toNat) == [105, 43, 48, 72, 25, 18, 1, 12]),
   ("axiom_count_for_primitive", (ontoPrims "").map (fun p => (o.axiomCountForPrimitive p).toNat) == [16, 2, 4, 4, 2, 2, 8] &&
      ((o.idx.map Prod.fst).filter (fun p => p.bit == 6)).map (fun p => (o.axiomCountForPrimitive p).toNat) == [1]),
   ("has_primitive", (ontoPrims "").all o.hasPrimitive && !(ontoPrims "_not_present").any o.hasPrimitive),
   ("has_axiom", o.hasAxiom (oneOfDef ["DataOneOf_Literal3", "DataOneOf_Literal2", "DataOneOf_Literal1"]) &&
      !o.hasAxiom (oneOfDef ["DataOneOf_Literal4", "DataOneOf_Literal2", "DataOneOf_Literal1"]))]

/-! ## `cowl_formats_tests.c` -/

/-- `diff_ontologies` finds nothing, `cowl_formats_tests.c:21-100`. -/
def within (a b : OntoSt) : Bool :=
  a.iri == b.iri && a.version == b.version && (a.onto.annot.getD []).all (fun x => (b.onto.annot.getD []).any fun y => y.obj.equals x.obj) &&
  (a.onto.imports.getD []).all (fun x => (b.onto.imports.getD []).any fun y => y.obj.equals x.obj) &&
  (axiomsOf a.onto).all (fun x => (axiomsOf b.onto).any fun y => y.obj.equals x.obj)

/-- `ontologies_differ`, `cowl_formats_tests.c:102-108`, negated. -/
def agree (a b : OntoSt) : Bool := within a b && within b a

/-- The bytes are read to the end, into an ontology like this one. -/
def prtAgree (o : OntoSt) (b : Str) : Bool :=
  match prtRead lebEnv changeHandler b (some (OntoSt.new [0, 1, 2, 3] [], 200000)) with
  | (some (o', _), .done) => agree o o'
  | _ => false

/-- `cowl_test_formats`, `cowl_formats_tests.c:125-191`: functional syntax, ProtocOWL, ProtocOWL with an index of 32. -/
def formatTests (txt : Str) : List (String × Bool) :=
  let (o, e) := readNew [] txt
  [("read", e == .ok),
   ("functional", match writeDoc o with
      | some t => (readNew [] t).2 == .ok && agree o (readNew [] t).1
      | none => false),
   ("protocowl", prtAgree o (writeOntology leb true id o 1000000000).1),
   ("protocowl (stream)", match writeBounded leb true 32 o with
      | some b => prtAgree o b
      | none => false)]

/-- Runs the tests with the files of these names: what is imported, and the ontology. -/
def report (files : List String) : IO Unit := do
  match files with
  | [imp, txt] =>
    let imp := (← IO.FS.readBinFile imp).toList
    let txt := (← IO.FS.readBinFile txt).toList
    for r in ontologyTests imp txt do IO.println s!"{r.1}: {r.2}"
    for t in [imp, txt] do
      for r in formatTests t do IO.println s!"{r.1}: {r.2}"
  | _ => IO.println "give two files"

end Cowl.RepoTests
