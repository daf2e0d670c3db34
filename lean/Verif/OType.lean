import Verif.Xml
/-!
# Object types

Models `include/cowl_object_type.h`, `src/cowl_object_type.c` and the type
attribute table of `src/cowl_object.c`.
-/
namespace Cowl

/-- `CowlObjectType`, `include/cowl_object_type.h:27-278`, in declaration order
(constructor `aSubClass` is `COWL_OT_A_SUB_CLASS`, and so on). -/
inductive OType where
  | string | vector | table | iri | literal
  | facetRestr | ontology | prefixMap | reader | writer
  | annotation | annotProp | aDecl | aSubClass | aEquivClasses
  | aDisjClasses | aDisjUnion | aSubObjProp | aEquivObjProp | aDisjObjProp
  | aInvObjProp | aObjPropDomain | aObjPropRange | aFuncObjProp | aInvFuncObjProp
  | aReflObjProp | aIrreflObjProp | aSymmObjProp | aAsymmObjProp | aTransObjProp
  | aSubDataProp | aEquivDataProp | aDisjDataProp | aDataPropDomain | aDataPropRange
  | aFuncDataProp | aDatatypeDef | aHasKey | aSameInd | aDiffInd
  | aClassAssert | aObjPropAssert | aNegObjPropAssert | aDataPropAssert | aNegDataPropAssert
  | aAnnotAssert | aSubAnnotProp | aAnnotPropDomain | aAnnotPropRange | ceClass
  | ceObjIntersect | ceObjUnion | ceObjCompl | ceObjOneOf | ceObjSome
  | ceObjAll | ceObjHasValue | ceObjHasSelf | ceObjMinCard | ceObjMaxCard
  | ceObjExactCard | ceDataSome | ceDataAll | ceDataHasValue | ceDataMinCard
  | ceDataMaxCard | ceDataExactCard | drDatatype | drDataIntersect | drDataUnion
  | drDataCompl | drDataOneOf | drDatatypeRestr | opeObjProp | opeInvObjProp
  | dpeDataProp | iNamed | iAnonymous
  deriving DecidableEq, Repr

/-- All object types in the order of their numeric values,
`include/cowl_object_type.h:27-278`. -/
def OType.all : List OType := [
  .string, .vector, .table, .iri, .literal,
  .facetRestr, .ontology, .prefixMap, .reader, .writer,
  .annotation, .annotProp, .aDecl, .aSubClass, .aEquivClasses,
  .aDisjClasses, .aDisjUnion, .aSubObjProp, .aEquivObjProp, .aDisjObjProp,
  .aInvObjProp, .aObjPropDomain, .aObjPropRange, .aFuncObjProp, .aInvFuncObjProp,
  .aReflObjProp, .aIrreflObjProp, .aSymmObjProp, .aAsymmObjProp, .aTransObjProp,
  .aSubDataProp, .aEquivDataProp, .aDisjDataProp, .aDataPropDomain, .aDataPropRange,
  .aFuncDataProp, .aDatatypeDef, .aHasKey, .aSameInd, .aDiffInd,
  .aClassAssert, .aObjPropAssert, .aNegObjPropAssert, .aDataPropAssert, .aNegDataPropAssert,
  .aAnnotAssert, .aSubAnnotProp, .aAnnotPropDomain, .aAnnotPropRange, .ceClass,
  .ceObjIntersect, .ceObjUnion, .ceObjCompl, .ceObjOneOf, .ceObjSome,
  .ceObjAll, .ceObjHasValue, .ceObjHasSelf, .ceObjMinCard, .ceObjMaxCard,
  .ceObjExactCard, .ceDataSome, .ceDataAll, .ceDataHasValue, .ceDataMinCard,
  .ceDataMaxCard, .ceDataExactCard, .drDatatype, .drDataIntersect, .drDataUnion,
  .drDataCompl, .drDataOneOf, .drDatatypeRestr, .opeObjProp, .opeInvObjProp,
  .dpeDataProp, .iNamed, .iAnonymous ]

/-- Numeric value of the enumerator (position in the declaration),
`include/cowl_object_type.h:27-278`. -/
def OType.code (t : OType) : Nat := t.ctorIdx

/-- Object type with the given numeric value, if any. -/
def OType.ofCode (n : Nat) : Option OType := OType.all[n]?

/-- One row of `type_flags`, `cowl_object.c:45-64`: field count, is primitive,
is entity, is cardinality restriction. -/
structure TypeFlags where
  fc : Nat := 0
  primitive : Bool := false
  entity : Bool := false
  card : Bool := false
  deriving DecidableEq, Repr

/-- `type_flags`, `cowl_object.c:66-145`. -/
def OType.flags : OType → TypeFlags
  | .string => {}
  | .vector => {}
  | .table => {}
  | .iri => { primitive := true }
  | .literal => {}
  | .facetRestr => { fc := 2 }
  | .ontology => {}
  | .prefixMap => {}
  | .reader => {}
  | .writer => {}
  | .annotation => { fc := 2 }
  | .annotProp => { primitive := true, entity := true }
  | .aDecl => { fc := 1 }
  | .aSubClass => { fc := 2 }
  | .aEquivClasses => { fc := 1 }
  | .aDisjClasses => { fc := 1 }
  | .aDisjUnion => { fc := 2 }
  | .aSubObjProp => { fc := 2 }
  | .aEquivObjProp => { fc := 1 }
  | .aDisjObjProp => { fc := 1 }
  | .aInvObjProp => { fc := 2 }
  | .aObjPropDomain => { fc := 2 }
  | .aObjPropRange => { fc := 2 }
  | .aFuncObjProp => { fc := 1 }
  | .aInvFuncObjProp => { fc := 1 }
  | .aReflObjProp => { fc := 1 }
  | .aIrreflObjProp => { fc := 1 }
  | .aSymmObjProp => { fc := 1 }
  | .aAsymmObjProp => { fc := 1 }
  | .aTransObjProp => { fc := 1 }
  | .aSubDataProp => { fc := 2 }
  | .aEquivDataProp => { fc := 1 }
  | .aDisjDataProp => { fc := 1 }
  | .aDataPropDomain => { fc := 2 }
  | .aDataPropRange => { fc := 2 }
  | .aFuncDataProp => { fc := 1 }
  | .aDatatypeDef => { fc := 2 }
  | .aHasKey => { fc := 3 }
  | .aSameInd => { fc := 1 }
  | .aDiffInd => { fc := 1 }
  | .aClassAssert => { fc := 2 }
  | .aObjPropAssert => { fc := 3 }
  | .aNegObjPropAssert => { fc := 3 }
  | .aDataPropAssert => { fc := 3 }
  | .aNegDataPropAssert => { fc := 3 }
  | .aAnnotAssert => { fc := 3 }
  | .aSubAnnotProp => { fc := 2 }
  | .aAnnotPropDomain => { fc := 2 }
  | .aAnnotPropRange => { fc := 2 }
  | .ceClass => { primitive := true, entity := true }
  | .ceObjIntersect => { fc := 1 }
  | .ceObjUnion => { fc := 1 }
  | .ceObjCompl => { fc := 1 }
  | .ceObjOneOf => { fc := 1 }
  | .ceObjSome => { fc := 1 }
  | .ceObjAll => { fc := 1 }
  | .ceObjHasValue => { fc := 2 }
  | .ceObjHasSelf => { fc := 1 }
  | .ceObjMinCard => { fc := 1, card := true }
  | .ceObjMaxCard => { fc := 1, card := true }
  | .ceObjExactCard => { fc := 1, card := true }
  | .ceDataSome => { fc := 1 }
  | .ceDataAll => { fc := 1 }
  | .ceDataHasValue => { fc := 2 }
  | .ceDataMinCard => { fc := 1, card := true }
  | .ceDataMaxCard => { fc := 1, card := true }
  | .ceDataExactCard => { fc := 1, card := true }
  | .drDatatype => { primitive := true, entity := true }
  | .drDataIntersect => { fc := 1 }
  | .drDataUnion => { fc := 1 }
  | .drDataCompl => { fc := 1 }
  | .drDataOneOf => { fc := 1 }
  | .drDatatypeRestr => { fc := 2 }
  | .opeObjProp => { primitive := true, entity := true }
  | .opeInvObjProp => { fc := 1 }
  | .dpeDataProp => { primitive := true, entity := true }
  | .iNamed => { primitive := true, entity := true }
  | .iAnonymous => { primitive := true }

/-- `type_field_count`, `cowl_object.c:155`. -/
def OType.fieldCount (t : OType) : Nat := t.flags.fc

/-- `type_flag_is_special`, `cowl_object.c:147`: the flag byte is zero. -/
def OType.special (t : OType) : Bool := t.flags == {}

/-- `cowl_is_axiom`, `cowl_object.c:208-211`. -/
def OType.isAxiom (t : OType) : Bool :=
  decide (OType.aDecl.code ≤ t.code) && decide (t.code ≤ OType.aAnnotPropRange.code)

/-- `cowl_is_cls_exp`, `cowl_object.c:213-216`. -/
def OType.isClsExp (t : OType) : Bool :=
  decide (OType.ceClass.code ≤ t.code) && decide (t.code ≤ OType.ceDataExactCard.code)

/-- `cowl_is_data_range`, `cowl_object.c:232-235`. -/
def OType.isDataRange (t : OType) : Bool :=
  decide (OType.drDatatype.code ≤ t.code) && decide (t.code ≤ OType.drDatatypeRestr.code)

/-- `cowl_is_obj_prop_exp`, `cowl_object.c:218-221`. -/
def OType.isObjPropExp (t : OType) : Bool :=
  decide (OType.opeObjProp.code ≤ t.code) && decide (t.code ≤ OType.opeInvObjProp.code)

/-- `cowl_is_individual`, `cowl_object.c:227-230`. -/
def OType.isIndividual (t : OType) : Bool :=
  decide (OType.iNamed.code ≤ t.code) && decide (t.code ≤ OType.iAnonymous.code)

/-- `cowl_object_type_to_string`, `cowl_object_type.c:12-96`, on valid types. -/
def OType.name : OType → String
  | .string => "String"
  | .vector => "Vector"
  | .table => "Table"
  | .iri => "IRI"
  | .literal => "Literal"
  | .facetRestr => "FacetRestriction"
  | .ontology => "Ontology"
  | .prefixMap => "PrefixMap"
  | .reader => "Reader"
  | .writer => "Writer"
  | .annotation => "Annotation"
  | .annotProp => "AnnotationProperty"
  | .aDecl => "Declaration"
  | .aSubClass => "SubClassOf"
  | .aEquivClasses => "EquivalentClasses"
  | .aDisjClasses => "DisjointClasses"
  | .aDisjUnion => "DisjointUnion"
  | .aSubObjProp => "SubObjectPropertyOf"
  | .aEquivObjProp => "EquivalentObjectProperties"
  | .aDisjObjProp => "DisjointObjectProperties"
  | .aInvObjProp => "InverseObjectProperties"
  | .aObjPropDomain => "ObjectPropertyDomain"
  | .aObjPropRange => "ObjectPropertyRange"
  | .aFuncObjProp => "FunctionalObjectProperty"
  | .aInvFuncObjProp => "InverseFunctionalObjectProperty"
  | .aReflObjProp => "ReflexiveObjectProperty"
  | .aIrreflObjProp => "IrreflexiveObjectProperty"
  | .aSymmObjProp => "SymmetricObjectProperty"
  | .aAsymmObjProp => "AsymmetricObjectProperty"
  | .aTransObjProp => "TransitiveObjectProperty"
  | .aSubDataProp => "SubDataPropertyOf"
  | .aEquivDataProp => "EquivalentDataProperties"
  | .aDisjDataProp => "DisjointDataProperties"
  | .aDataPropDomain => "DataPropertyDomain"
  | .aDataPropRange => "DataPropertyRange"
  | .aFuncDataProp => "FunctionalDataProperty"
  | .aDatatypeDef => "DatatypeDefinition"
  | .aHasKey => "HasKey"
  | .aSameInd => "SameIndividual"
  | .aDiffInd => "DifferentIndividuals"
  | .aClassAssert => "ClassAssertion"
  | .aObjPropAssert => "ObjectPropertyAssertion"
  | .aNegObjPropAssert => "NegativeObjectPropertyAssertion"
  | .aDataPropAssert => "DataPropertyAssertion"
  | .aNegDataPropAssert => "NegativeDataPropertyAssertion"
  | .aAnnotAssert => "AnnotationAssertion"
  | .aSubAnnotProp => "SubAnnotationPropertyOf"
  | .aAnnotPropDomain => "AnnotationPropertyDomain"
  | .aAnnotPropRange => "AnnotationPropertyRange"
  | .ceClass => "Class"
  | .ceObjIntersect => "ObjectIntersectionOf"
  | .ceObjUnion => "ObjectUnionOf"
  | .ceObjCompl => "ObjectComplementOf"
  | .ceObjOneOf => "ObjectOneOf"
  | .ceObjSome => "ObjectSomeValuesFrom"
  | .ceObjAll => "ObjectAllValuesFrom"
  | .ceObjHasValue => "ObjectHasValue"
  | .ceObjHasSelf => "ObjectHasSelf"
  | .ceObjMinCard => "ObjectMinCardinality"
  | .ceObjMaxCard => "ObjectMaxCardinality"
  | .ceObjExactCard => "ObjectExactCardinality"
  | .ceDataSome => "DataSomeValuesFrom"
  | .ceDataAll => "DataAllValuesFrom"
  | .ceDataHasValue => "DataHasValue"
  | .ceDataMinCard => "DataMinCardinality"
  | .ceDataMaxCard => "DataMaxCardinality"
  | .ceDataExactCard => "DataExactCardinality"
  | .drDatatype => "Datatype"
  | .drDataIntersect => "DataIntersectionOf"
  | .drDataUnion => "DataUnionOf"
  | .drDataCompl => "DataComplementOf"
  | .drDataOneOf => "DataOneOf"
  | .drDatatypeRestr => "DatatypeRestriction"
  | .opeObjProp => "ObjectProperty"
  | .opeInvObjProp => "ObjectInverseOf"
  | .dpeDataProp => "DataProperty"
  | .iNamed => "NamedIndividual"
  | .iAnonymous => "AnonymousIndividual"

/-- `cowl_object_type_to_string`, `cowl_object_type.c:12-96`, on any numeric value. -/
def typeToString (n : Nat) : Str :=
  match OType.ofCode n with
  | some t => ascii t.name
  | none => ascii "UnknownConstruct"

/-- `cowl_object_type_from_string`, `cowl_object_type.c:98-103`: the loop tries
each type in order; the result is the numeric value, 78 = `COWL_OT_COUNT` if none. -/
def typeFromString (s : Str) : Nat :=
  match OType.all.find? (fun t => s == typeToString t.code) with
  | some t => t.code
  | none => OType.all.length

end Cowl
