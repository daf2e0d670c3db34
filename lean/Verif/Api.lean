import Verif.Literal
/-!
# Constructors and accessors

Models the inline functions of the headers of constructs in `include/`, with what they call in
`src/`. Vectors are passed as `Vec`; annotations, and the fillers of restrictions, may be absent.
There is memory (C67 is about its lack). A result `none` of an accessor stands for undefined
behaviour: the object is not a composite, or has no such field; fields that may be NULL are of type
`Option (Option Obj)`. Enumerators are passed as numbers, as in C. The header files are in `include/`.
-/
namespace Cowl.Api

/-! ## Enumerations -/

/-- `CowlAxiomType`, `cowl_axiom_type.h:19-156`, in declaration order. -/
inductive AT where
  | decl | subClass | equivClasses | disjClasses | disjUnion | subObjProp | equivObjProp
  | disjObjProp | invObjProp | objPropDomain | objPropRange | funcObjProp | invFuncObjProp
  | reflObjProp | irreflObjProp | symmObjProp | asymmObjProp | transObjProp | subDataProp
  | equivDataProp | disjDataProp | dataPropDomain | dataPropRange | funcDataProp | datatypeDef
  | hasKey | sameInd | diffInd | classAssert | objPropAssert | negObjPropAssert
  | dataPropAssert | negDataPropAssert | annotAssert | subAnnotProp | annotPropDomain
  | annotPropRange
  deriving DecidableEq, Repr

/-- The enumerators of `CowlAxiomType`, by number. -/
def AT.values : List AT := [
  .decl, .subClass, .equivClasses, .disjClasses, .disjUnion, .subObjProp, .equivObjProp,
  .disjObjProp, .invObjProp, .objPropDomain, .objPropRange, .funcObjProp, .invFuncObjProp,
  .reflObjProp, .irreflObjProp, .symmObjProp, .asymmObjProp, .transObjProp, .subDataProp,
  .equivDataProp, .disjDataProp, .dataPropDomain, .dataPropRange, .funcDataProp, .datatypeDef,
  .hasKey, .sameInd, .diffInd, .classAssert, .objPropAssert, .negObjPropAssert,
  .dataPropAssert, .negDataPropAssert, .annotAssert, .subAnnotProp, .annotPropDomain,
  .annotPropRange]

/-- Number of an enumerator of `CowlAxiomType`. -/
def AT.code (t : AT) : Nat := t.ctorIdx

/-- `CowlClsExpType`, `cowl_cls_exp_type.h:19-91`, in declaration order. -/
inductive CET where
  | cls | objIntersect | objUnion | objCompl | objOneOf | objSome | objAll | objHasValue
  | objHasSelf | objMinCard | objMaxCard | objExactCard | dataSome | dataAll | dataHasValue
  | dataMinCard | dataMaxCard | dataExactCard
  deriving DecidableEq, Repr

/-- The enumerators of `CowlClsExpType`, by number. -/
def CET.values : List CET := [
  .cls, .objIntersect, .objUnion, .objCompl, .objOneOf, .objSome, .objAll, .objHasValue,
  .objHasSelf, .objMinCard, .objMaxCard, .objExactCard, .dataSome, .dataAll, .dataHasValue,
  .dataMinCard, .dataMaxCard, .dataExactCard]

/-- Number of an enumerator of `CowlClsExpType`. -/
def CET.code (t : CET) : Nat := t.ctorIdx

/-- `CowlDataRangeType`, `cowl_data_range_type.h:19-49`, in declaration order. -/
inductive DRT where
  | datatype | dataIntersect | dataUnion | dataCompl | dataOneOf | datatypeRestr
  deriving DecidableEq, Repr

/-- The enumerators of `CowlDataRangeType`, by number. -/
def DRT.values : List DRT := [
  .datatype, .dataIntersect, .dataUnion, .dataCompl, .dataOneOf, .datatypeRestr]

/-- Number of an enumerator of `CowlDataRangeType`. -/
def DRT.code (t : DRT) : Nat := t.ctorIdx

/-- `CowlCharAxiomType`, `cowl_char_axiom_type.h:19-52`, in declaration order. -/
inductive CAT where
  | func | invFunc | refl | irrefl | symm | asymm | trans
  deriving DecidableEq, Repr

/-- The enumerators of `CowlCharAxiomType`, by number. -/
def CAT.values : List CAT := [
  .func, .invFunc, .refl, .irrefl, .symm, .asymm, .trans]

/-- Number of an enumerator of `CowlCharAxiomType`. -/
def CAT.code (t : CAT) : Nat := t.ctorIdx

/-- `CowlCardType`, `cowl_card_type.h:19-40`, in declaration order. -/
inductive CT where
  | min | max | exact
  deriving DecidableEq, Repr

/-- The enumerators of `CowlCardType`, by number. -/
def CT.values : List CT := [
  .min, .max, .exact]

/-- Number of an enumerator of `CowlCardType`. -/
def CT.code (t : CT) : Nat := t.ctorIdx

/-- `CowlQuantType`, `cowl_quant_type.h:19-37`, in declaration order. -/
inductive QT where
  | some | all
  deriving DecidableEq, Repr

/-- The enumerators of `CowlQuantType`, by number. -/
def QT.values : List QT := [
  .some, .all]

/-- Number of an enumerator of `CowlQuantType`. -/
def QT.code (t : QT) : Nat := t.ctorIdx

/-- `CowlNAryType`, `cowl_nary_type.h:19-37`, in declaration order. -/
inductive NT where
  | intersect | union
  deriving DecidableEq, Repr

/-- The enumerators of `CowlNAryType`, by number. -/
def NT.values : List NT := [
  .intersect, .union]

/-- Number of an enumerator of `CowlNAryType`. -/
def NT.code (t : NT) : Nat := t.ctorIdx

/-- `CowlNAryAxiomType`, `cowl_nary_axiom_type.h:22-48`, in declaration order. -/
inductive NAT where
  | equiv | disj
  deriving DecidableEq, Repr

/-- The enumerators of `CowlNAryAxiomType`, by number. -/
def NAT.values : List NAT := [
  .equiv, .disj]

/-- Number of an enumerator of `CowlNAryAxiomType`. -/
def NAT.code (t : NAT) : Nat := t.ctorIdx

/-- `CowlAnnotValueType`, `cowl_annot_value_type.h:19-40`, in declaration order. -/
inductive AVT where
  | iri | literal | anonInd
  deriving DecidableEq, Repr

/-- The enumerators of `CowlAnnotValueType`, by number. -/
def AVT.values : List AVT := [
  .iri, .literal, .anonInd]

/-- Number of an enumerator of `CowlAnnotValueType`. -/
def AVT.code (t : AVT) : Nat := t.ctorIdx

/-- `CowlPrimitiveType`, `cowl_primitive_type.h:19-55`, in declaration order. -/
inductive PT where
  | cls | datatype | objProp | dataProp | annotProp | namedInd | anonInd | iri
  deriving DecidableEq, Repr

/-- The enumerators of `CowlPrimitiveType`, by number. -/
def PT.values : List PT := [
  .cls, .datatype, .objProp, .dataProp, .annotProp, .namedInd, .anonInd, .iri]

/-- Number of an enumerator of `CowlPrimitiveType`. -/
def PT.code (t : PT) : Nat := t.ctorIdx

/-! ## Fields -/

/-- `CowlVector`: ordered bit and members, `cowl_vector_private.h`. -/
abbrev Vec := Bool × List Obj

/-- A vector as an object. -/
def vecObj (v : Vec) : Obj := .vec v.1 v.2

/-- The cast of an object to `CowlVector *`, as in `cowl_obj_one_of.h:61`. -/
def asVec : Obj → Option Vec
  | .vec b xs => some (b, xs)
  | _ => none

/-- `cowl_enum_value_is_valid`, `cowl_utils.h:32`, and the sum that yields the object type, as in
`cowl_obj_card.h:62-63`. -/
def enumType (count : Nat) (base : OType) (v : Nat) : Option OType :=
  if v < count then OType.ofCode (base.code + v) else none

/-- The difference that yields the number of an enumerator, as in `cowl_obj_card.h:118`. Negative
numbers stand for undefined behaviour. -/
def typeFrom (base : OType) (o : Obj) : Option Nat :=
  if base.code ≤ o.otype.code then some (o.otype.code - base.code) else none

/-- `cowl_get_field`, `cowl_object.c:487-489`. -/
def getField (o : Obj) (i : Nat) : Option Obj :=
  match o with
  | .comp _ _ fs _ => fs[i]?
  | _ => none

/-- `cowl_has_opt_field`, `cowl_object.c:491-493`; the bit of other objects is not modelled. -/
def hasOpt : Obj → Bool
  | .comp _ b _ _ => b
  | _ => false

/-- `cowl_get_opt_field`, `cowl_object.c:495-498`. -/
def optField (o : Obj) : Option (Option Obj) :=
  if hasOpt o then (getField o o.otype.fieldCount).map some else some none

/-- `cowl_get_uint_field`, `cowl_object.c:500-506`. The number follows the other fields; it is read
from there only in cardinality restrictions. -/
def uintField : Obj → Option Nat
  | .comp t b fs n =>
    if t.flags.card && fs.length == t.fieldCount + (if b then 1 else 0) then some n else none
  | _ => none

/-- `cowl_nary_get_impl`, `cowl_object.c:461-470`, with `cowl_vector_with_args`,
`cowl_vector.c:25-35`; the arguments up to the NULL that the macros add. -/
def naryGetImpl (t : OType) (args : List Obj) : Obj := getImpl t [.vec false args] none

/-! ## Functions of the sources -/

/-- `cowl_obj_quant`, `cowl_obj_quant.c:22-26`. The filler is compared by address with
`owl:Thing`. -/
def objQuant (type : Nat) (prop : Obj) (filler : Option Obj) : Option Obj :=
  (enumType 2 .ceObjSome type).map fun t => getImpl t [prop] (dropDefault (.ent .cls owlThing) filler)

/-- `cowl_obj_quant_get_filler`, `cowl_obj_quant.c:28-31`. -/
def objQuantGetFiller (o : Obj) : Option Obj :=
  (optField o).map fun f => f.getD (.prim (.ent .cls owlThing))

/-- `cowl_data_quant`, `cowl_data_quant.c:22-27`. -/
def dataQuant (type : Nat) (prop : Obj) (range : Option Obj) : Option Obj :=
  (enumType 2 .ceDataSome type).map fun t =>
    getImpl t [prop] (dropDefault (.ent .datatype rdfsLiteral) range)

/-- `cowl_data_quant_get_range`, `cowl_data_quant.c:29-32`. -/
def dataQuantGetRange (o : Obj) : Option Obj :=
  (optField o).map fun f => f.getD (.prim (.ent .datatype rdfsLiteral))

/-- `cowl_has_key_axiom`, `cowl_has_key_axiom.c:16-24`. -/
def hasKeyAxiom (clsExp : Obj) (objProps dataProps : Option Vec) (annot : Option Vec) : Obj :=
  getImplAnnot .aHasKey
    [clsExp, vecObj (objProps.getD (false, [])), vecObj (dataProps.getD (false, []))] annot

/-- `cowl_sub_obj_prop_chain_axiom`, `cowl_sub_obj_prop_axiom.c:15-19`. -/
def subObjPropChainAxiom (sub : Vec) (super : Obj) (annot : Option Vec) : Obj :=
  getImplAnnot .aSubObjProp [vecObj (true, sub.2), super] annot

/-- `cowl_annot_value_get_type`, `cowl_annot_value.c:15-21`. -/
def annotValueGetType (o : Obj) : Nat :=
  match o.otype with
  | .iri => AVT.iri.code
  | .iAnonymous => AVT.anonInd.code
  | _ => AVT.literal.code

/-- `cowl_primitive_get_type`, `cowl_primitive.c:15-26`. -/
def primitiveGetType (o : Obj) : Nat :=
  match o.otype with
  | .iri => PT.iri.code
  | .ceClass => PT.cls.code
  | .opeObjProp => PT.objProp.code
  | .iNamed => PT.namedInd.code
  | .iAnonymous => PT.anonInd.code
  | .dpeDataProp => PT.dataProp.code
  | .drDatatype => PT.datatype.code
  | _ => PT.annotProp.code

/-! ## Functions of the headers -/

/-- `cowl_annot_assert_axiom`, `cowl_annot_assert_axiom.h:54-58`. -/
def annotAssertAxiom (prop : Obj) (subject : Obj) (value : Obj) (annot : Option Vec) : Obj :=
  getImplAnnot .aAnnotAssert [prop, subject, value] annot

/-- `cowl_annot_assert_axiom_get_prop`, `cowl_annot_assert_axiom.h:68-70`. -/
def annotAssertAxiomGetProp (o : Obj) : Option Obj := getField o 0

/-- `cowl_annot_assert_axiom_get_subject`, `cowl_annot_assert_axiom.h:82-84`. -/
def annotAssertAxiomGetSubject (o : Obj) : Option Obj := getField o 1

/-- `cowl_annot_assert_axiom_get_value`, `cowl_annot_assert_axiom.h:94-96`. -/
def annotAssertAxiomGetValue (o : Obj) : Option Obj := getField o 2

/-- `cowl_annot_prop_domain_axiom`, `cowl_annot_prop_domain_axiom.h:52-56`. -/
def annotPropDomainAxiom (prop : Obj) (domain : Obj) (annot : Option Vec) : Obj :=
  getImplAnnot .aAnnotPropDomain [prop, domain] annot

/-- `cowl_annot_prop_domain_axiom_get_prop`, `cowl_annot_prop_domain_axiom.h:66-68`. -/
def annotPropDomainAxiomGetProp (o : Obj) : Option Obj := getField o 0

/-- `cowl_annot_prop_domain_axiom_get_domain`, `cowl_annot_prop_domain_axiom.h:78-80`. -/
def annotPropDomainAxiomGetDomain (o : Obj) : Option Obj := getField o 1

/-- `cowl_annot_prop_range_axiom`, `cowl_annot_prop_range_axiom.h:51-55`. -/
def annotPropRangeAxiom (prop : Obj) (range : Obj) (annot : Option Vec) : Obj :=
  getImplAnnot .aAnnotPropRange [prop, range] annot

/-- `cowl_annot_prop_range_axiom_get_prop`, `cowl_annot_prop_range_axiom.h:65-67`. -/
def annotPropRangeAxiomGetProp (o : Obj) : Option Obj := getField o 0

/-- `cowl_annot_prop_range_axiom_get_range`, `cowl_annot_prop_range_axiom.h:77-79`. -/
def annotPropRangeAxiomGetRange (o : Obj) : Option Obj := getField o 1

/-- `cowl_annotation`, `cowl_annotation.h:53-55`. -/
def annotation (prop : Obj) (value : Obj) (annot : Option Vec) : Obj :=
  getImplAnnot .annotation [prop, value] annot

/-- `cowl_annotation_get_prop`, `cowl_annotation.h:65-67`. -/
def annotationGetProp (o : Obj) : Option Obj := getField o 0

/-- `cowl_annotation_get_value`, `cowl_annotation.h:77-79`. -/
def annotationGetValue (o : Obj) : Option Obj := getField o 1

/-- `cowl_annotation_get_annot`, `cowl_annotation.h:89-91`. -/
def annotationGetAnnot (o : Obj) : Option (Option Obj) := optField o

/-- `cowl_axiom_get_type`, `cowl_axiom.h:54-56`. -/
def axiomGetType (o : Obj) : Option Nat := typeFrom .aDecl o

/-- `cowl_axiom_get_annot`, `cowl_axiom.h:66-68`. -/
def axiomGetAnnot (o : Obj) : Option (Option Obj) := optField o

/-- `cowl_cls_assert_axiom`, `cowl_cls_assert_axiom.h:53-56`. -/
def clsAssertAxiom (exp : Obj) (ind : Obj) (annot : Option Vec) : Obj :=
  getImplAnnot .aClassAssert [exp, ind] annot

/-- `cowl_cls_assert_axiom_get_cls_exp`, `cowl_cls_assert_axiom.h:66-68`. -/
def clsAssertAxiomGetClsExp (o : Obj) : Option Obj := getField o 0

/-- `cowl_cls_assert_axiom_get_ind`, `cowl_cls_assert_axiom.h:78-80`. -/
def clsAssertAxiomGetInd (o : Obj) : Option Obj := getField o 1

/-- `cowl_cls_exp_get_type`, `cowl_cls_exp.h:46-48`. -/
def clsExpGetType (o : Obj) : Option Nat := typeFrom .ceClass o

/-- `cowl_data_card`, `cowl_data_card.h:60-65`. -/
def dataCard (type : Nat) (prop : Obj) (range : Option Obj) (cardinality : Nat) : Option Obj :=
  (enumType 3 .ceDataMinCard type).map fun t => getImplUint t [prop] cardinality range

/-- `cowl_data_min`, `cowl_data_card.h:77-80`. -/
def dataMin (prop : Obj) (range : Option Obj) (cardinality : Nat) : Option Obj :=
  dataCard CT.min.code prop range cardinality

/-- `cowl_data_max`, `cowl_data_card.h:92-95`. -/
def dataMax (prop : Obj) (range : Option Obj) (cardinality : Nat) : Option Obj :=
  dataCard CT.max.code prop range cardinality

/-- `cowl_data_exact`, `cowl_data_card.h:107-110`. -/
def dataExact (prop : Obj) (range : Option Obj) (cardinality : Nat) : Option Obj :=
  dataCard CT.exact.code prop range cardinality

/-- `cowl_data_card_get_type`, `cowl_data_card.h:120-122`. -/
def dataCardGetType (o : Obj) : Option Nat := typeFrom .ceDataMinCard o

/-- `cowl_data_card_is_qualified`, `cowl_data_card.h:132-134`. -/
def dataCardIsQualified (o : Obj) : Bool := hasOpt o

/-- `cowl_data_card_get_prop`, `cowl_data_card.h:144-146`. -/
def dataCardGetProp (o : Obj) : Option Obj := getField o 0

/-- `cowl_data_card_get_range`, `cowl_data_card.h:156-158`. -/
def dataCardGetRange (o : Obj) : Option (Option Obj) := optField o

/-- `cowl_data_card_get_cardinality`, `cowl_data_card.h:168-170`. -/
def dataCardGetCardinality (o : Obj) : Option Nat := uintField o

/-- `cowl_data_compl`, `cowl_data_compl.h:49-51`. -/
def dataCompl (operand : Obj) : Obj :=
  getImpl .drDataCompl [operand] none

/-- `cowl_data_compl_get_operand`, `cowl_data_compl.h:61-63`. -/
def dataComplGetOperand (o : Obj) : Option Obj := getField o 0

/-- `cowl_data_has_value`, `cowl_data_has_value.h:51-53`. -/
def dataHasValue (prop : Obj) (value : Obj) : Obj :=
  getImpl .ceDataHasValue [prop, value] none

/-- `cowl_data_has_value_get_prop`, `cowl_data_has_value.h:63-65`. -/
def dataHasValueGetProp (o : Obj) : Option Obj := getField o 0

/-- `cowl_data_has_value_get_value`, `cowl_data_has_value.h:75-77`. -/
def dataHasValueGetValue (o : Obj) : Option Obj := getField o 1

/-- `cowl_data_one_of`, `cowl_data_one_of.h:48-50`. -/
def dataOneOf (values : Vec) : Obj :=
  getImpl .drDataOneOf [vecObj values] none

/-- `cowl_data_one_of_get_values`, `cowl_data_one_of.h:60-62`. -/
def dataOneOfGetValues (o : Obj) : Option Vec := (getField o 0).bind asVec

/-- `cowl_data_prop_assert_axiom`, `cowl_data_prop_assert_axiom.h:61-66`. -/
def dataPropAssertAxiom (prop : Obj) (subj : Obj) (obj : Obj) (annot : Option Vec) : Obj :=
  getImplAnnot .aDataPropAssert [prop, subj, obj] annot

/-- `cowl_neg_data_prop_assert_axiom`, `cowl_data_prop_assert_axiom.h:79-84`. -/
def negDataPropAssertAxiom (prop : Obj) (subj : Obj) (obj : Obj) (annot : Option Vec) : Obj :=
  getImplAnnot .aNegDataPropAssert [prop, subj, obj] annot

/-- `cowl_data_prop_assert_axiom_is_negative`, `cowl_data_prop_assert_axiom.h:94-96`. -/
def dataPropAssertAxiomIsNegative (o : Obj) : Bool := o.otype == .aNegDataPropAssert

/-- `cowl_data_prop_assert_axiom_get_prop`, `cowl_data_prop_assert_axiom.h:106-108`. -/
def dataPropAssertAxiomGetProp (o : Obj) : Option Obj := getField o 0

/-- `cowl_data_prop_assert_axiom_get_subject`, `cowl_data_prop_assert_axiom.h:118-120`. -/
def dataPropAssertAxiomGetSubject (o : Obj) : Option Obj := getField o 1

/-- `cowl_data_prop_assert_axiom_get_value`, `cowl_data_prop_assert_axiom.h:130-132`. -/
def dataPropAssertAxiomGetValue (o : Obj) : Option Obj := getField o 2

/-- `cowl_data_prop_assert_axiom_get_object`, `cowl_data_prop_assert_axiom.h:143-145`. -/
def dataPropAssertAxiomGetObject (o : Obj) : Option Obj := dataPropAssertAxiomGetValue o

/-- `cowl_data_prop_domain_axiom`, `cowl_data_prop_domain_axiom.h:53-57`. -/
def dataPropDomainAxiom (prop : Obj) (domain : Obj) (annot : Option Vec) : Obj :=
  getImplAnnot .aDataPropDomain [prop, domain] annot

/-- `cowl_data_prop_domain_axiom_get_prop`, `cowl_data_prop_domain_axiom.h:67-69`. -/
def dataPropDomainAxiomGetProp (o : Obj) : Option Obj := getField o 0

/-- `cowl_data_prop_domain_axiom_get_domain`, `cowl_data_prop_domain_axiom.h:79-81`. -/
def dataPropDomainAxiomGetDomain (o : Obj) : Option Obj := getField o 1

/-- `cowl_data_prop_exp_get_prop`, `cowl_data_prop_exp.h:48-50`. -/
def dataPropExpGetProp (o : Obj) : Obj := o

/-- `cowl_data_prop_range_axiom`, `cowl_data_prop_range_axiom.h:53-57`. -/
def dataPropRangeAxiom (prop : Obj) (range : Obj) (annot : Option Vec) : Obj :=
  getImplAnnot .aDataPropRange [prop, range] annot

/-- `cowl_data_prop_range_axiom_get_prop`, `cowl_data_prop_range_axiom.h:67-69`. -/
def dataPropRangeAxiomGetProp (o : Obj) : Option Obj := getField o 0

/-- `cowl_data_prop_range_axiom_get_range`, `cowl_data_prop_range_axiom.h:79-81`. -/
def dataPropRangeAxiomGetRange (o : Obj) : Option Obj := getField o 1

/-- `cowl_data_some`, `cowl_data_quant.h:67-69`. -/
def dataSome (prop : Obj) (range : Option Obj) : Option Obj :=
  dataQuant QT.some.code prop range

/-- `cowl_data_all`, `cowl_data_quant.h:80-82`. -/
def dataAll (prop : Obj) (range : Option Obj) : Option Obj :=
  dataQuant QT.all.code prop range

/-- `cowl_data_quant_get_type`, `cowl_data_quant.h:92-94`. -/
def dataQuantGetType (o : Obj) : Option Nat := typeFrom .ceDataSome o

/-- `cowl_data_quant_get_prop`, `cowl_data_quant.h:104-106`. -/
def dataQuantGetProp (o : Obj) : Option Obj := getField o 0

/-- `cowl_data_range_get_type`, `cowl_data_range.h:50-52`. -/
def dataRangeGetType (o : Obj) : Option Nat := typeFrom .drDatatype o

/-- `cowl_datatype_def_axiom`, `cowl_datatype_def_axiom.h:53-56`. -/
def datatypeDefAxiom (dt : Obj) (range : Obj) (annot : Option Vec) : Obj :=
  getImplAnnot .aDatatypeDef [dt, range] annot

/-- `cowl_datatype_def_axiom_get_datatype`, `cowl_datatype_def_axiom.h:66-68`. -/
def datatypeDefAxiomGetDatatype (o : Obj) : Option Obj := getField o 0

/-- `cowl_datatype_def_axiom_get_range`, `cowl_datatype_def_axiom.h:77-79`. -/
def datatypeDefAxiomGetRange (o : Obj) : Option Obj := getField o 1

/-- `cowl_datatype_restr`, `cowl_datatype_restr.h:50-52`. -/
def datatypeRestr (datatype : Obj) (restrictions : Vec) : Obj :=
  getImpl .drDatatypeRestr [datatype, vecObj restrictions] none

/-- `cowl_datatype_restr_get_datatype`, `cowl_datatype_restr.h:62-64`. -/
def datatypeRestrGetDatatype (o : Obj) : Option Obj := getField o 0

/-- `cowl_datatype_restr_get_restrictions`, `cowl_datatype_restr.h:74-76`. -/
def datatypeRestrGetRestrictions (o : Obj) : Option Vec := (getField o 1).bind asVec

/-- `cowl_decl_axiom`, `cowl_decl_axiom.h:51-53`. -/
def declAxiom (entity : Obj) (annot : Option Vec) : Obj :=
  getImplAnnot .aDecl [entity] annot

/-- `cowl_decl_axiom_get_entity`, `cowl_decl_axiom.h:63-65`. -/
def declAxiomGetEntity (o : Obj) : Option Obj := getField o 0

/-- `cowl_disj_union_axiom`, `cowl_disj_union_axiom.h:51-54`. -/
def disjUnionAxiom (cls : Obj) (disjoints : Vec) (annot : Option Vec) : Obj :=
  getImplAnnot .aDisjUnion [cls, vecObj disjoints] annot

/-- `cowl_disj_union_axiom_get_class`, `cowl_disj_union_axiom.h:64-66`. -/
def disjUnionAxiomGetClass (o : Obj) : Option Obj := getField o 0

/-- `cowl_disj_union_axiom_get_disjoints`, `cowl_disj_union_axiom.h:75-77`. -/
def disjUnionAxiomGetDisjoints (o : Obj) : Option Vec := (getField o 1).bind asVec

/-- `cowl_facet_restr`, `cowl_facet_restr.h:50-52`. -/
def facetRestr (facet : Obj) (value : Obj) : Obj :=
  getImpl .facetRestr [facet, value] none

/-- `cowl_facet_restr_get_facet`, `cowl_facet_restr.h:62-64`. -/
def facetRestrGetFacet (o : Obj) : Option Obj := getField o 0

/-- `cowl_facet_restr_get_value`, `cowl_facet_restr.h:74-76`. -/
def facetRestrGetValue (o : Obj) : Option Obj := getField o 1

/-- `cowl_func_data_prop_axiom`, `cowl_func_data_prop_axiom.h:51-53`. -/
def funcDataPropAxiom (prop : Obj) (annot : Option Vec) : Obj :=
  getImplAnnot .aFuncDataProp [prop] annot

/-- `cowl_func_data_prop_axiom_get_prop`, `cowl_func_data_prop_axiom.h:63-65`. -/
def funcDataPropAxiomGetProp (o : Obj) : Option Obj := getField o 0

/-- `cowl_has_key_axiom_get_cls_exp`, `cowl_has_key_axiom.h:63-65`. -/
def hasKeyAxiomGetClsExp (o : Obj) : Option Obj := getField o 0

/-- `cowl_has_key_axiom_get_obj_props`, `cowl_has_key_axiom.h:75-77`. -/
def hasKeyAxiomGetObjProps (o : Obj) : Option Vec := (getField o 1).bind asVec

/-- `cowl_has_key_axiom_get_data_props`, `cowl_has_key_axiom.h:87-89`. -/
def hasKeyAxiomGetDataProps (o : Obj) : Option Vec := (getField o 2).bind asVec

/-- `cowl_individual_is_named`, `cowl_individual.h:45-47`. -/
def individualIsNamed (o : Obj) : Bool := o.otype == .iNamed

/-- `cowl_inv_obj_prop`, `cowl_inv_obj_prop.h:48-50`. -/
def invObjProp (prop : Obj) : Obj :=
  getImpl .opeInvObjProp [prop] none

/-- `cowl_inv_obj_prop_get_prop`, `cowl_inv_obj_prop.h:60-62`. -/
def invObjPropGetProp (o : Obj) : Option Obj := getField o 0

/-- `cowl_inv_obj_prop_axiom`, `cowl_inv_obj_prop_axiom.h:52-56`. -/
def invObjPropAxiom (first : Obj) (second : Obj) (annot : Option Vec) : Obj :=
  getImplAnnot .aInvObjProp [first, second] annot

/-- `cowl_inv_obj_prop_axiom_get_first_prop`, `cowl_inv_obj_prop_axiom.h:66-68`. -/
def invObjPropAxiomGetFirstProp (o : Obj) : Option Obj := getField o 0

/-- `cowl_inv_obj_prop_axiom_get_second_prop`, `cowl_inv_obj_prop_axiom.h:78-80`. -/
def invObjPropAxiomGetSecondProp (o : Obj) : Option Obj := getField o 1

/-- `cowl_nary_cls`, `cowl_nary_cls.h:60-64`. -/
def naryCls (type : Nat) (operands : Vec) : Option Obj :=
  (enumType 2 .ceObjIntersect type).map fun t => getImpl t [vecObj operands] none

/-- `cowl_nary_bool`, `cowl_nary_cls.h:69-71`. -/
def naryBool (type : Nat) (operands : Vec) : Option Obj := naryCls type operands

/-- `cowl_obj_intersect`, `cowl_nary_cls.h:81-83`. -/
def objIntersect (operands : Vec) : Option Obj :=
  naryCls NT.intersect.code operands

/-- `cowl_obj_union`, `cowl_nary_cls.h:104-106`. -/
def objUnion (operands : Vec) : Option Obj :=
  naryCls NT.union.code operands

/-- `cowl_nary_cls_get_type`, `cowl_nary_cls.h:127-129`. -/
def naryClsGetType (o : Obj) : Option Nat := typeFrom .ceObjIntersect o

/-- `cowl_nary_bool_get_type`, `cowl_nary_cls.h:134-136`. -/
def naryBoolGetType (o : Obj) : Option Nat := naryClsGetType o

/-- `cowl_nary_cls_get_operands`, `cowl_nary_cls.h:146-148`. -/
def naryClsGetOperands (o : Obj) : Option Vec := (getField o 0).bind asVec

/-- `cowl_nary_bool_get_operands`, `cowl_nary_cls.h:153-155`. -/
def naryBoolGetOperands (o : Obj) : Option Vec := naryClsGetOperands o

/-- `cowl_nary_cls_axiom`, `cowl_nary_cls_axiom.h:54-59`. -/
def naryClsAxiom (type : Nat) (classes : Vec) (annot : Option Vec) : Option Obj :=
  (enumType 2 .aEquivClasses type).map fun t => getImplAnnot t [vecObj classes] annot

/-- `cowl_equiv_cls_axiom`, `cowl_nary_cls_axiom.h:70-72`. -/
def equivClsAxiom (classes : Vec) (annot : Option Vec) : Option Obj :=
  naryClsAxiom NAT.equiv.code classes annot

/-- `cowl_disj_cls_axiom`, `cowl_nary_cls_axiom.h:95-97`. -/
def disjClsAxiom (classes : Vec) (annot : Option Vec) : Option Obj :=
  naryClsAxiom NAT.disj.code classes annot

/-- `cowl_nary_cls_axiom_get_type`, `cowl_nary_cls_axiom.h:118-120`. -/
def naryClsAxiomGetType (o : Obj) : Option Nat := typeFrom .aEquivClasses o

/-- `cowl_nary_cls_axiom_get_classes`, `cowl_nary_cls_axiom.h:130-132`. -/
def naryClsAxiomGetClasses (o : Obj) : Option Vec := (getField o 0).bind asVec

/-- `cowl_nary_data`, `cowl_nary_data.h:53-57`. -/
def naryData (type : Nat) (operands : Vec) : Option Obj :=
  (enumType 2 .drDataIntersect type).map fun t => getImpl t [vecObj operands] none

/-- `cowl_data_intersect`, `cowl_nary_data.h:67-69`. -/
def dataIntersect (operands : Vec) : Option Obj :=
  naryData NT.intersect.code operands

/-- `cowl_data_union`, `cowl_nary_data.h:90-92`. -/
def dataUnion (operands : Vec) : Option Obj :=
  naryData NT.union.code operands

/-- `cowl_nary_data_get_type`, `cowl_nary_data.h:112-114`. -/
def naryDataGetType (o : Obj) : Option Nat := typeFrom .drDataIntersect o

/-- `cowl_nary_data_get_operands`, `cowl_nary_data.h:124-126`. -/
def naryDataGetOperands (o : Obj) : Option Vec := (getField o 0).bind asVec

/-- `cowl_nary_data_prop_axiom`, `cowl_nary_data_prop_axiom.h:55-60`. -/
def naryDataPropAxiom (type : Nat) (props : Vec) (annot : Option Vec) : Option Obj :=
  (enumType 2 .aEquivDataProp type).map fun t => getImplAnnot t [vecObj props] annot

/-- `cowl_equiv_data_prop_axiom`, `cowl_nary_data_prop_axiom.h:71-73`. -/
def equivDataPropAxiom (props : Vec) (annot : Option Vec) : Option Obj :=
  naryDataPropAxiom NAT.equiv.code props annot

/-- `cowl_disj_data_prop_axiom`, `cowl_nary_data_prop_axiom.h:96-98`. -/
def disjDataPropAxiom (props : Vec) (annot : Option Vec) : Option Obj :=
  naryDataPropAxiom NAT.disj.code props annot

/-- `cowl_nary_data_prop_axiom_get_type`, `cowl_nary_data_prop_axiom.h:120-122`. -/
def naryDataPropAxiomGetType (o : Obj) : Option Nat := typeFrom .aEquivDataProp o

/-- `cowl_nary_data_prop_axiom_get_props`, `cowl_nary_data_prop_axiom.h:132-134`. -/
def naryDataPropAxiomGetProps (o : Obj) : Option Vec := (getField o 0).bind asVec

/-- `cowl_nary_ind_axiom`, `cowl_nary_ind_axiom.h:55-60`. -/
def naryIndAxiom (type : Nat) (individuals : Vec) (annot : Option Vec) : Option Obj :=
  (enumType 2 .aSameInd type).map fun t => getImplAnnot t [vecObj individuals] annot

/-- `cowl_same_ind_axiom`, `cowl_nary_ind_axiom.h:71-73`. -/
def sameIndAxiom (individuals : Vec) (annot : Option Vec) : Option Obj :=
  naryIndAxiom NAT.equiv.code individuals annot

/-- `cowl_diff_ind_axiom`, `cowl_nary_ind_axiom.h:95-97`. -/
def diffIndAxiom (individuals : Vec) (annot : Option Vec) : Option Obj :=
  naryIndAxiom NAT.disj.code individuals annot

/-- `cowl_nary_ind_axiom_get_type`, `cowl_nary_ind_axiom.h:118-120`. -/
def naryIndAxiomGetType (o : Obj) : Option Nat := typeFrom .aSameInd o

/-- `cowl_nary_ind_axiom_get_individuals`, `cowl_nary_ind_axiom.h:130-132`. -/
def naryIndAxiomGetIndividuals (o : Obj) : Option Vec := (getField o 0).bind asVec

/-- `cowl_nary_obj_prop_axiom`, `cowl_nary_obj_prop_axiom.h:55-60`. -/
def naryObjPropAxiom (type : Nat) (props : Vec) (annot : Option Vec) : Option Obj :=
  (enumType 2 .aEquivObjProp type).map fun t => getImplAnnot t [vecObj props] annot

/-- `cowl_equiv_obj_prop_axiom`, `cowl_nary_obj_prop_axiom.h:71-73`. -/
def equivObjPropAxiom (props : Vec) (annot : Option Vec) : Option Obj :=
  naryObjPropAxiom NAT.equiv.code props annot

/-- `cowl_disj_obj_prop_axiom`, `cowl_nary_obj_prop_axiom.h:96-98`. -/
def disjObjPropAxiom (props : Vec) (annot : Option Vec) : Option Obj :=
  naryObjPropAxiom NAT.disj.code props annot

/-- `cowl_nary_obj_prop_axiom_get_type`, `cowl_nary_obj_prop_axiom.h:120-122`. -/
def naryObjPropAxiomGetType (o : Obj) : Option Nat := typeFrom .aEquivObjProp o

/-- `cowl_nary_obj_prop_axiom_get_props`, `cowl_nary_obj_prop_axiom.h:132-134`. -/
def naryObjPropAxiomGetProps (o : Obj) : Option Vec := (getField o 0).bind asVec

/-- `cowl_obj_card`, `cowl_obj_card.h:60-65`. -/
def objCard (type : Nat) (prop : Obj) (filler : Option Obj) (cardinality : Nat) : Option Obj :=
  (enumType 3 .ceObjMinCard type).map fun t => getImplUint t [prop] cardinality filler

/-- `cowl_obj_min`, `cowl_obj_card.h:77-79`. -/
def objMin (prop : Obj) (filler : Option Obj) (cardinality : Nat) : Option Obj :=
  objCard CT.min.code prop filler cardinality

/-- `cowl_obj_max`, `cowl_obj_card.h:91-93`. -/
def objMax (prop : Obj) (filler : Option Obj) (cardinality : Nat) : Option Obj :=
  objCard CT.max.code prop filler cardinality

/-- `cowl_obj_exact`, `cowl_obj_card.h:105-107`. -/
def objExact (prop : Obj) (filler : Option Obj) (cardinality : Nat) : Option Obj :=
  objCard CT.exact.code prop filler cardinality

/-- `cowl_obj_card_get_type`, `cowl_obj_card.h:117-119`. -/
def objCardGetType (o : Obj) : Option Nat := typeFrom .ceObjMinCard o

/-- `cowl_obj_card_is_qualified`, `cowl_obj_card.h:129-131`. -/
def objCardIsQualified (o : Obj) : Bool := hasOpt o

/-- `cowl_obj_card_get_prop`, `cowl_obj_card.h:141-143`. -/
def objCardGetProp (o : Obj) : Option Obj := getField o 0

/-- `cowl_obj_card_get_filler`, `cowl_obj_card.h:153-155`. -/
def objCardGetFiller (o : Obj) : Option (Option Obj) := optField o

/-- `cowl_obj_card_get_cardinality`, `cowl_obj_card.h:165-167`. -/
def objCardGetCardinality (o : Obj) : Option Nat := uintField o

/-- `cowl_obj_compl`, `cowl_obj_compl.h:49-51`. -/
def objCompl (operand : Obj) : Obj :=
  getImpl .ceObjCompl [operand] none

/-- `cowl_obj_compl_get_operand`, `cowl_obj_compl.h:61-63`. -/
def objComplGetOperand (o : Obj) : Option Obj := getField o 0

/-- `cowl_obj_has_self`, `cowl_obj_has_self.h:49-51`. -/
def objHasSelf (prop : Obj) : Obj :=
  getImpl .ceObjHasSelf [prop] none

/-- `cowl_obj_has_self_get_prop`, `cowl_obj_has_self.h:61-63`. -/
def objHasSelfGetProp (o : Obj) : Option Obj := getField o 0

/-- `cowl_obj_has_value`, `cowl_obj_has_value.h:51-53`. -/
def objHasValue (prop : Obj) (individual : Obj) : Obj :=
  getImpl .ceObjHasValue [prop, individual] none

/-- `cowl_obj_has_value_get_prop`, `cowl_obj_has_value.h:63-65`. -/
def objHasValueGetProp (o : Obj) : Option Obj := getField o 0

/-- `cowl_obj_has_value_get_value`, `cowl_obj_has_value.h:75-77`. -/
def objHasValueGetValue (o : Obj) : Option Obj := getField o 1

/-- `cowl_obj_has_value_get_ind`, `cowl_obj_has_value.h:88-90`. -/
def objHasValueGetInd (o : Obj) : Option Obj := getField o 1

/-- `cowl_obj_one_of`, `cowl_obj_one_of.h:48-50`. -/
def objOneOf (inds : Vec) : Obj :=
  getImpl .ceObjOneOf [vecObj inds] none

/-- `cowl_obj_one_of_get_inds`, `cowl_obj_one_of.h:60-62`. -/
def objOneOfGetInds (o : Obj) : Option Vec := (getField o 0).bind asVec

/-- `cowl_obj_prop_assert_axiom`, `cowl_obj_prop_assert_axiom.h:60-65`. -/
def objPropAssertAxiom (prop : Obj) (subject : Obj) (object : Obj) (annot : Option Vec) : Obj :=
  getImplAnnot .aObjPropAssert [prop, subject, object] annot

/-- `cowl_neg_obj_prop_assert_axiom`, `cowl_obj_prop_assert_axiom.h:78-83`. -/
def negObjPropAssertAxiom (prop : Obj) (subject : Obj) (object : Obj) (annot : Option Vec) : Obj :=
  getImplAnnot .aNegObjPropAssert [prop, subject, object] annot

/-- `cowl_obj_prop_assert_axiom_is_negative`, `cowl_obj_prop_assert_axiom.h:93-95`. -/
def objPropAssertAxiomIsNegative (o : Obj) : Bool := o.otype == .aNegObjPropAssert

/-- `cowl_obj_prop_assert_axiom_get_prop`, `cowl_obj_prop_assert_axiom.h:105-107`. -/
def objPropAssertAxiomGetProp (o : Obj) : Option Obj := getField o 0

/-- `cowl_obj_prop_assert_axiom_get_subject`, `cowl_obj_prop_assert_axiom.h:117-119`. -/
def objPropAssertAxiomGetSubject (o : Obj) : Option Obj := getField o 1

/-- `cowl_obj_prop_assert_axiom_get_object`, `cowl_obj_prop_assert_axiom.h:129-131`. -/
def objPropAssertAxiomGetObject (o : Obj) : Option Obj := getField o 2

/-- `cowl_obj_prop_char_axiom`, `cowl_obj_prop_char_axiom.h:76-81`. -/
def objPropCharAxiom (type : Nat) (prop : Obj) (annot : Option Vec) : Option Obj :=
  (enumType 7 .aFuncObjProp type).map fun t => getImplAnnot t [prop] annot

/-- `cowl_func_obj_prop_axiom`, `cowl_obj_prop_char_axiom.h:92-94`. -/
def funcObjPropAxiom (prop : Obj) (annot : Option Vec) : Option Obj :=
  objPropCharAxiom CAT.func.code prop annot

/-- `cowl_inv_func_obj_prop_axiom`, `cowl_obj_prop_char_axiom.h:105-107`. -/
def invFuncObjPropAxiom (prop : Obj) (annot : Option Vec) : Option Obj :=
  objPropCharAxiom CAT.invFunc.code prop annot

/-- `cowl_symm_obj_prop_axiom`, `cowl_obj_prop_char_axiom.h:118-120`. -/
def symmObjPropAxiom (prop : Obj) (annot : Option Vec) : Option Obj :=
  objPropCharAxiom CAT.symm.code prop annot

/-- `cowl_asymm_obj_prop_axiom`, `cowl_obj_prop_char_axiom.h:131-133`. -/
def asymmObjPropAxiom (prop : Obj) (annot : Option Vec) : Option Obj :=
  objPropCharAxiom CAT.asymm.code prop annot

/-- `cowl_trans_obj_prop_axiom`, `cowl_obj_prop_char_axiom.h:144-146`. -/
def transObjPropAxiom (prop : Obj) (annot : Option Vec) : Option Obj :=
  objPropCharAxiom CAT.trans.code prop annot

/-- `cowl_refl_obj_prop_axiom`, `cowl_obj_prop_char_axiom.h:157-159`. -/
def reflObjPropAxiom (prop : Obj) (annot : Option Vec) : Option Obj :=
  objPropCharAxiom CAT.refl.code prop annot

/-- `cowl_irrefl_obj_prop_axiom`, `cowl_obj_prop_char_axiom.h:170-172`. -/
def irreflObjPropAxiom (prop : Obj) (annot : Option Vec) : Option Obj :=
  objPropCharAxiom CAT.irrefl.code prop annot

/-- `cowl_obj_prop_char_axiom_get_type`, `cowl_obj_prop_char_axiom.h:182-184`. -/
def objPropCharAxiomGetType (o : Obj) : Option Nat := typeFrom .aFuncObjProp o

/-- `cowl_obj_prop_char_axiom_get_prop`, `cowl_obj_prop_char_axiom.h:194-196`. -/
def objPropCharAxiomGetProp (o : Obj) : Option Obj := getField o 0

/-- `cowl_obj_prop_domain_axiom`, `cowl_obj_prop_domain_axiom.h:53-57`. -/
def objPropDomainAxiom (prop : Obj) (domain : Obj) (annot : Option Vec) : Obj :=
  getImplAnnot .aObjPropDomain [prop, domain] annot

/-- `cowl_obj_prop_domain_axiom_get_prop`, `cowl_obj_prop_domain_axiom.h:67-69`. -/
def objPropDomainAxiomGetProp (o : Obj) : Option Obj := getField o 0

/-- `cowl_obj_prop_domain_axiom_get_domain`, `cowl_obj_prop_domain_axiom.h:79-81`. -/
def objPropDomainAxiomGetDomain (o : Obj) : Option Obj := getField o 1

/-- `cowl_obj_prop_exp_is_inverse`, `cowl_obj_prop_exp.h:49-51`. -/
def objPropExpIsInverse (o : Obj) : Bool := o.otype == .opeInvObjProp

/-- `cowl_obj_prop_range_axiom`, `cowl_obj_prop_range_axiom.h:53-57`. -/
def objPropRangeAxiom (prop : Obj) (range : Obj) (annot : Option Vec) : Obj :=
  getImplAnnot .aObjPropRange [prop, range] annot

/-- `cowl_obj_prop_range_axiom_get_prop`, `cowl_obj_prop_range_axiom.h:67-69`. -/
def objPropRangeAxiomGetProp (o : Obj) : Option Obj := getField o 0

/-- `cowl_obj_prop_range_axiom_get_range`, `cowl_obj_prop_range_axiom.h:79-81`. -/
def objPropRangeAxiomGetRange (o : Obj) : Option Obj := getField o 1

/-- `cowl_obj_some`, `cowl_obj_quant.h:67-69`. -/
def objSome (prop : Obj) (filler : Option Obj) : Option Obj :=
  objQuant QT.some.code prop filler

/-- `cowl_obj_all`, `cowl_obj_quant.h:80-82`. -/
def objAll (prop : Obj) (filler : Option Obj) : Option Obj :=
  objQuant QT.all.code prop filler

/-- `cowl_obj_quant_get_type`, `cowl_obj_quant.h:92-94`. -/
def objQuantGetType (o : Obj) : Option Nat := typeFrom .ceObjSome o

/-- `cowl_obj_quant_get_prop`, `cowl_obj_quant.h:104-106`. -/
def objQuantGetProp (o : Obj) : Option Obj := getField o 0

/-- `cowl_sub_annot_prop_axiom`, `cowl_sub_annot_prop_axiom.h:51-55`. -/
def subAnnotPropAxiom (sub : Obj) (super : Obj) (annot : Option Vec) : Obj :=
  getImplAnnot .aSubAnnotProp [sub, super] annot

/-- `cowl_sub_annot_prop_axiom_get_sub`, `cowl_sub_annot_prop_axiom.h:65-67`. -/
def subAnnotPropAxiomGetSub (o : Obj) : Option Obj := getField o 0

/-- `cowl_sub_annot_prop_axiom_get_super`, `cowl_sub_annot_prop_axiom.h:77-79`. -/
def subAnnotPropAxiomGetSuper (o : Obj) : Option Obj := getField o 1

/-- `cowl_sub_cls_axiom`, `cowl_sub_cls_axiom.h:52-54`. -/
def subClsAxiom (sub : Obj) (super : Obj) (annot : Option Vec) : Obj :=
  getImplAnnot .aSubClass [sub, super] annot

/-- `cowl_sub_cls_axiom_get_sub`, `cowl_sub_cls_axiom.h:64-66`. -/
def subClsAxiomGetSub (o : Obj) : Option Obj := getField o 0

/-- `cowl_sub_cls_axiom_get_super`, `cowl_sub_cls_axiom.h:76-78`. -/
def subClsAxiomGetSuper (o : Obj) : Option Obj := getField o 1

/-- `cowl_sub_data_prop_axiom`, `cowl_sub_data_prop_axiom.h:52-56`. -/
def subDataPropAxiom (sub : Obj) (super : Obj) (annot : Option Vec) : Obj :=
  getImplAnnot .aSubDataProp [sub, super] annot

/-- `cowl_sub_data_prop_axiom_get_sub`, `cowl_sub_data_prop_axiom.h:66-68`. -/
def subDataPropAxiomGetSub (o : Obj) : Option Obj := getField o 0

/-- `cowl_sub_data_prop_axiom_get_super`, `cowl_sub_data_prop_axiom.h:78-80`. -/
def subDataPropAxiomGetSuper (o : Obj) : Option Obj := getField o 1

/-- `cowl_sub_obj_prop_axiom`, `cowl_sub_obj_prop_axiom.h:52-55`. -/
def subObjPropAxiom (sub : Obj) (super : Obj) (annot : Option Vec) : Obj :=
  getImplAnnot .aSubObjProp [sub, super] annot

/-- `cowl_sub_obj_prop_axiom_get_sub`, `cowl_sub_obj_prop_axiom.h:80-82`. -/
def subObjPropAxiomGetSub (o : Obj) : Option Obj := getField o 0

/-- `cowl_sub_obj_prop_axiom_get_super`, `cowl_sub_obj_prop_axiom.h:92-94`. -/
def subObjPropAxiomGetSuper (o : Obj) : Option Obj := getField o 1

/-! ## Functions that use those of the headers -/

/-- `cowl_obj_prop_exp_get_prop`, `cowl_obj_prop_exp.c:13-15`. -/
def objPropExpGetProp (o : Obj) : Option Obj :=
  if objPropExpIsInverse o then invObjPropGetProp o else some o

/-- `cowl_is_primitive`, `cowl_object.c:200-202`. -/
def isPrimitive (o : Obj) : Bool := o.otype.flags.primitive

/-- `cowl_is_entity`, `cowl_object.c:204-206`, and `cowl_primitive_is_entity`,
`cowl_primitive.h:53-55`. -/
def isEntity (o : Obj) : Bool := o.otype.flags.entity

/-- `cowl_is_data_prop_exp`, `cowl_object.c:223-225`. -/
def isDataPropExp (o : Obj) : Bool := o.otype == .dpeDataProp

/-- `cowl_get_annot`, `cowl_object.c:272-278`, of objects other than ontologies. -/
def getAnnot (o : Obj) : Option (Option Obj) :=
  if o.otype.isAxiom then axiomGetAnnot o
  else if o.otype = .annotation then annotationGetAnnot o
  else some none

end Cowl.Api
