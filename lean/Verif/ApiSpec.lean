import Verif.Api
import Verif.Ast
/-!
# Specification: constructs are put together and taken apart

A client that builds each construct of OWL 2 (`Verif.Ast`) with the constructors of the library,
as their documentation asks, and a client that takes objects apart with the type predicates and the
accessors. Both are written after the documentation of the headers only: which constructor yields
which construct, and which accessor yields which part.
-/
namespace Cowl.Ast
open Cowl.Api

/-! ## Putting together -/

/-- Object property expressions. -/
def Ope.build : Ope → Obj
  | .prop i => ent .objProp i
  | .inv i => invObjProp (ent .objProp i)

/-- Facet restrictions. -/
def facetBuild (f : Iri × Lit) : Obj := facetRestr (.prim (.iri f.1)) f.2.toObj

mutual
/-- Data ranges. -/
def DR.build : DR → Option Obj
  | .dt i => some (ent .datatype i)
  | .inter ds => (DR.buildAll ds).bind fun xs => dataIntersect (false, xs)
  | .union ds => (DR.buildAll ds).bind fun xs => dataUnion (false, xs)
  | .compl d => d.build.map dataCompl
  | .oneOf ls => some (dataOneOf (false, ls.map Lit.toObj))
  | .restr i fs => some (datatypeRestr (ent .datatype i) (false, fs.map facetBuild))

/-- Several data ranges. -/
def DR.buildAll : List DR → Option (List Obj)
  | [] => some []
  | d :: ds => d.build.bind fun x => (DR.buildAll ds).map (x :: ·)
end

/-- Cardinality restrictions on object properties. -/
def CardKind.obj : CardKind → Obj → Option Obj → Nat → Option Obj
  | .min => objMin
  | .max => objMax
  | .exact => objExact

/-- Cardinality restrictions on data properties. -/
def CardKind.data : CardKind → Obj → Option Obj → Nat → Option Obj
  | .min => dataMin
  | .max => dataMax
  | .exact => dataExact

mutual
/-- Class expressions. -/
def CE.build : CE → Option Obj
  | .cls i => some (ent .cls i)
  | .inter cs => (CE.buildAll cs).bind fun xs => objIntersect (false, xs)
  | .union cs => (CE.buildAll cs).bind fun xs => objUnion (false, xs)
  | .compl c => c.build.map objCompl
  | .oneOf is => some (objOneOf (false, is.map Ind.toObj))
  | .objSome p c => c.build.bind fun x => Api.objSome p.build (some x)
  | .objAll p c => c.build.bind fun x => Api.objAll p.build (some x)
  | .objHasValue p i => some (Api.objHasValue p.build i.toObj)
  | .objHasSelf p => some (Api.objHasSelf p.build)
  | .objCard k n p => k.obj p.build none n.toNat
  | .objCardQ k n p c => c.build.bind fun x => k.obj p.build (some x) n.toNat
  | .dataSome p d => d.build.bind fun x => Api.dataSome (ent .dataProp p) (some x)
  | .dataAll p d => d.build.bind fun x => Api.dataAll (ent .dataProp p) (some x)
  | .dataHasValue p l => some (Api.dataHasValue (ent .dataProp p) l.toObj)
  | .dataCard k n p => k.data (ent .dataProp p) none n.toNat
  | .dataCardQ k n p d => d.build.bind fun x => k.data (ent .dataProp p) (some x) n.toNat

/-- Several class expressions. -/
def CE.buildAll : List CE → Option (List Obj)
  | [] => some []
  | c :: cs => c.build.bind fun x => (CE.buildAll cs).map (x :: ·)
end

mutual
/-- Annotations. -/
def Annot.build : Annot → Obj
  | .mk p v as => annotation (ent .annotProp p) v.toObj (some (false, Annot.buildAll as))

/-- Several annotations. -/
def Annot.buildAll : List Annot → List Obj
  | [] => []
  | a :: as => a.build :: Annot.buildAll as
end

/-- Characteristics of object properties. -/
def OpeChar.build : OpeChar → Obj → Option Vec → Option Obj
  | .func => funcObjPropAxiom
  | .invFunc => invFuncObjPropAxiom
  | .symm => symmObjPropAxiom
  | .asymm => asymmObjPropAxiom
  | .trans => transObjPropAxiom
  | .refl => reflObjPropAxiom
  | .irrefl => irreflObjPropAxiom

/-- Axioms, with a vector of annotations. -/
def Ax.build (annot : Option Vec) : Ax → Option Obj
  | .decl k i => some (declAxiom (ent k i) annot)
  | .subClass c d => c.build.bind fun x => d.build.map fun y => subClsAxiom x y annot
  | .equivClasses cs => (CE.buildAll cs).bind fun xs => equivClsAxiom (false, xs) annot
  | .disjClasses cs => (CE.buildAll cs).bind fun xs => disjClsAxiom (false, xs) annot
  | .disjUnion c cs => (CE.buildAll cs).map fun xs => disjUnionAxiom (ent .cls c) (false, xs) annot
  | .subObjProp (.ope p) q => some (subObjPropAxiom p.build q.build annot)
  | .subObjProp (.chain ps) q => some (subObjPropChainAxiom (false, ps.map Ope.build) q.build annot)
  | .equivObjProp ps => equivObjPropAxiom (false, ps.map Ope.build) annot
  | .disjObjProp ps => disjObjPropAxiom (false, ps.map Ope.build) annot
  | .invObjProp p q => some (invObjPropAxiom p.build q.build annot)
  | .objPropDomain p c => c.build.map fun x => objPropDomainAxiom p.build x annot
  | .objPropRange p c => c.build.map fun x => objPropRangeAxiom p.build x annot
  | .objPropChar k p => k.build p.build annot
  | .subDataProp p q => some (subDataPropAxiom (ent .dataProp p) (ent .dataProp q) annot)
  | .equivDataProp ps => equivDataPropAxiom (false, ps.map (ent .dataProp)) annot
  | .disjDataProp ps => disjDataPropAxiom (false, ps.map (ent .dataProp)) annot
  | .dataPropDomain p c => c.build.map fun x => dataPropDomainAxiom (ent .dataProp p) x annot
  | .dataPropRange p d => d.build.map fun x => dataPropRangeAxiom (ent .dataProp p) x annot
  | .funcDataProp p => some (funcDataPropAxiom (ent .dataProp p) annot)
  | .datatypeDef i d => d.build.map fun x => datatypeDefAxiom (ent .datatype i) x annot
  | .hasKey c ps ds => c.build.map fun x =>
      hasKeyAxiom x (some (false, ps.map Ope.build)) (some (false, ds.map (ent .dataProp))) annot
  | .sameInd is => sameIndAxiom (false, is.map Ind.toObj) annot
  | .diffInd is => diffIndAxiom (false, is.map Ind.toObj) annot
  | .classAssert c i => c.build.map fun x => clsAssertAxiom x i.toObj annot
  | .objPropAssert p i j => some (objPropAssertAxiom p.build i.toObj j.toObj annot)
  | .negObjPropAssert p i j => some (negObjPropAssertAxiom p.build i.toObj j.toObj annot)
  | .dataPropAssert p i l => some (dataPropAssertAxiom (ent .dataProp p) i.toObj l.toObj annot)
  | .negDataPropAssert p i l => some (negDataPropAssertAxiom (ent .dataProp p) i.toObj l.toObj annot)
  | .annotAssert p s v => some (annotAssertAxiom (ent .annotProp p) s.toObj v.toObj annot)
  | .subAnnotProp p q => some (subAnnotPropAxiom (ent .annotProp p) (ent .annotProp q) annot)
  | .annotPropDomain p i => some (annotPropDomainAxiom (ent .annotProp p) (.prim (.iri i)) annot)
  | .annotPropRange p i => some (annotPropRangeAxiom (ent .annotProp p) (.prim (.iri i)) annot)

/-- Axioms with their annotations. -/
def Axiom.build (a : Axiom) : Option Obj := a.ax.build (some (false, Annot.buildAll a.annots))

/-! ## Taking apart -/

/-- The IRI of an object that is one. -/
def readIri : Obj → Option Iri
  | .prim (.iri i) => some i
  | _ => none

/-- The IRI of an entity of a kind. -/
def readEnt (k : EntKind) : Obj → Option Iri
  | .prim (.ent k' i) => if k' = k then some i else none
  | _ => none

/-- The label of an anonymous individual. -/
def readAnon : Obj → Option Str
  | .prim (.anon id) => some id
  | _ => none

/-- Individuals. -/
def readInd (o : Obj) : Option Ind :=
  if !o.otype.isIndividual then none
  else if individualIsNamed o then (readEnt .namedInd o).map .named
  else (readAnon o).map .anon

/-- Object property expressions. -/
def readOpe (o : Obj) : Option Ope :=
  if !o.otype.isObjPropExp then none
  else (objPropExpGetProp o).bind fun p => (readEnt .objProp p).map fun i =>
    if objPropExpIsInverse o then .inv i else .prop i

/-- Data property expressions. -/
def readDpe (o : Obj) : Option Iri :=
  if !isDataPropExp o then none else readEnt .dataProp (dataPropExpGetProp o)

/-- Literals: the language, if there is one, or else the datatype. -/
def readLit : Obj → Option Lit
  | .lit v t => some ⟨v, match litLang t with
    | some l => .lang l
    | none => .dt (litDatatype t)⟩
  | _ => none

/-- Facet restrictions. -/
def readFacet (o : Obj) : Option (Iri × Lit) :=
  if o.otype ≠ .facetRestr then none
  else (facetRestrGetFacet o).bind fun f => (readIri f).bind fun i =>
    (facetRestrGetValue o).bind fun v => (readLit v).map fun l => (i, l)

/-- Members of a vector. -/
def readVec {α} (f : Obj → Option α) (v : Option Vec) : Option (List α) := v.bind fun v => v.2.mapM f

/-- Data ranges, nested to a depth of at most the first argument. -/
def readDR : Nat → Obj → Option DR
  | 0, _ => none
  | n + 1, o =>
    if !o.otype.isDataRange then none else
    match (dataRangeGetType o).bind (DRT.values[·]?) with
    | some .datatype => (readEnt .datatype o).map .dt
    | some .dataIntersect | some .dataUnion =>
      (readVec (readDR n) (naryDataGetOperands o)).bind fun ds =>
        match (naryDataGetType o).bind (NT.values[·]?) with
        | some .intersect => some (.inter ds)
        | some .union => some (.union ds)
        | none => none
    | some .dataCompl => (dataComplGetOperand o).bind fun x => (readDR n x).map .compl
    | some .dataOneOf => (readVec readLit (dataOneOfGetValues o)).map .oneOf
    | some .datatypeRestr =>
      (datatypeRestrGetDatatype o).bind fun x => (readEnt .datatype x).bind fun i =>
        (readVec readFacet (datatypeRestrGetRestrictions o)).map fun fs => .restr i fs
    | none => none

/-- Kinds of cardinality restrictions. -/
def readCard : CT → CardKind
  | .min => .min
  | .max => .max
  | .exact => .exact

/-- Class expressions, nested to a depth of at most the first argument. -/
def readCE : Nat → Obj → Option CE
  | 0, _ => none
  | n + 1, o =>
    if !o.otype.isClsExp then none else
    match (clsExpGetType o).bind (CET.values[·]?) with
    | some .cls => (readEnt .cls o).map .cls
    | some .objIntersect | some .objUnion =>
      (readVec (readCE n) (naryClsGetOperands o)).bind fun cs =>
        match (naryClsGetType o).bind (NT.values[·]?) with
        | some .intersect => some (.inter cs)
        | some .union => some (.union cs)
        | none => none
    | some .objCompl => (objComplGetOperand o).bind fun x => (readCE n x).map .compl
    | some .objOneOf => (readVec readInd (objOneOfGetInds o)).map .oneOf
    | some .objSome | some .objAll =>
      (objQuantGetProp o).bind fun x => (readOpe x).bind fun p =>
      (objQuantGetFiller o).bind fun y => (readCE n y).bind fun c =>
        match (objQuantGetType o).bind (QT.values[·]?) with
        | some .some => some (.objSome p c)
        | some .all => some (.objAll p c)
        | none => none
    | some .objHasValue =>
      (objHasValueGetProp o).bind fun x => (readOpe x).bind fun p =>
      (objHasValueGetValue o).bind fun y => (readInd y).map fun i => .objHasValue p i
    | some .objHasSelf => (objHasSelfGetProp o).bind fun x => (readOpe x).map .objHasSelf
    | some .objMinCard | some .objMaxCard | some .objExactCard =>
      (objCardGetProp o).bind fun x => (readOpe x).bind fun p =>
      (objCardGetCardinality o).bind fun k =>
      ((objCardGetType o).bind (CT.values[·]?)).bind fun t =>
      if objCardIsQualified o then
        (objCardGetFiller o).bind fun f => f.bind fun y => (readCE n y).map fun c =>
          .objCardQ (readCard t) (.ofNat k) p c
      else some (.objCard (readCard t) (.ofNat k) p)
    | some .dataSome | some .dataAll =>
      (dataQuantGetProp o).bind fun x => (readDpe x).bind fun p =>
      (dataQuantGetRange o).bind fun y => (readDR n y).bind fun d =>
        match (dataQuantGetType o).bind (QT.values[·]?) with
        | some .some => some (.dataSome p d)
        | some .all => some (.dataAll p d)
        | none => none
    | some .dataHasValue =>
      (dataHasValueGetProp o).bind fun x => (readDpe x).bind fun p =>
      (dataHasValueGetValue o).bind fun y => (readLit y).map fun l => .dataHasValue p l
    | some .dataMinCard | some .dataMaxCard | some .dataExactCard =>
      (dataCardGetProp o).bind fun x => (readDpe x).bind fun p =>
      (dataCardGetCardinality o).bind fun k =>
      ((dataCardGetType o).bind (CT.values[·]?)).bind fun t =>
      if dataCardIsQualified o then
        (dataCardGetRange o).bind fun f => f.bind fun y => (readDR n y).map fun d =>
          .dataCardQ (readCard t) (.ofNat k) p d
      else some (.dataCard (readCard t) (.ofNat k) p)
    | none => none

/-- Values of annotations. -/
def readVal (o : Obj) : Option AnnotVal :=
  match AVT.values[annotValueGetType o]? with
  | some .iri => (readIri o).map .iri
  | some .literal => (readLit o).map .lit
  | some .anonInd => (readAnon o).map .anon
  | none => none

/-- Subjects of annotation assertions. -/
def readSubj (o : Obj) : Option AnnotSubj :=
  match AVT.values[annotValueGetType o]? with
  | some .iri => (readIri o).map .iri
  | some .anonInd => (readAnon o).map .anon
  | _ => none

/-- A vector of annotations, or none of them. -/
def readAnnots (f : Obj → Option Annot) : Option Obj → Option (List Annot)
  | none => some []
  | some v => readVec f (asVec v)

/-- Annotations, nested to a depth of at most the first argument. -/
def readAnnot : Nat → Obj → Option Annot
  | 0, _ => none
  | n + 1, o =>
    if o.otype ≠ .annotation then none else
    (annotationGetProp o).bind fun x => (readEnt .annotProp x).bind fun p =>
    (annotationGetValue o).bind fun y => (readVal y).bind fun v =>
    (annotationGetAnnot o).bind fun a => (readAnnots (readAnnot n) a).map fun as => .mk p v as

/-- Characteristics of object properties. -/
def readChar : CAT → OpeChar
  | .func => .func
  | .invFunc => .invFunc
  | .refl => .refl
  | .irrefl => .irrefl
  | .symm => .symm
  | .asymm => .asymm
  | .trans => .trans

/-- Entities. -/
def readEntity : Obj → Option (EntKind × Iri)
  | .prim (.ent k i) => some (k, i)
  | _ => none

/-- What an object sub-property axiom has on its left. -/
def readSub (o : Obj) : Option SubOpe :=
  if o.otype = .vector then (readVec readOpe (asVec o)).map .chain else (readOpe o).map .ope

/-- Axioms, with expressions nested to a depth of at most the first argument. -/
def readAx (n : Nat) (o : Obj) : Option Ax :=
  if !o.otype.isAxiom then none else
  match (axiomGetType o).bind (AT.values[·]?) with
  | some .decl => (declAxiomGetEntity o).bind fun x => (readEntity x).map fun e => .decl e.1 e.2
  | some .subClass =>
    (subClsAxiomGetSub o).bind fun x => (readCE n x).bind fun c =>
    (subClsAxiomGetSuper o).bind fun y => (readCE n y).map fun d => .subClass c d
  | some .equivClasses | some .disjClasses =>
    (readVec (readCE n) (naryClsAxiomGetClasses o)).bind fun cs =>
      match (naryClsAxiomGetType o).bind (NAT.values[·]?) with
      | some .equiv => some (.equivClasses cs)
      | some .disj => some (.disjClasses cs)
      | none => none
  | some .disjUnion =>
    (disjUnionAxiomGetClass o).bind fun x => (readEnt .cls x).bind fun c =>
    (readVec (readCE n) (disjUnionAxiomGetDisjoints o)).map fun cs => .disjUnion c cs
  | some .subObjProp =>
    (subObjPropAxiomGetSub o).bind fun x => (readSub x).bind fun p =>
    (subObjPropAxiomGetSuper o).bind fun y => (readOpe y).map fun q => .subObjProp p q
  | some .equivObjProp | some .disjObjProp =>
    (readVec readOpe (naryObjPropAxiomGetProps o)).bind fun ps =>
      match (naryObjPropAxiomGetType o).bind (NAT.values[·]?) with
      | some .equiv => some (.equivObjProp ps)
      | some .disj => some (.disjObjProp ps)
      | none => none
  | some .invObjProp =>
    (invObjPropAxiomGetFirstProp o).bind fun x => (readOpe x).bind fun p =>
    (invObjPropAxiomGetSecondProp o).bind fun y => (readOpe y).map fun q => .invObjProp p q
  | some .objPropDomain =>
    (objPropDomainAxiomGetProp o).bind fun x => (readOpe x).bind fun p =>
    (objPropDomainAxiomGetDomain o).bind fun y => (readCE n y).map fun c => .objPropDomain p c
  | some .objPropRange =>
    (objPropRangeAxiomGetProp o).bind fun x => (readOpe x).bind fun p =>
    (objPropRangeAxiomGetRange o).bind fun y => (readCE n y).map fun c => .objPropRange p c
  | some .funcObjProp | some .invFuncObjProp | some .reflObjProp | some .irreflObjProp
  | some .symmObjProp | some .asymmObjProp | some .transObjProp =>
    ((objPropCharAxiomGetType o).bind (CAT.values[·]?)).bind fun k =>
    (objPropCharAxiomGetProp o).bind fun x => (readOpe x).map fun p => .objPropChar (readChar k) p
  | some .subDataProp =>
    (subDataPropAxiomGetSub o).bind fun x => (readDpe x).bind fun p =>
    (subDataPropAxiomGetSuper o).bind fun y => (readDpe y).map fun q => .subDataProp p q
  | some .equivDataProp | some .disjDataProp =>
    (readVec readDpe (naryDataPropAxiomGetProps o)).bind fun ps =>
      match (naryDataPropAxiomGetType o).bind (NAT.values[·]?) with
      | some .equiv => some (.equivDataProp ps)
      | some .disj => some (.disjDataProp ps)
      | none => none
  | some .dataPropDomain =>
    (dataPropDomainAxiomGetProp o).bind fun x => (readDpe x).bind fun p =>
    (dataPropDomainAxiomGetDomain o).bind fun y => (readCE n y).map fun c => .dataPropDomain p c
  | some .dataPropRange =>
    (dataPropRangeAxiomGetProp o).bind fun x => (readDpe x).bind fun p =>
    (dataPropRangeAxiomGetRange o).bind fun y => (readDR n y).map fun d => .dataPropRange p d
  | some .funcDataProp => (funcDataPropAxiomGetProp o).bind fun x => (readDpe x).map .funcDataProp
  | some .datatypeDef =>
    (datatypeDefAxiomGetDatatype o).bind fun x => (readEnt .datatype x).bind fun i =>
    (datatypeDefAxiomGetRange o).bind fun y => (readDR n y).map fun d => .datatypeDef i d
  | some .hasKey =>
    (hasKeyAxiomGetClsExp o).bind fun x => (readCE n x).bind fun c =>
    (readVec readOpe (hasKeyAxiomGetObjProps o)).bind fun ps =>
    (readVec readDpe (hasKeyAxiomGetDataProps o)).map fun ds => .hasKey c ps ds
  | some .sameInd | some .diffInd =>
    (readVec readInd (naryIndAxiomGetIndividuals o)).bind fun is =>
      match (naryIndAxiomGetType o).bind (NAT.values[·]?) with
      | some .equiv => some (.sameInd is)
      | some .disj => some (.diffInd is)
      | none => none
  | some .classAssert =>
    (clsAssertAxiomGetClsExp o).bind fun x => (readCE n x).bind fun c =>
    (clsAssertAxiomGetInd o).bind fun y => (readInd y).map fun i => .classAssert c i
  | some .objPropAssert | some .negObjPropAssert =>
    (objPropAssertAxiomGetProp o).bind fun x => (readOpe x).bind fun p =>
    (objPropAssertAxiomGetSubject o).bind fun y => (readInd y).bind fun i =>
    (objPropAssertAxiomGetObject o).bind fun z => (readInd z).map fun j =>
      if objPropAssertAxiomIsNegative o then .negObjPropAssert p i j else .objPropAssert p i j
  | some .dataPropAssert | some .negDataPropAssert =>
    (dataPropAssertAxiomGetProp o).bind fun x => (readDpe x).bind fun p =>
    (dataPropAssertAxiomGetSubject o).bind fun y => (readInd y).bind fun i =>
    (dataPropAssertAxiomGetValue o).bind fun z => (readLit z).map fun l =>
      if dataPropAssertAxiomIsNegative o then .negDataPropAssert p i l else .dataPropAssert p i l
  | some .annotAssert =>
    (annotAssertAxiomGetProp o).bind fun x => (readEnt .annotProp x).bind fun p =>
    (annotAssertAxiomGetSubject o).bind fun y => (readSubj y).bind fun s =>
    (annotAssertAxiomGetValue o).bind fun z => (readVal z).map fun v => .annotAssert p s v
  | some .subAnnotProp =>
    (subAnnotPropAxiomGetSub o).bind fun x => (readEnt .annotProp x).bind fun p =>
    (subAnnotPropAxiomGetSuper o).bind fun y => (readEnt .annotProp y).map fun q => .subAnnotProp p q
  | some .annotPropDomain =>
    (annotPropDomainAxiomGetProp o).bind fun x => (readEnt .annotProp x).bind fun p =>
    (annotPropDomainAxiomGetDomain o).bind fun y => (readIri y).map fun i => .annotPropDomain p i
  | some .annotPropRange =>
    (annotPropRangeAxiomGetProp o).bind fun x => (readEnt .annotProp x).bind fun p =>
    (annotPropRangeAxiomGetRange o).bind fun y => (readIri y).map fun i => .annotPropRange p i
  | none => none

/-- Axioms with their annotations. -/
def readAxiom (n : Nat) (o : Obj) : Option Axiom :=
  (readAx n o).bind fun a => (axiomGetAnnot o).bind fun v =>
    (readAnnots (readAnnot n) v).map fun as => ⟨a, as⟩

/-! ## Names -/

/-- Names of axioms in the functional-style syntax of OWL 2. -/
def Ax.keyword : Ax → String
  | .decl .. => "Declaration"
  | .subClass .. => "SubClassOf"
  | .equivClasses .. => "EquivalentClasses"
  | .disjClasses .. => "DisjointClasses"
  | .disjUnion .. => "DisjointUnion"
  | .subObjProp .. => "SubObjectPropertyOf"
  | .equivObjProp .. => "EquivalentObjectProperties"
  | .disjObjProp .. => "DisjointObjectProperties"
  | .invObjProp .. => "InverseObjectProperties"
  | .objPropDomain .. => "ObjectPropertyDomain"
  | .objPropRange .. => "ObjectPropertyRange"
  | .objPropChar .func _ => "FunctionalObjectProperty"
  | .objPropChar .invFunc _ => "InverseFunctionalObjectProperty"
  | .objPropChar .refl _ => "ReflexiveObjectProperty"
  | .objPropChar .irrefl _ => "IrreflexiveObjectProperty"
  | .objPropChar .symm _ => "SymmetricObjectProperty"
  | .objPropChar .asymm _ => "AsymmetricObjectProperty"
  | .objPropChar .trans _ => "TransitiveObjectProperty"
  | .subDataProp .. => "SubDataPropertyOf"
  | .equivDataProp .. => "EquivalentDataProperties"
  | .disjDataProp .. => "DisjointDataProperties"
  | .dataPropDomain .. => "DataPropertyDomain"
  | .dataPropRange .. => "DataPropertyRange"
  | .funcDataProp .. => "FunctionalDataProperty"
  | .datatypeDef .. => "DatatypeDefinition"
  | .hasKey .. => "HasKey"
  | .sameInd .. => "SameIndividual"
  | .diffInd .. => "DifferentIndividuals"
  | .classAssert .. => "ClassAssertion"
  | .objPropAssert .. => "ObjectPropertyAssertion"
  | .negObjPropAssert .. => "NegativeObjectPropertyAssertion"
  | .dataPropAssert .. => "DataPropertyAssertion"
  | .negDataPropAssert .. => "NegativeDataPropertyAssertion"
  | .annotAssert .. => "AnnotationAssertion"
  | .subAnnotProp .. => "SubAnnotationPropertyOf"
  | .annotPropDomain .. => "AnnotationPropertyDomain"
  | .annotPropRange .. => "AnnotationPropertyRange"

/-- Names of class expressions in the functional-style syntax of OWL 2; that of a class is the one
it has in a declaration. -/
def CE.keyword : CE → String
  | .cls _ => "Class"
  | .inter _ => "ObjectIntersectionOf"
  | .union _ => "ObjectUnionOf"
  | .compl _ => "ObjectComplementOf"
  | .oneOf _ => "ObjectOneOf"
  | .objSome .. => "ObjectSomeValuesFrom"
  | .objAll .. => "ObjectAllValuesFrom"
  | .objHasValue .. => "ObjectHasValue"
  | .objHasSelf _ => "ObjectHasSelf"
  | .objCard .min .. | .objCardQ .min .. => "ObjectMinCardinality"
  | .objCard .max .. | .objCardQ .max .. => "ObjectMaxCardinality"
  | .objCard .exact .. | .objCardQ .exact .. => "ObjectExactCardinality"
  | .dataSome .. => "DataSomeValuesFrom"
  | .dataAll .. => "DataAllValuesFrom"
  | .dataHasValue .. => "DataHasValue"
  | .dataCard .min .. | .dataCardQ .min .. => "DataMinCardinality"
  | .dataCard .max .. | .dataCardQ .max .. => "DataMaxCardinality"
  | .dataCard .exact .. | .dataCardQ .exact .. => "DataExactCardinality"

/-- The same for data ranges. -/
def DR.keyword : DR → String
  | .dt _ => "Datatype"
  | .inter _ => "DataIntersectionOf"
  | .union _ => "DataUnionOf"
  | .compl _ => "DataComplementOf"
  | .oneOf _ => "DataOneOf"
  | .restr .. => "DatatypeRestriction"

/-- The categories of constructs that the predicates `cowl_is_axiom`, `cowl_is_cls_exp`,
`cowl_is_data_range`, `cowl_is_obj_prop_exp`, `cowl_is_data_prop_exp` and `cowl_is_individual`
tell, in this order. -/
def categories (o : Obj) : List Bool :=
  [o.otype.isAxiom, o.otype.isClsExp, o.otype.isDataRange, o.otype.isObjPropExp, isDataPropExp o,
   o.otype.isIndividual]

end Cowl.Ast
