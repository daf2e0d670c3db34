import Verif.Literal
/-!
# Specification: OWL 2 constructs

The constructs of OWL 2 as a typed syntax, written after the structural specification
(https://www.w3.org/TR/owl2-syntax), and the object that stands for each in the
program. Objects of the program are only loosely typed (`CowlAny *`); the image of
`toObj` is the objects one obtains by calling the constructors as their documentation
asks. Nothing here says how constructs are written or read.
-/
namespace Cowl.Ast

/-- Individuals. -/
inductive Ind where
  | named (i : Iri)
  | anon (id : Str)

/-- Object property expressions. -/
inductive Ope where
  | prop (i : Iri)
  | inv (i : Iri)

/-- Literals. -/
structure Lit where
  value : Str
  tag : LitTag

/-- Data ranges. -/
inductive DR where
  | dt (i : Iri)
  | inter (ds : List DR)
  | union (ds : List DR)
  | compl (d : DR)
  | oneOf (ls : List Lit)
  | restr (i : Iri) (fs : List (Iri × Lit))

/-- Kinds of cardinality restrictions. -/
inductive CardKind where
  | min | max | exact

/-- Class expressions. -/
inductive CE where
  | cls (i : Iri)
  | inter (cs : List CE)
  | union (cs : List CE)
  | compl (c : CE)
  | oneOf (is : List Ind)
  | objSome (p : Ope) (c : CE)
  | objAll (p : Ope) (c : CE)
  | objHasValue (p : Ope) (i : Ind)
  | objHasSelf (p : Ope)
  | objCard (k : CardKind) (n : UInt32) (p : Ope)
  | objCardQ (k : CardKind) (n : UInt32) (p : Ope) (c : CE)
  | dataSome (p : Iri) (d : DR)
  | dataAll (p : Iri) (d : DR)
  | dataHasValue (p : Iri) (l : Lit)
  | dataCard (k : CardKind) (n : UInt32) (p : Iri)
  | dataCardQ (k : CardKind) (n : UInt32) (p : Iri) (d : DR)

/-- Values of annotations. -/
inductive AnnotVal where
  | iri (i : Iri)
  | anon (id : Str)
  | lit (l : Lit)

/-- Subjects of annotation assertions. -/
inductive AnnotSubj where
  | iri (i : Iri)
  | anon (id : Str)

/-- Annotations, possibly annotated. -/
inductive Annot where
  | mk (prop : Iri) (val : AnnotVal) (annots : List Annot)

/-- What an object sub-property axiom has on its left. -/
inductive SubOpe where
  | ope (p : Ope)
  | chain (ps : List Ope)

/-- Characteristics of object properties. -/
inductive OpeChar where
  | func | invFunc | symm | asymm | trans | refl | irrefl

/-- Axioms without their annotations. -/
inductive Ax where
  | decl (k : EntKind) (i : Iri)
  | subClass (c d : CE)
  | equivClasses (cs : List CE)
  | disjClasses (cs : List CE)
  | disjUnion (c : Iri) (cs : List CE)
  | subObjProp (p : SubOpe) (q : Ope)
  | equivObjProp (ps : List Ope)
  | disjObjProp (ps : List Ope)
  | invObjProp (p q : Ope)
  | objPropDomain (p : Ope) (c : CE)
  | objPropRange (p : Ope) (c : CE)
  | objPropChar (k : OpeChar) (p : Ope)
  | subDataProp (p q : Iri)
  | equivDataProp (ps : List Iri)
  | disjDataProp (ps : List Iri)
  | dataPropDomain (p : Iri) (c : CE)
  | dataPropRange (p : Iri) (d : DR)
  | funcDataProp (p : Iri)
  | datatypeDef (i : Iri) (d : DR)
  | hasKey (c : CE) (ps : List Ope) (ds : List Iri)
  | sameInd (is : List Ind)
  | diffInd (is : List Ind)
  | classAssert (c : CE) (i : Ind)
  | objPropAssert (p : Ope) (i j : Ind)
  | negObjPropAssert (p : Ope) (i j : Ind)
  | dataPropAssert (p : Iri) (i : Ind) (l : Lit)
  | negDataPropAssert (p : Iri) (i : Ind) (l : Lit)
  | annotAssert (p : Iri) (s : AnnotSubj) (v : AnnotVal)
  | subAnnotProp (p q : Iri)
  | annotPropDomain (p : Iri) (i : Iri)
  | annotPropRange (p : Iri) (i : Iri)

/-- Axioms with their annotations. -/
structure Axiom where
  ax : Ax
  annots : List Annot

/-! ## Objects of the program -/

/-- An entity. -/
def ent (k : EntKind) (i : Iri) : Obj := .prim (.ent k i)

/-- The object that stands for it. -/
def Ind.toObj : Ind → Obj
  | .named i => ent .namedInd i
  | .anon id => .prim (.anon id)

/-- The object that stands for it. -/
def Ope.toObj : Ope → Obj
  | .prop i => ent .objProp i
  | .inv i => .comp .opeInvObjProp false [ent .objProp i] 0

/-- The object that stands for it. -/
def Lit.toObj (l : Lit) : Obj := .lit l.value l.tag

/-- A facet restriction. -/
def facetObj (f : Iri × Lit) : Obj := .comp .facetRestr false [.prim (.iri f.1), f.2.toObj] 0

mutual
/-- The object that stands for it. -/
def DR.toObj : DR → Obj
  | .dt i => ent .datatype i
  | .inter ds => .comp .drDataIntersect false [.vec false (DR.toObjs ds)] 0
  | .union ds => .comp .drDataUnion false [.vec false (DR.toObjs ds)] 0
  | .compl d => .comp .drDataCompl false [d.toObj] 0
  | .oneOf ls => .comp .drDataOneOf false [.vec false (ls.map Lit.toObj)] 0
  | .restr i fs => .comp .drDatatypeRestr false [ent .datatype i, .vec false (fs.map facetObj)] 0

/-- The objects that stand for the members of a list. -/
def DR.toObjs : List DR → List Obj
  | [] => []
  | d :: ds => d.toObj :: DR.toObjs ds
end

/-- The data range is `rdfs:Literal`. -/
def DR.isTop : DR → Bool
  | .dt i => i == rdfsLiteral
  | _ => false

/-- The class expression is `owl:Thing`. -/
def CE.isTop : CE → Bool
  | .cls i => i == owlThing
  | _ => false

/-- The type of its objects. -/
def CardKind.objType : CardKind → OType
  | .min => .ceObjMinCard
  | .max => .ceObjMaxCard
  | .exact => .ceObjExactCard

/-- The type of its objects. -/
def CardKind.dataType : CardKind → OType
  | .min => .ceDataMinCard
  | .max => .ceDataMaxCard
  | .exact => .ceDataExactCard

mutual
/-- Quantified restrictions have no filler if it is `owl:Thing` or `rdfs:Literal`
(C26). -/
def CE.toObj : CE → Obj
  | .cls i => ent .cls i
  | .inter cs => .comp .ceObjIntersect false [.vec false (CE.toObjs cs)] 0
  | .union cs => .comp .ceObjUnion false [.vec false (CE.toObjs cs)] 0
  | .compl c => .comp .ceObjCompl false [c.toObj] 0
  | .oneOf is => .comp .ceObjOneOf false [.vec false (is.map Ind.toObj)] 0
  | .objSome p c =>
    if c.isTop then .comp .ceObjSome false [p.toObj] 0 else .comp .ceObjSome true [p.toObj, c.toObj] 0
  | .objAll p c =>
    if c.isTop then .comp .ceObjAll false [p.toObj] 0 else .comp .ceObjAll true [p.toObj, c.toObj] 0
  | .objHasValue p i => .comp .ceObjHasValue false [p.toObj, i.toObj] 0
  | .objHasSelf p => .comp .ceObjHasSelf false [p.toObj] 0
  | .objCard k n p => .comp k.objType false [p.toObj] n.toNat
  | .objCardQ k n p c => .comp k.objType true [p.toObj, c.toObj] n.toNat
  | .dataSome p d =>
    if d.isTop then .comp .ceDataSome false [ent .dataProp p] 0
    else .comp .ceDataSome true [ent .dataProp p, d.toObj] 0
  | .dataAll p d =>
    if d.isTop then .comp .ceDataAll false [ent .dataProp p] 0
    else .comp .ceDataAll true [ent .dataProp p, d.toObj] 0
  | .dataHasValue p l => .comp .ceDataHasValue false [ent .dataProp p, l.toObj] 0
  | .dataCard k n p => .comp k.dataType false [ent .dataProp p] n.toNat
  | .dataCardQ k n p d => .comp k.dataType true [ent .dataProp p, d.toObj] n.toNat

/-- The objects that stand for the members of a list. -/
def CE.toObjs : List CE → List Obj
  | [] => []
  | c :: cs => c.toObj :: CE.toObjs cs
end

/-- The object that stands for it. -/
def AnnotVal.toObj : AnnotVal → Obj
  | .iri i => .prim (.iri i)
  | .anon id => .prim (.anon id)
  | .lit l => l.toObj

/-- The object that stands for it. -/
def AnnotSubj.toObj : AnnotSubj → Obj
  | .iri i => .prim (.iri i)
  | .anon id => .prim (.anon id)

/-- A construct with annotations: an empty list is the same as none. -/
def annotated (t : OType) (fs : List Obj) (as : List Obj) : Obj :=
  match as with
  | [] => .comp t false fs 0
  | a :: as => .comp t true (fs ++ [.vec false (a :: as)]) 0

mutual
/-- The object that stands for it. -/
def Annot.toObj : Annot → Obj
  | .mk p v as => annotated .annotation [ent .annotProp p, v.toObj] (Annot.toObjs as)

/-- The objects that stand for the members of a list. -/
def Annot.toObjs : List Annot → List Obj
  | [] => []
  | a :: as => a.toObj :: Annot.toObjs as
end

/-- Chains are ordered vectors. -/
def SubOpe.toObj : SubOpe → Obj
  | .ope p => p.toObj
  | .chain ps => .vec true (ps.map Ope.toObj)

/-- The type of its objects. -/
def OpeChar.type : OpeChar → OType
  | .func => .aFuncObjProp
  | .invFunc => .aInvFuncObjProp
  | .symm => .aSymmObjProp
  | .asymm => .aAsymmObjProp
  | .trans => .aTransObjProp
  | .refl => .aReflObjProp
  | .irrefl => .aIrreflObjProp

/-- Type of an axiom. -/
def Ax.type : Ax → OType
  | .decl .. => .aDecl
  | .subClass .. => .aSubClass
  | .equivClasses .. => .aEquivClasses
  | .disjClasses .. => .aDisjClasses
  | .disjUnion .. => .aDisjUnion
  | .subObjProp .. => .aSubObjProp
  | .equivObjProp .. => .aEquivObjProp
  | .disjObjProp .. => .aDisjObjProp
  | .invObjProp .. => .aInvObjProp
  | .objPropDomain .. => .aObjPropDomain
  | .objPropRange .. => .aObjPropRange
  | .objPropChar k _ => k.type
  | .subDataProp .. => .aSubDataProp
  | .equivDataProp .. => .aEquivDataProp
  | .disjDataProp .. => .aDisjDataProp
  | .dataPropDomain .. => .aDataPropDomain
  | .dataPropRange .. => .aDataPropRange
  | .funcDataProp .. => .aFuncDataProp
  | .datatypeDef .. => .aDatatypeDef
  | .hasKey .. => .aHasKey
  | .sameInd .. => .aSameInd
  | .diffInd .. => .aDiffInd
  | .classAssert .. => .aClassAssert
  | .objPropAssert .. => .aObjPropAssert
  | .negObjPropAssert .. => .aNegObjPropAssert
  | .dataPropAssert .. => .aDataPropAssert
  | .negDataPropAssert .. => .aNegDataPropAssert
  | .annotAssert .. => .aAnnotAssert
  | .subAnnotProp .. => .aSubAnnotProp
  | .annotPropDomain .. => .aAnnotPropDomain
  | .annotPropRange .. => .aAnnotPropRange

/-- Fields of an axiom. -/
def Ax.fields : Ax → List Obj
  | .decl k i => [ent k i]
  | .subClass c d => [c.toObj, d.toObj]
  | .equivClasses cs | .disjClasses cs => [.vec false (CE.toObjs cs)]
  | .disjUnion c cs => [ent .cls c, .vec false (CE.toObjs cs)]
  | .subObjProp p q => [p.toObj, q.toObj]
  | .equivObjProp ps | .disjObjProp ps => [.vec false (ps.map Ope.toObj)]
  | .invObjProp p q => [p.toObj, q.toObj]
  | .objPropDomain p c | .objPropRange p c => [p.toObj, c.toObj]
  | .objPropChar _ p => [p.toObj]
  | .subDataProp p q => [ent .dataProp p, ent .dataProp q]
  | .equivDataProp ps | .disjDataProp ps => [.vec false (ps.map (ent .dataProp))]
  | .dataPropDomain p c => [ent .dataProp p, c.toObj]
  | .dataPropRange p d => [ent .dataProp p, d.toObj]
  | .funcDataProp p => [ent .dataProp p]
  | .datatypeDef i d => [ent .datatype i, d.toObj]
  | .hasKey c ps ds => [c.toObj, .vec false (ps.map Ope.toObj), .vec false (ds.map (ent .dataProp))]
  | .sameInd is | .diffInd is => [.vec false (is.map Ind.toObj)]
  | .classAssert c i => [c.toObj, i.toObj]
  | .objPropAssert p i j | .negObjPropAssert p i j => [p.toObj, i.toObj, j.toObj]
  | .dataPropAssert p i l | .negDataPropAssert p i l => [ent .dataProp p, i.toObj, l.toObj]
  | .annotAssert p s v => [ent .annotProp p, s.toObj, v.toObj]
  | .subAnnotProp p q => [ent .annotProp p, ent .annotProp q]
  | .annotPropDomain p i | .annotPropRange p i => [ent .annotProp p, .prim (.iri i)]

/-- The object that stands for it. -/
def Axiom.toObj (a : Axiom) : Obj := annotated a.ax.type a.ax.fields (Annot.toObjs a.annots)

/-! ## Requirements -/

/-- What is required of the leaves of a construct, and of the number of its operands. -/
structure Req where
  iri : Iri → Prop
  lit : Lit → Prop
  anon : Str → Prop
  /-- A property below another one, outside chains. -/
  sub : Ope → Prop
  /-- The number of operands of intersections, unions, equivalences, chains, ... -/
  two : Nat → Prop
  /-- The number of members of enumerations and of facets. -/
  one : Nat → Prop
  /-- The number of annotations and of properties of a key. -/
  any : Nat → Prop
  /-- Cardinalities. -/
  card : UInt32 → Prop

/-- The individual meets the requirements. -/
def Ind.Meets (R : Req) : Ind → Prop
  | .named i => R.iri i
  | .anon id => R.anon id

/-- The property expression meets the requirements. -/
def Ope.Meets (R : Req) : Ope → Prop
  | .prop i | .inv i => R.iri i

mutual
/-- The data range meets the requirements. -/
def DR.Meets (R : Req) : DR → Prop
  | .dt i => R.iri i
  | .inter ds | .union ds => R.two ds.length ∧ DR.AllMeet R ds
  | .compl d => d.Meets R
  | .oneOf ls => R.one ls.length ∧ ∀ l ∈ ls, R.lit l
  | .restr i fs => R.iri i ∧ R.one fs.length ∧ ∀ f ∈ fs, R.iri f.1 ∧ R.lit f.2

/-- All members of a list meet the requirements. -/
def DR.AllMeet (R : Req) : List DR → Prop
  | [] => True
  | d :: ds => d.Meets R ∧ DR.AllMeet R ds
end

mutual
/-- The class expression meets the requirements. -/
def CE.Meets (R : Req) : CE → Prop
  | .cls i => R.iri i
  | .inter cs | .union cs => R.two cs.length ∧ CE.AllMeet R cs
  | .compl c => c.Meets R
  | .oneOf is => R.one is.length ∧ ∀ i ∈ is, i.Meets R
  | .objSome p c | .objAll p c => p.Meets R ∧ c.Meets R
  | .objCardQ _ n p c => p.Meets R ∧ c.Meets R ∧ R.card n
  | .objHasValue p i => p.Meets R ∧ i.Meets R
  | .objHasSelf p => p.Meets R
  | .objCard _ n p => p.Meets R ∧ R.card n
  | .dataSome p d | .dataAll p d => R.iri p ∧ d.Meets R
  | .dataCardQ _ n p d => R.iri p ∧ d.Meets R ∧ R.card n
  | .dataHasValue p l => R.iri p ∧ R.lit l
  | .dataCard _ n p => R.iri p ∧ R.card n

/-- All members of a list meet the requirements. -/
def CE.AllMeet (R : Req) : List CE → Prop
  | [] => True
  | c :: cs => c.Meets R ∧ CE.AllMeet R cs
end

/-- The value meets the requirements. -/
def AnnotVal.Meets (R : Req) : AnnotVal → Prop
  | .iri i => R.iri i
  | .anon id => R.anon id
  | .lit l => R.lit l

/-- The subject meets the requirements. -/
def AnnotSubj.Meets (R : Req) : AnnotSubj → Prop
  | .iri i => R.iri i
  | .anon id => R.anon id

mutual
/-- The annotation meets the requirements. -/
def Annot.Meets (R : Req) : Annot → Prop
  | .mk p v as => R.iri p ∧ v.Meets R ∧ Annot.AllMeet R as ∧ R.any as.length

/-- All members of a list meet the requirements. -/
def Annot.AllMeet (R : Req) : List Annot → Prop
  | [] => True
  | a :: as => a.Meets R ∧ Annot.AllMeet R as
end

/-- The left of an object sub-property axiom meets the requirements. -/
def SubOpe.Meets (R : Req) : SubOpe → Prop
  | .ope p => p.Meets R ∧ R.sub p
  | .chain ps => R.two ps.length ∧ ∀ p ∈ ps, p.Meets R

/-- The axiom meets the requirements, annotations apart. -/
def Ax.Meets (R : Req) : Ax → Prop
  | .decl _ i => R.iri i
  | .subClass c d => c.Meets R ∧ d.Meets R
  | .equivClasses cs | .disjClasses cs => R.two cs.length ∧ CE.AllMeet R cs
  | .disjUnion c cs => R.iri c ∧ R.two cs.length ∧ CE.AllMeet R cs
  | .subObjProp p q => p.Meets R ∧ q.Meets R
  | .equivObjProp ps | .disjObjProp ps => R.two ps.length ∧ ∀ p ∈ ps, p.Meets R
  | .invObjProp p q => p.Meets R ∧ q.Meets R
  | .objPropDomain p c | .objPropRange p c => p.Meets R ∧ c.Meets R
  | .objPropChar _ p => p.Meets R
  | .subDataProp p q => R.iri p ∧ R.iri q
  | .equivDataProp ps | .disjDataProp ps => R.two ps.length ∧ ∀ p ∈ ps, R.iri p
  | .dataPropDomain p c => R.iri p ∧ c.Meets R
  | .dataPropRange p d => R.iri p ∧ d.Meets R
  | .funcDataProp p => R.iri p
  | .datatypeDef i d => R.iri i ∧ d.Meets R
  | .hasKey c ps ds =>
    c.Meets R ∧ (∀ p ∈ ps, p.Meets R) ∧ (∀ d ∈ ds, R.iri d) ∧ R.any ps.length ∧ R.any ds.length
  | .sameInd is | .diffInd is => R.two is.length ∧ ∀ i ∈ is, i.Meets R
  | .classAssert c i => c.Meets R ∧ i.Meets R
  | .objPropAssert p i j | .negObjPropAssert p i j => p.Meets R ∧ i.Meets R ∧ j.Meets R
  | .dataPropAssert p i l | .negDataPropAssert p i l => R.iri p ∧ i.Meets R ∧ R.lit l
  | .annotAssert p s v => R.iri p ∧ s.Meets R ∧ v.Meets R
  | .subAnnotProp p q => R.iri p ∧ R.iri q
  | .annotPropDomain p i | .annotPropRange p i => R.iri p ∧ R.iri i

/-- The axiom meets the requirements. -/
def Axiom.Meets (R : Req) (a : Axiom) : Prop :=
  a.ax.Meets R ∧ Annot.AllMeet R a.annots ∧ R.any a.annots.length

end Cowl.Ast
