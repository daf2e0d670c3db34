import Verif.FuncLex
import Verif.PrefixMap
import Verif.Literal
/-!
# Grammar of the functional syntax: objects

Models the part of `src/formats/functional/reader/cowl_functional.y` that builds
objects, from tokens. Bison builds an LALR(1) parser; in this grammar the next token
always decides which alternative applies, so it is written as a parser by recursive
descent, driven by the table `prod` with one row for each keyword that begins a
construct. `none` is an error (syntax error or failed action); which error code is
reported is not modelled. Memory exhaustion and the limit on the parser stack are not
modelled.
-/
namespace Cowl.Func

/-- Nonterminals, `cowl_functional.y:183-241`. `subOpe` is the first argument of
`sub_object_property_of`: a property expression or a chain. -/
inductive Cat where
  | iri | ent (k : EntKind) | ind | lit | ope | dr | ce | facet
  | annotVal | annotSubj | annotation | entity | subOpe | ax
  deriving DecidableEq, Repr

/-- Arguments of a construct: one nonterminal, a list with a least length, an optional
nonterminal at the end, a list in parentheses, a cardinality. -/
inductive Arg where
  | one (c : Cat)
  | many (c : Cat) (min : Nat)
  | opt (c : Cat)
  | group (c : Cat)
  | card
  deriving DecidableEq, Repr

/-- A production `KEYWORD ( annotation_star? arguments )`. -/
structure Prod where
  cat : Cat
  type : OType
  annotated : Bool
  args : List Arg

/-- The productions, `cowl_functional.y`. -/
def prod : Kw → Option Prod
  -- 529-535
  | .objectInverseOf => some ⟨.ope, .opeInvObjProp, false, [.one (.ent .objProp)]⟩
  -- 554-593
  | .dataIntersectionOf => some ⟨.dr, .drDataIntersect, false, [.many .dr 2]⟩
  | .dataUnionOf => some ⟨.dr, .drDataUnion, false, [.many .dr 2]⟩
  | .dataComplementOf => some ⟨.dr, .drDataCompl, false, [.one .dr]⟩
  | .dataOneOf => some ⟨.dr, .drDataOneOf, false, [.many .lit 1]⟩
  | .datatypeRestriction => some ⟨.dr, .drDatatypeRestr, false, [.one (.ent .datatype), .many .facet 1]⟩
  -- 627-734
  | .objectIntersectionOf => some ⟨.ce, .ceObjIntersect, false, [.many .ce 2]⟩
  | .objectUnionOf => some ⟨.ce, .ceObjUnion, false, [.many .ce 2]⟩
  | .objectComplementOf => some ⟨.ce, .ceObjCompl, false, [.one .ce]⟩
  | .objectOneOf => some ⟨.ce, .ceObjOneOf, false, [.many .ind 1]⟩
  | .objectSomeValuesFrom => some ⟨.ce, .ceObjSome, false, [.one .ope, .one .ce]⟩
  | .objectAllValuesFrom => some ⟨.ce, .ceObjAll, false, [.one .ope, .one .ce]⟩
  | .objectHasValue => some ⟨.ce, .ceObjHasValue, false, [.one .ope, .one .ind]⟩
  | .objectHasSelf => some ⟨.ce, .ceObjHasSelf, false, [.one .ope]⟩
  | .objectMinCardinality => some ⟨.ce, .ceObjMinCard, false, [.card, .one .ope, .opt .ce]⟩
  | .objectMaxCardinality => some ⟨.ce, .ceObjMaxCard, false, [.card, .one .ope, .opt .ce]⟩
  | .objectExactCardinality => some ⟨.ce, .ceObjExactCard, false, [.card, .one .ope, .opt .ce]⟩
  -- 740-807
  | .dataSomeValuesFrom => some ⟨.ce, .ceDataSome, false, [.one (.ent .dataProp), .one .dr]⟩
  | .dataAllValuesFrom => some ⟨.ce, .ceDataAll, false, [.one (.ent .dataProp), .one .dr]⟩
  | .dataHasValue => some ⟨.ce, .ceDataHasValue, false, [.one (.ent .dataProp), .one .lit]⟩
  | .dataMinCardinality => some ⟨.ce, .ceDataMinCard, false, [.card, .one (.ent .dataProp), .opt .dr]⟩
  | .dataMaxCardinality => some ⟨.ce, .ceDataMaxCard, false, [.card, .one (.ent .dataProp), .opt .dr]⟩
  | .dataExactCardinality => some ⟨.ce, .ceDataExactCard, false, [.card, .one (.ent .dataProp), .opt .dr]⟩
  -- 492-499
  | .declaration => some ⟨.ax, .aDecl, true, [.one .entity]⟩
  -- 831-867
  | .subClassOf => some ⟨.ax, .aSubClass, true, [.one .ce, .one .ce]⟩
  | .equivalentClasses => some ⟨.ax, .aEquivClasses, true, [.many .ce 2]⟩
  | .disjointClasses => some ⟨.ax, .aDisjClasses, true, [.many .ce 2]⟩
  | .disjointUnion => some ⟨.ax, .aDisjUnion, true, [.one (.ent .cls), .many .ce 2]⟩
  -- 887-1019
  | .subObjectPropertyOf => some ⟨.ax, .aSubObjProp, true, [.one .subOpe, .one .ope]⟩
  | .equivalentObjectProperties => some ⟨.ax, .aEquivObjProp, true, [.many .ope 2]⟩
  | .disjointObjectProperties => some ⟨.ax, .aDisjObjProp, true, [.many .ope 2]⟩
  | .inverseObjectProperties => some ⟨.ax, .aInvObjProp, true, [.one .ope, .one .ope]⟩
  | .objectPropertyDomain => some ⟨.ax, .aObjPropDomain, true, [.one .ope, .one .ce]⟩
  | .objectPropertyRange => some ⟨.ax, .aObjPropRange, true, [.one .ope, .one .ce]⟩
  | .functionalObjectProperty => some ⟨.ax, .aFuncObjProp, true, [.one .ope]⟩
  | .inverseFunctionalObjectProperty => some ⟨.ax, .aInvFuncObjProp, true, [.one .ope]⟩
  | .reflexiveObjectProperty => some ⟨.ax, .aReflObjProp, true, [.one .ope]⟩
  | .irreflexiveObjectProperty => some ⟨.ax, .aIrreflObjProp, true, [.one .ope]⟩
  | .symmetricObjectProperty => some ⟨.ax, .aSymmObjProp, true, [.one .ope]⟩
  | .asymmetricObjectProperty => some ⟨.ax, .aAsymmObjProp, true, [.one .ope]⟩
  | .transitiveObjectProperty => some ⟨.ax, .aTransObjProp, true, [.one .ope]⟩
  -- 1032-1087
  | .subDataPropertyOf => some ⟨.ax, .aSubDataProp, true, [.one (.ent .dataProp), .one (.ent .dataProp)]⟩
  | .equivalentDataProperties => some ⟨.ax, .aEquivDataProp, true, [.many (.ent .dataProp) 2]⟩
  | .disjointDataProperties => some ⟨.ax, .aDisjDataProp, true, [.many (.ent .dataProp) 2]⟩
  | .dataPropertyDomain => some ⟨.ax, .aDataPropDomain, true, [.one (.ent .dataProp), .one .ce]⟩
  | .dataPropertyRange => some ⟨.ax, .aDataPropRange, true, [.one (.ent .dataProp), .one .dr]⟩
  | .functionalDataProperty => some ⟨.ax, .aFuncDataProp, true, [.one (.ent .dataProp)]⟩
  -- 1091-1115
  | .datatypeDefinition => some ⟨.ax, .aDatatypeDef, true, [.one (.ent .datatype), .one .dr]⟩
  | .hasKey => some ⟨.ax, .aHasKey, true, [.one .ce, .group .ope, .group (.ent .dataProp)]⟩
  -- 1129-1199
  | .sameIndividual => some ⟨.ax, .aSameInd, true, [.many .ind 2]⟩
  | .differentIndividuals => some ⟨.ax, .aDiffInd, true, [.many .ind 2]⟩
  | .classAssertion => some ⟨.ax, .aClassAssert, true, [.one .ce, .one .ind]⟩
  | .objectPropertyAssertion => some ⟨.ax, .aObjPropAssert, true, [.one .ope, .one .ind, .one .ind]⟩
  | .negativeObjectPropertyAssertion =>
    some ⟨.ax, .aNegObjPropAssert, true, [.one .ope, .one .ind, .one .ind]⟩
  | .dataPropertyAssertion =>
    some ⟨.ax, .aDataPropAssert, true, [.one (.ent .dataProp), .one .ind, .one .lit]⟩
  | .negativeDataPropertyAssertion =>
    some ⟨.ax, .aNegDataPropAssert, true, [.one (.ent .dataProp), .one .ind, .one .lit]⟩
  -- 1203-1211
  | .annotation => some ⟨.annotation, .annotation, true, [.one (.ent .annotProp), .one .annotVal]⟩
  -- 1234-1282
  | .annotationAssertion =>
    some ⟨.ax, .aAnnotAssert, true, [.one (.ent .annotProp), .one .annotSubj, .one .annotVal]⟩
  | .subAnnotationPropertyOf =>
    some ⟨.ax, .aSubAnnotProp, true, [.one (.ent .annotProp), .one (.ent .annotProp)]⟩
  | .annotationPropertyDomain => some ⟨.ax, .aAnnotPropDomain, true, [.one (.ent .annotProp), .one .iri]⟩
  | .annotationPropertyRange => some ⟨.ax, .aAnnotPropRange, true, [.one (.ent .annotProp), .one .iri]⟩
  | _ => none

/-! ## Leaves -/

/-- `iri`, `full_iri`, `abbreviated_iri`, `cowl_functional.y:276-293`. A name with a
colon never makes `parse_short_iri` undefined. -/
def readIri (m : Prefix.PMap) : Tok → Option Iri
  | .iriRef s => (iriFromString s).map fun p => ⟨p.1, p.2⟩
  | .pnameLn s =>
    match m.parseShortIri s with
    | some (some p) => some ⟨p.1, p.2⟩
    | _ => none
  | _ => none

/-- `literal`, `cowl_functional.y:456-488`. `none` includes undefined behaviour of
`cowl_literal` (C25). -/
def readLit (m : Prefix.PMap) : List Tok → Option (Obj × List Tok)
  | .qstr v :: .dcaret :: t :: ts => do
    match literal v (.dt (← readIri m t)) with
    | .lit v t => some (.lit v t, ts)
    | .ub => none
  | .qstr _ :: [.dcaret] => none
  | .qstr v :: .lang l :: ts =>
    match literal v (.lang l) with
    | .lit v t => some (.lit v t, ts)
    | .ub => none
  | .qstr v :: ts =>
    match literal v .none with
    | .lit v t => some (.lit v t, ts)
    | .ub => none
  | _ => none

/-- `anonymous_individual`, `cowl_functional.y:447-452`, or what `f` makes of an IRI. -/
def readAnonOr (m : Prefix.PMap) (f : Iri → Obj) : List Tok → Option (Obj × List Tok)
  | .blank s :: ts => some (.prim (.anon s), ts)
  | t :: ts => (readIri m t).map fun i => (f i, ts)
  | [] => none

/-- `entity`, `cowl_functional.y:501-520`. -/
def entKw : Kw → Option EntKind
  | .class_ => some .cls
  | .datatype => some .datatype
  | .objectProperty => some .objProp
  | .dataProperty => some .dataProp
  | .annotationProperty => some .annotProp
  | .namedIndividual => some .namedInd
  | _ => none

/-! ## Constructs -/

/-- Arguments of a construct as parsed. -/
structure Parsed where
  fields : List Obj
  uint : Nat
  opt : Option Obj

/-- A parser for each nonterminal. -/
abbrev Parser := Cat → List Tok → Option (Obj × List Tok)

/-- Lists, `cowl_functional.y:1301-1448`, up to the closing parenthesis; the fuel
bounds the number of members. -/
def parseMany (p : Parser) (c : Cat) : Nat → List Tok → Option (List Obj × List Tok)
  | 0, _ => none
  | n + 1, ts =>
    match ts with
    | .rpar :: _ => some ([], ts)
    | _ => do
      let (x, ts) ← p c ts
      let (xs, ts) ← parseMany p c n ts
      some (x :: xs, ts)

/-- `annotation_star`, `cowl_functional.y:1286-1299`. -/
def parseAnnots (p : Parser) : Nat → List Tok → Option (List Obj × List Tok)
  | 0, _ => none
  | n + 1, ts =>
    match ts with
    | .kw .annotation :: _ => do
      let (x, ts) ← p .annotation ts
      let (xs, ts) ← parseAnnots p n ts
      some (x :: xs, ts)
    | _ => some ([], ts)

/-- The arguments of a construct, in order. -/
def parseArgs (p : Parser) (n : Nat) : List Arg → List Tok → Option (Parsed × List Tok)
  | [], ts => some (⟨[], 0, none⟩, ts)
  | .one c :: as, ts => do
    let (x, ts) ← p c ts
    let (r, ts) ← parseArgs p n as ts
    some ({ r with fields := x :: r.fields }, ts)
  | .many c k :: as, ts => do
    let (xs, ts) ← parseMany p c n ts
    if xs.length < k then none else
    let (r, ts) ← parseArgs p n as ts
    some ({ r with fields := .vec false xs :: r.fields }, ts)
  | .opt c :: as, ts =>
    match ts with
    | .rpar :: _ => parseArgs p n as ts
    | _ => do
      let (x, ts) ← p c ts
      let (r, ts) ← parseArgs p n as ts
      some ({ r with opt := some x }, ts)
  | .group c :: as, ts =>
    match ts with
    | .lpar :: ts => do
      let (xs, ts) ← parseMany p c n ts
      match ts with
      | .rpar :: ts => do
        let (r, ts) ← parseArgs p n as ts
        some ({ r with fields := .vec false xs :: r.fields }, ts)
      | _ => none
    | _ => none
  | .card :: as, ts =>
    match ts with
    | .nat u :: ts => do
      let (r, ts) ← parseArgs p n as ts
      some ({ r with uint := u.toNat }, ts)
    | _ => none

/-- The constructor called by the action of a production: see the lines given in
`prod`, and the constructors in `include/`, all of which pass their arguments on in the
same order. -/
def build (t : OType) (annotated : Bool) (annots : List Obj) (r : Parsed) : Option Obj :=
  match t, r.fields with
  | .ceObjSome, [p, f] => objQuant 0 p (some f)
  | .ceObjAll, [p, f] => objQuant 1 p (some f)
  | .ceDataSome, [p, f] => dataQuant 0 p (some f)
  | .ceDataAll, [p, f] => dataQuant 1 p (some f)
  | .ceObjMinCard, fs | .ceObjMaxCard, fs | .ceObjExactCard, fs
  | .ceDataMinCard, fs | .ceDataMaxCard, fs | .ceDataExactCard, fs => some (getImplUint t fs r.uint r.opt)
  | _, fs =>
    if annotated then some (getImplAnnot t fs (if annots = [] then none else some (false, annots)))
    else some (getImpl t fs none)

/-- Axioms and annotations begin with their annotations, `cowl_functional.y:492-1282`. -/
def parseAnnotsIf (p : Parser) (n : Nat) (annotated : Bool) (ts : List Tok) : Option (List Obj × List Tok) :=
  if annotated then parseAnnots p n ts else some ([], ts)

/-- A production: keyword, parenthesis, annotations, arguments, parenthesis. -/
def parseConstruct (p : Parser) (n : Nat) (c : Cat) : List Tok → Option (Obj × List Tok)
  | .kw k :: .lpar :: ts =>
    match prod k with
    | some pr =>
      if pr.cat = c then do
        let (as, ts) ← parseAnnotsIf p n pr.annotated ts
        let (r, ts) ← parseArgs p n pr.args ts
        match ts with
        | .rpar :: ts => (build pr.type pr.annotated as r).map fun o => (o, ts)
        | _ => none
      else none
    | none => none
  | _ => none

/-- Alternatives of a nonterminal that is an IRI or a construct:
`object_property_expression`, `data_range`, `class_expression`,
`cowl_functional.y:524-527`, `545-552`, `606-625`. -/
def parseExp (m : Prefix.PMap) (p : Parser) (n : Nat) (c : Cat) (k : EntKind) :
    List Tok → Option (Obj × List Tok)
  | .kw kw :: ts => parseConstruct p n c (.kw kw :: ts)
  | t :: ts => (readIri m t).map fun i => (.prim (.ent k i), ts)
  | [] => none

/-- One level of the parser, given the parser for what is nested. -/
def parseStep (m : Prefix.PMap) (p : Parser) (n : Nat) : Parser
  | .iri, t :: ts => (readIri m t).map fun i => (.prim (.iri i), ts)
  | .ent k, t :: ts => (readIri m t).map fun i => (.prim (.ent k i), ts)
  -- 434-452
  | .ind, ts => readAnonOr m (fun i => .prim (.ent .namedInd i)) ts
  | .lit, ts => readLit m ts
  -- 524-535
  | .ope, ts => parseExp m p n .ope .objProp ts
  | .dr, ts => parseExp m p n .dr .datatype ts
  | .ce, ts => parseExp m p n .ce .cls ts
  -- 595-602
  | .facet, t :: ts => do
    let i ← readIri m t
    let (l, ts) ← readLit m ts
    some (getImpl .facetRestr [.prim (.iri i), l] none, ts)
  -- 1213-1223
  | .annotVal, .qstr s :: ts => readLit m (.qstr s :: ts)
  | .annotVal, ts => readAnonOr m (fun i => .prim (.iri i)) ts
  -- 1245-1252
  | .annotSubj, ts => readAnonOr m (fun i => .prim (.iri i)) ts
  -- 501-520
  | .entity, .kw k :: .lpar :: t :: .rpar :: ts => do
    let e ← entKw k
    let i ← readIri m t
    some (.prim (.ent e i), ts)
  -- 895-908; `cowl_sub_obj_prop_chain_axiom` makes the vector ordered
  | .subOpe, .kw .objectPropertyChain :: .lpar :: ts => do
    let (xs, ts) ← parseMany p .ope n ts
    if xs.length < 2 then none else
    match ts with
    | .rpar :: ts => some (.vec true xs, ts)
    | _ => none
  | .subOpe, ts => p .ope ts
  | .annotation, ts => parseConstruct p n .annotation ts
  | .ax, ts => parseConstruct p n .ax ts
  | _, _ => none

/-- The parser, `cowl_functional.y:276-1448`; the fuel bounds the nesting. -/
def parseCat (m : Prefix.PMap) : Nat → Parser
  | 0 => fun _ _ => none
  | n + 1 => parseStep m (parseCat m n) n

end Cowl.Func
