import Verif.FuncLex
import Verif.Own
/-!
# The grammar of the functional reader, with its actions

The rules of `src/formats/functional/reader/cowl_functional.y`, transcribed one by one, each with
what its action does to the references it holds. Line numbers in the table are of that file.
-/
namespace Cowl.YOwn
open Cowl.Own

/-- Terminals, `cowl_functional.y:142-179`. `other` stands for a character that is no token of the
grammar, which the scanner returns as such. -/
inductive Term where
  | kw (k : Func.Kw)
  | nat | qstr | blank | pnameNs | pnameLn | lang | iriRef
  | lpar | rpar | equals | dcaret
  | other
  deriving DecidableEq

/-- Nonterminals, in the order of their rules, `cowl_functional.y:276-1447`. -/
inductive NT where
  | fullIri | abbreviatedIri | iri | ontologyDocument | prefixDeclarations | prefix_ | ns
  | prefixDeclaration | ontology | ontologyId | imp | importsAndAnnotations | axs | cls | datatype
  | objectProperty | dataProperty | annotationProperty | individual | namedIndividual
  | anonymousIndividual | quotedString | langTag | literal | declaration | entity
  | objectPropertyExpression | inverseObjectProperty | dataPropertyExpression | dataRange
  | dataIntersectionOf | dataUnionOf | dataComplementOf | dataOneOf | datatypeRestriction
  | facetRestriction | classExpression | objectIntersectionOf | objectUnionOf | objectComplementOf
  | objectOneOf | objectSomeValuesFrom | objectAllValuesFrom | objectHasValue | objectHasSelf
  | objectMinCardinality | objectMaxCardinality | objectExactCardinality | cardinality
  | dataSomeValuesFrom | dataAllValuesFrom | dataHasValue | dataMinCardinality
  | dataMaxCardinality | dataExactCardinality | ax | classAxiom | subClassOf | equivalentClasses
  | disjointClasses | disjointUnion | objectPropertyAxiom | subObjectPropertyOf
  | propertyExpressionChain | equivalentObjectProperties | disjointObjectProperties
  | inverseObjectProperties | objectPropertyDomain | objectPropertyRange
  | functionalObjectProperty | inverseFunctionalObjectProperty | reflexiveObjectProperty
  | irreflexiveObjectProperty | symmetricObjectProperty | asymmetricObjectProperty
  | transitiveObjectProperty | dataPropertyAxiom | subDataPropertyOf | equivalentDataProperties
  | disjointDataProperties | dataPropertyDomain | dataPropertyRange | functionalDataProperty
  | datatypeDefinition | hasKey | assertion | sameIndividual | differentIndividuals
  | classAssertion | objectPropertyAssertion | negativeObjectPropertyAssertion
  | dataPropertyAssertion | negativeDataPropertyAssertion | annotation | annotationValue
  | annotationAxiom | annotationAssertion | annotationSubject | subAnnotationPropertyOf
  | annotationPropertyDomain | annotationPropertyRange | annotationStar | classExpressionList
  | classExpression2List | dataPropertyExpressionList | dataPropertyExpression2List
  | dataPropertyExpressionStar | dataRangeList | dataRange2List | facetRestrictionList
  | individualList | individual2List | literalList | objectPropertyExpressionList
  | objectPropertyExpression2List | objectPropertyExpressionStar
  deriving DecidableEq

/-- Symbols of the grammar. -/
inductive Sym where
  | t (x : Term)
  | n (x : NT)
  deriving DecidableEq

/-- Types of the values of symbols, `cowl_functional.y:183-241`. -/
inductive CType where
  | number
  | annotation | annotProp | annotValue | axiom_ | class_ | clsExp | dataProp | dataPropExp
  | dataRange | datatype | entity | facetRestr | individual | iri | literal | namedInd | objProp
  | objPropExp | string | vector
  deriving DecidableEq

/-- Declared types of the nonterminals, `cowl_functional.y:183-241`; those without one have no value. -/
def NT.ctype : NT → Option CType
  | .fullIri | .abbreviatedIri | .iri | .imp => some .iri
  | .ontologyDocument | .prefixDeclarations | .prefixDeclaration | .ontology | .ontologyId
    | .importsAndAnnotations | .axs => none
  | .prefix_ | .ns | .quotedString | .langTag => some .string
  | .cls => some .class_
  | .datatype => some .datatype
  | .objectProperty => some .objProp
  | .dataProperty => some .dataProp
  | .annotationProperty => some .annotProp
  | .individual | .anonymousIndividual => some .individual
  | .namedIndividual => some .namedInd
  | .literal => some .literal
  | .declaration | .ax | .classAxiom | .subClassOf | .equivalentClasses | .disjointClasses
    | .disjointUnion | .objectPropertyAxiom | .subObjectPropertyOf
    | .equivalentObjectProperties | .disjointObjectProperties | .inverseObjectProperties
    | .objectPropertyDomain | .objectPropertyRange | .functionalObjectProperty
    | .inverseFunctionalObjectProperty | .reflexiveObjectProperty | .irreflexiveObjectProperty
    | .symmetricObjectProperty | .asymmetricObjectProperty | .transitiveObjectProperty
    | .dataPropertyAxiom | .subDataPropertyOf | .equivalentDataProperties
    | .disjointDataProperties | .dataPropertyDomain | .dataPropertyRange
    | .functionalDataProperty | .datatypeDefinition | .hasKey | .assertion | .sameIndividual
    | .differentIndividuals | .classAssertion | .objectPropertyAssertion
    | .negativeObjectPropertyAssertion | .dataPropertyAssertion
    | .negativeDataPropertyAssertion | .annotationAxiom | .annotationAssertion
    | .subAnnotationPropertyOf | .annotationPropertyDomain | .annotationPropertyRange => some .axiom_
  | .entity => some .entity
  | .objectPropertyExpression | .inverseObjectProperty => some .objPropExp
  | .dataPropertyExpression => some .dataPropExp
  | .dataRange | .dataIntersectionOf | .dataUnionOf | .dataComplementOf | .dataOneOf
    | .datatypeRestriction => some .dataRange
  | .facetRestriction => some .facetRestr
  | .classExpression | .objectIntersectionOf | .objectUnionOf | .objectComplementOf
    | .objectOneOf | .objectSomeValuesFrom | .objectAllValuesFrom | .objectHasValue
    | .objectHasSelf | .objectMinCardinality | .objectMaxCardinality | .objectExactCardinality
    | .dataSomeValuesFrom | .dataAllValuesFrom | .dataHasValue | .dataMinCardinality
    | .dataMaxCardinality | .dataExactCardinality => some .clsExp
  | .cardinality => some .number
  | .propertyExpressionChain | .annotationStar | .classExpressionList | .classExpression2List
    | .dataPropertyExpressionList | .dataPropertyExpression2List | .dataPropertyExpressionStar
    | .dataRangeList | .dataRange2List | .facetRestrictionList | .individualList
    | .individual2List | .literalList | .objectPropertyExpressionList
    | .objectPropertyExpression2List | .objectPropertyExpressionStar => some .vector
  | .annotation => some .annotation
  | .annotationValue | .annotationSubject => some .annotValue

/-- The types whose values are released when the parser discards a symbol, by `%destructor`,
`cowl_functional.y:249-268`. -/
def destructors : List CType := [
  .annotation, .annotProp, .annotValue, .axiom_, .class_, .clsExp, .dataProp,
  .dataPropExp, .dataRange, .datatype, .entity, .facetRestr, .individual, .iri,
  .literal, .namedInd, .objProp, .objPropExp, .string, .vector ]

/-- What an action does with references. Numbers are positions on the right-hand side, as in `$1`.

* `alias i`: `$$ = $i`, which is also what Bison does for `$1` if a rule has no action.
* `null`: `$$ = NULL`.
* `leaf l`: `$$` becomes a string, IRI, entity or anonymous individual, by a function that uses
  `$i` for the `i` in the list.
* `str i`: `$$ = cowl_string($i)`, which takes the buffer of the token.
* `make k l o`: `$$` becomes a composite, by a constructor of `Own.ctors`, of the fields `l`, and the
  optional field or the annotations `o`.
* `chain`, `hasKey`, `lit`: `cowl_sub_obj_prop_chain_axiom`, `cowl_has_key_axiom`, `cowl_literal`.
* `empty`: `$$ = cowl_vector_empty()`.
* `reuse i`: `$$ = $i` unless that is NULL, in which case an empty vector, or out of memory.
* `push i`: `COWL_VEC_PUSH($$, $i)`.
* `release i`: `cowl_release($i)`.
* `finalize i`: `COWL_VEC_FINALIZE($i)`.
* `check`: `if (!$$) COWL_ERROR_MEM`.
* `checkSyntax`: `if (!$$) COWL_SYNTAX_ERROR(…)`.
* `handle l`: `$i` for the `i` in the list are passed to the change handler, or to the prefix map.
* `failAny`: `YYERROR` if one of the handlers returned something other than OK.
* `failErr`: `COWL_ERROR(r)` for the first of the values `r` that is an error. -/
inductive Stmt where
  | alias (i : Nat)
  | null
  | leaf (l : List Nat)
  | str (i : Nat)
  | make (k : Ctor) (l : List Nat) (o : Option Nat)
  | chain (sub super annot : Nat)
  | hasKey (cls objs datas annot : Nat)
  | lit (value : Nat) (tag : Option Nat)
  | empty
  | reuse (i : Nat)
  | push (i : Nat)
  | release (i : Nat)
  | finalize (i : Nat)
  | check
  | checkSyntax
  | handle (l : List Nat)
  | failAny
  | failErr
  deriving DecidableEq

/-- A rule with its action. -/
structure Rule where
  lhs : NT
  rhs : List Sym
  act : List Stmt
  deriving DecidableEq

/-- The rules, `cowl_functional.y:276-1447`. The order of releases is as in the text. -/
def rules : List Rule := [
  ⟨.fullIri, [.t .iriRef], [.leaf [], .check]⟩, -- 277-280
  ⟨.abbreviatedIri, [.t .pnameLn], [.leaf [], .checkSyntax]⟩, -- 284-287
  ⟨.iri, [.n .fullIri], [.alias 1]⟩, -- 291
  ⟨.iri, [.n .abbreviatedIri], [.alias 1]⟩, -- 292
  ⟨.ontologyDocument, [.n .prefixDeclarations, .n .ontology], []⟩, -- 298-301
  ⟨.prefixDeclarations, [], []⟩, -- 305
  ⟨.prefixDeclarations, [.n .prefixDeclarations, .n .prefixDeclaration], []⟩, -- 306
  ⟨.prefix_, [.t .pnameNs], [.leaf [], .check]⟩, -- 310-313
  ⟨.ns, [.t .iriRef], [.leaf [], .check]⟩, -- 317-320
  ⟨.prefixDeclaration, -- 324-332
    [.t (.kw .prefix_), .t .lpar, .n .prefix_, .t .equals, .n .ns, .t .rpar],
    [.handle [3, 5], .handle [3, 5], .release 3, .release 5, .failErr]⟩,
  ⟨.ontology, -- 336
    [.t (.kw .ontology), .t .lpar, .n .ontologyId, .n .importsAndAnnotations, .n .axs, .t .rpar],
    []⟩,
  ⟨.ontologyId, [], []⟩, -- 340
  ⟨.ontologyId, [.n .iri], [.handle [1], .release 1, .failAny]⟩, -- 341-345
  ⟨.ontologyId, [.n .iri, .n .iri], [.handle [1], .handle [2], .release 1, .release 2, .failAny]⟩, -- 346-352
  ⟨.imp, [.t (.kw .import_), .t .lpar, .n .iri, .t .rpar], [.alias 3]⟩, -- 356
  ⟨.importsAndAnnotations, [], []⟩, -- 360
  ⟨.importsAndAnnotations, [.n .importsAndAnnotations, .n .imp], [.handle [2], .release 2, .failAny]⟩, -- 361-365
  ⟨.importsAndAnnotations, -- 366-370
    [.n .importsAndAnnotations, .n .annotation],
    [.handle [2], .release 2, .failAny]⟩,
  ⟨.axs, [], []⟩, -- 374
  ⟨.axs, [.n .axs, .n .ax], [.handle [2], .release 2, .failAny]⟩, -- 375-379
  ⟨.cls, [.n .iri], [.leaf [1], .release 1, .check]⟩, -- 385-389
  ⟨.datatype, [.n .iri], [.leaf [1], .release 1, .check]⟩, -- 395-399
  ⟨.objectProperty, [.n .iri], [.leaf [1], .release 1, .check]⟩, -- 405-409
  ⟨.dataProperty, [.n .iri], [.leaf [1], .release 1, .check]⟩, -- 415-419
  ⟨.annotationProperty, [.n .iri], [.leaf [1], .release 1, .check]⟩, -- 425-429
  ⟨.individual, [.n .namedIndividual], [.alias 1]⟩, -- 435
  ⟨.individual, [.n .anonymousIndividual], [.alias 1]⟩, -- 436
  ⟨.namedIndividual, [.n .iri], [.leaf [1], .release 1, .check]⟩, -- 440-444
  ⟨.anonymousIndividual, [.t .blank], [.leaf [], .check]⟩, -- 448-451
  ⟨.quotedString, [.t .qstr], [.str 1, .check]⟩, -- 457-460
  ⟨.langTag, [.t .lang], [.leaf [], .check]⟩, -- 464-467
  ⟨.literal, -- 471-476
    [.n .quotedString, .t .dcaret, .n .datatype],
    [.lit 1 (some 3), .release 1, .release 3, .check]⟩,
  ⟨.literal, [.n .quotedString, .n .langTag], [.lit 1 (some 2), .release 1, .release 2, .check]⟩, -- 477-482
  ⟨.literal, [.n .quotedString], [.lit 1 none, .release 1, .check]⟩, -- 483-487
  ⟨.declaration, -- 493-498
    [.t (.kw .declaration), .t .lpar, .n .annotationStar, .n .entity, .t .rpar],
    [.make ⟨.aDecl, 1, .annot⟩ [4] (some 3), .finalize 3, .release 4, .check]⟩,
  ⟨.entity, [.t (.kw .class_), .t .lpar, .n .cls, .t .rpar], [.alias 3]⟩, -- 502-504
  ⟨.entity, [.t (.kw .datatype), .t .lpar, .n .datatype, .t .rpar], [.alias 3]⟩, -- 505-507
  ⟨.entity, [.t (.kw .objectProperty), .t .lpar, .n .objectProperty, .t .rpar], [.alias 3]⟩, -- 508-510
  ⟨.entity, [.t (.kw .dataProperty), .t .lpar, .n .dataProperty, .t .rpar], [.alias 3]⟩, -- 511-513
  ⟨.entity, [.t (.kw .annotationProperty), .t .lpar, .n .annotationProperty, .t .rpar], [.alias 3]⟩, -- 514-516
  ⟨.entity, [.t (.kw .namedIndividual), .t .lpar, .n .namedIndividual, .t .rpar], [.alias 3]⟩, -- 517-519
  ⟨.objectPropertyExpression, [.n .objectProperty], [.alias 1]⟩, -- 525
  ⟨.objectPropertyExpression, [.n .inverseObjectProperty], [.alias 1]⟩, -- 526
  ⟨.inverseObjectProperty, -- 530-534
    [.t (.kw .objectInverseOf), .t .lpar, .n .objectProperty, .t .rpar],
    [.make ⟨.opeInvObjProp, 1, .plain⟩ [3] none, .release 3, .check]⟩,
  ⟨.dataPropertyExpression, [.n .dataProperty], [.alias 1]⟩, -- 540
  ⟨.dataRange, [.n .datatype], [.alias 1]⟩, -- 546
  ⟨.dataRange, [.n .dataIntersectionOf], [.alias 1]⟩, -- 547
  ⟨.dataRange, [.n .dataUnionOf], [.alias 1]⟩, -- 548
  ⟨.dataRange, [.n .dataComplementOf], [.alias 1]⟩, -- 549
  ⟨.dataRange, [.n .dataOneOf], [.alias 1]⟩, -- 550
  ⟨.dataRange, [.n .datatypeRestriction], [.alias 1]⟩, -- 551
  ⟨.dataIntersectionOf, -- 555-559
    [.t (.kw .dataIntersectionOf), .t .lpar, .n .dataRange2List, .t .rpar],
    [.make ⟨.drDataIntersect, 1, .plain⟩ [3] none, .finalize 3, .check]⟩,
  ⟨.dataUnionOf, -- 563-567
    [.t (.kw .dataUnionOf), .t .lpar, .n .dataRange2List, .t .rpar],
    [.make ⟨.drDataUnion, 1, .plain⟩ [3] none, .finalize 3, .check]⟩,
  ⟨.dataComplementOf, -- 571-575
    [.t (.kw .dataComplementOf), .t .lpar, .n .dataRange, .t .rpar],
    [.make ⟨.drDataCompl, 1, .plain⟩ [3] none, .release 3, .check]⟩,
  ⟨.dataOneOf, -- 579-583
    [.t (.kw .dataOneOf), .t .lpar, .n .literalList, .t .rpar],
    [.make ⟨.drDataOneOf, 1, .plain⟩ [3] none, .finalize 3, .check]⟩,
  ⟨.datatypeRestriction, -- 587-592
    [.t (.kw .datatypeRestriction), .t .lpar, .n .datatype, .n .facetRestrictionList, .t .rpar],
    [.make ⟨.drDatatypeRestr, 2, .plain⟩ [3, 4] none, .release 3, .finalize 4, .check]⟩,
  ⟨.facetRestriction, -- 596-601
    [.n .iri, .n .literal],
    [.make ⟨.facetRestr, 2, .plain⟩ [1, 2] none, .release 1, .release 2, .check]⟩,
  ⟨.classExpression, [.n .cls], [.alias 1]⟩, -- 607
  ⟨.classExpression, [.n .objectIntersectionOf], [.alias 1]⟩, -- 608
  ⟨.classExpression, [.n .objectUnionOf], [.alias 1]⟩, -- 609
  ⟨.classExpression, [.n .objectComplementOf], [.alias 1]⟩, -- 610
  ⟨.classExpression, [.n .objectOneOf], [.alias 1]⟩, -- 611
  ⟨.classExpression, [.n .objectSomeValuesFrom], [.alias 1]⟩, -- 612
  ⟨.classExpression, [.n .objectAllValuesFrom], [.alias 1]⟩, -- 613
  ⟨.classExpression, [.n .objectHasValue], [.alias 1]⟩, -- 614
  ⟨.classExpression, [.n .objectHasSelf], [.alias 1]⟩, -- 615
  ⟨.classExpression, [.n .objectMinCardinality], [.alias 1]⟩, -- 616
  ⟨.classExpression, [.n .objectMaxCardinality], [.alias 1]⟩, -- 617
  ⟨.classExpression, [.n .objectExactCardinality], [.alias 1]⟩, -- 618
  ⟨.classExpression, [.n .dataSomeValuesFrom], [.alias 1]⟩, -- 619
  ⟨.classExpression, [.n .dataAllValuesFrom], [.alias 1]⟩, -- 620
  ⟨.classExpression, [.n .dataHasValue], [.alias 1]⟩, -- 621
  ⟨.classExpression, [.n .dataMinCardinality], [.alias 1]⟩, -- 622
  ⟨.classExpression, [.n .dataMaxCardinality], [.alias 1]⟩, -- 623
  ⟨.classExpression, [.n .dataExactCardinality], [.alias 1]⟩, -- 624
  ⟨.objectIntersectionOf, -- 628-632
    [.t (.kw .objectIntersectionOf), .t .lpar, .n .classExpression2List, .t .rpar],
    [.make ⟨.ceObjIntersect, 1, .plain⟩ [3] none, .finalize 3, .check]⟩,
  ⟨.objectUnionOf, -- 636-640
    [.t (.kw .objectUnionOf), .t .lpar, .n .classExpression2List, .t .rpar],
    [.make ⟨.ceObjUnion, 1, .plain⟩ [3] none, .finalize 3, .check]⟩,
  ⟨.objectComplementOf, -- 644-648
    [.t (.kw .objectComplementOf), .t .lpar, .n .classExpression, .t .rpar],
    [.make ⟨.ceObjCompl, 1, .plain⟩ [3] none, .release 3, .check]⟩,
  ⟨.objectOneOf, -- 652-656
    [.t (.kw .objectOneOf), .t .lpar, .n .individualList, .t .rpar],
    [.make ⟨.ceObjOneOf, 1, .plain⟩ [3] none, .finalize 3, .check]⟩,
  ⟨.objectSomeValuesFrom, -- 660-665
    [.t (.kw .objectSomeValuesFrom), .t .lpar, .n .objectPropertyExpression, .n .classExpression, .t .rpar],
    [.make ⟨.ceObjSome, 1, .opt⟩ [3] (some 4), .release 3, .release 4, .check]⟩,
  ⟨.objectAllValuesFrom, -- 669-674
    [.t (.kw .objectAllValuesFrom), .t .lpar, .n .objectPropertyExpression, .n .classExpression, .t .rpar],
    [.make ⟨.ceObjAll, 1, .opt⟩ [3] (some 4), .release 3, .release 4, .check]⟩,
  ⟨.objectHasValue, -- 678-683
    [.t (.kw .objectHasValue), .t .lpar, .n .objectPropertyExpression, .n .individual, .t .rpar],
    [.make ⟨.ceObjHasValue, 2, .plain⟩ [3, 4] none, .release 3, .release 4, .check]⟩,
  ⟨.objectHasSelf, -- 687-691
    [.t (.kw .objectHasSelf), .t .lpar, .n .objectPropertyExpression, .t .rpar],
    [.make ⟨.ceObjHasSelf, 1, .plain⟩ [3] none, .release 3, .check]⟩,
  ⟨.objectMinCardinality, -- 695-699
    [.t (.kw .objectMinCardinality), .t .lpar, .n .cardinality, .n .objectPropertyExpression, .t .rpar],
    [.make ⟨.ceObjMinCard, 1, .uint⟩ [4] none, .release 4, .check]⟩,
  ⟨.objectMinCardinality, -- 700-705
    [.t (.kw .objectMinCardinality), .t .lpar, .n .cardinality, .n .objectPropertyExpression,
      .n .classExpression, .t .rpar],
    [.make ⟨.ceObjMinCard, 1, .uint⟩ [4] (some 5), .release 4, .release 5, .check]⟩,
  ⟨.objectMaxCardinality, -- 709-713
    [.t (.kw .objectMaxCardinality), .t .lpar, .n .cardinality, .n .objectPropertyExpression, .t .rpar],
    [.make ⟨.ceObjMaxCard, 1, .uint⟩ [4] none, .release 4, .check]⟩,
  ⟨.objectMaxCardinality, -- 714-719
    [.t (.kw .objectMaxCardinality), .t .lpar, .n .cardinality, .n .objectPropertyExpression,
      .n .classExpression, .t .rpar],
    [.make ⟨.ceObjMaxCard, 1, .uint⟩ [4] (some 5), .release 4, .release 5, .check]⟩,
  ⟨.objectExactCardinality, -- 723-727
    [.t (.kw .objectExactCardinality), .t .lpar, .n .cardinality, .n .objectPropertyExpression, .t .rpar],
    [.make ⟨.ceObjExactCard, 1, .uint⟩ [4] none, .release 4, .check]⟩,
  ⟨.objectExactCardinality, -- 728-733
    [.t (.kw .objectExactCardinality), .t .lpar, .n .cardinality, .n .objectPropertyExpression,
      .n .classExpression, .t .rpar],
    [.make ⟨.ceObjExactCard, 1, .uint⟩ [4] (some 5), .release 4, .release 5, .check]⟩,
  ⟨.cardinality, [.t .nat], [.alias 1]⟩, -- 737
  ⟨.dataSomeValuesFrom, -- 741-746
    [.t (.kw .dataSomeValuesFrom), .t .lpar, .n .dataPropertyExpression, .n .dataRange, .t .rpar],
    [.make ⟨.ceDataSome, 1, .opt⟩ [3] (some 4), .release 3, .release 4, .check]⟩,
  ⟨.dataAllValuesFrom, -- 750-755
    [.t (.kw .dataAllValuesFrom), .t .lpar, .n .dataPropertyExpression, .n .dataRange, .t .rpar],
    [.make ⟨.ceDataAll, 1, .opt⟩ [3] (some 4), .release 3, .release 4, .check]⟩,
  ⟨.dataHasValue, -- 759-764
    [.t (.kw .dataHasValue), .t .lpar, .n .dataPropertyExpression, .n .literal, .t .rpar],
    [.make ⟨.ceDataHasValue, 2, .plain⟩ [3, 4] none, .release 3, .release 4, .check]⟩,
  ⟨.dataMinCardinality, -- 768-772
    [.t (.kw .dataMinCardinality), .t .lpar, .n .cardinality, .n .dataPropertyExpression, .t .rpar],
    [.make ⟨.ceDataMinCard, 1, .uint⟩ [4] none, .release 4, .check]⟩,
  ⟨.dataMinCardinality, -- 773-778
    [.t (.kw .dataMinCardinality), .t .lpar, .n .cardinality, .n .dataPropertyExpression, .n .dataRange,
      .t .rpar],
    [.make ⟨.ceDataMinCard, 1, .uint⟩ [4] (some 5), .release 4, .release 5, .check]⟩,
  ⟨.dataMaxCardinality, -- 782-786
    [.t (.kw .dataMaxCardinality), .t .lpar, .n .cardinality, .n .dataPropertyExpression, .t .rpar],
    [.make ⟨.ceDataMaxCard, 1, .uint⟩ [4] none, .release 4, .check]⟩,
  ⟨.dataMaxCardinality, -- 787-792
    [.t (.kw .dataMaxCardinality), .t .lpar, .n .cardinality, .n .dataPropertyExpression, .n .dataRange,
      .t .rpar],
    [.make ⟨.ceDataMaxCard, 1, .uint⟩ [4] (some 5), .release 4, .release 5, .check]⟩,
  ⟨.dataExactCardinality, -- 796-800
    [.t (.kw .dataExactCardinality), .t .lpar, .n .cardinality, .n .dataPropertyExpression, .t .rpar],
    [.make ⟨.ceDataExactCard, 1, .uint⟩ [4] none, .release 4, .check]⟩,
  ⟨.dataExactCardinality, -- 801-806
    [.t (.kw .dataExactCardinality), .t .lpar, .n .cardinality, .n .dataPropertyExpression, .n .dataRange,
      .t .rpar],
    [.make ⟨.ceDataExactCard, 1, .uint⟩ [4] (some 5), .release 4, .release 5, .check]⟩,
  ⟨.ax, [.n .declaration], [.alias 1]⟩, -- 812
  ⟨.ax, [.n .classAxiom], [.alias 1]⟩, -- 813
  ⟨.ax, [.n .objectPropertyAxiom], [.alias 1]⟩, -- 814
  ⟨.ax, [.n .dataPropertyAxiom], [.alias 1]⟩, -- 815
  ⟨.ax, [.n .datatypeDefinition], [.alias 1]⟩, -- 816
  ⟨.ax, [.n .hasKey], [.alias 1]⟩, -- 817
  ⟨.ax, [.n .assertion], [.alias 1]⟩, -- 818
  ⟨.ax, [.n .annotationAxiom], [.alias 1]⟩, -- 819
  ⟨.classAxiom, [.n .subClassOf], [.alias 1]⟩, -- 825
  ⟨.classAxiom, [.n .equivalentClasses], [.alias 1]⟩, -- 826
  ⟨.classAxiom, [.n .disjointClasses], [.alias 1]⟩, -- 827
  ⟨.classAxiom, [.n .disjointUnion], [.alias 1]⟩, -- 828
  ⟨.subClassOf, -- 832-838
    [.t (.kw .subClassOf), .t .lpar, .n .annotationStar, .n .classExpression, .n .classExpression, .t .rpar],
    [.make ⟨.aSubClass, 2, .annot⟩ [4, 5] (some 3), .finalize 3, .release 4, .release 5, .check]⟩,
  ⟨.equivalentClasses, -- 842-847
    [.t (.kw .equivalentClasses), .t .lpar, .n .annotationStar, .n .classExpression2List, .t .rpar],
    [.make ⟨.aEquivClasses, 1, .annot⟩ [4] (some 3), .finalize 3, .finalize 4, .check]⟩,
  ⟨.disjointClasses, -- 851-856
    [.t (.kw .disjointClasses), .t .lpar, .n .annotationStar, .n .classExpression2List, .t .rpar],
    [.make ⟨.aDisjClasses, 1, .annot⟩ [4] (some 3), .finalize 3, .finalize 4, .check]⟩,
  ⟨.disjointUnion, -- 860-866
    [.t (.kw .disjointUnion), .t .lpar, .n .annotationStar, .n .cls, .n .classExpression2List, .t .rpar],
    [.make ⟨.aDisjUnion, 2, .annot⟩ [4, 5] (some 3), .finalize 3, .release 4, .finalize 5, .check]⟩,
  ⟨.objectPropertyAxiom, [.n .subObjectPropertyOf], [.alias 1]⟩, -- 872
  ⟨.objectPropertyAxiom, [.n .equivalentObjectProperties], [.alias 1]⟩, -- 873
  ⟨.objectPropertyAxiom, [.n .disjointObjectProperties], [.alias 1]⟩, -- 874
  ⟨.objectPropertyAxiom, [.n .inverseObjectProperties], [.alias 1]⟩, -- 875
  ⟨.objectPropertyAxiom, [.n .objectPropertyDomain], [.alias 1]⟩, -- 876
  ⟨.objectPropertyAxiom, [.n .objectPropertyRange], [.alias 1]⟩, -- 877
  ⟨.objectPropertyAxiom, [.n .functionalObjectProperty], [.alias 1]⟩, -- 878
  ⟨.objectPropertyAxiom, [.n .inverseFunctionalObjectProperty], [.alias 1]⟩, -- 879
  ⟨.objectPropertyAxiom, [.n .reflexiveObjectProperty], [.alias 1]⟩, -- 880
  ⟨.objectPropertyAxiom, [.n .irreflexiveObjectProperty], [.alias 1]⟩, -- 881
  ⟨.objectPropertyAxiom, [.n .symmetricObjectProperty], [.alias 1]⟩, -- 882
  ⟨.objectPropertyAxiom, [.n .asymmetricObjectProperty], [.alias 1]⟩, -- 883
  ⟨.objectPropertyAxiom, [.n .transitiveObjectProperty], [.alias 1]⟩, -- 884
  ⟨.subObjectPropertyOf, -- 888-894
    [.t (.kw .subObjectPropertyOf), .t .lpar, .n .annotationStar, .n .objectPropertyExpression,
      .n .objectPropertyExpression, .t .rpar],
    [.make ⟨.aSubObjProp, 2, .annot⟩ [4, 5] (some 3), .finalize 3, .release 4, .release 5, .check]⟩,
  ⟨.subObjectPropertyOf, -- 895-901
    [.t (.kw .subObjectPropertyOf), .t .lpar, .n .annotationStar, .n .propertyExpressionChain,
      .n .objectPropertyExpression, .t .rpar],
    [.chain 4 5 3, .finalize 3, .finalize 4, .release 5, .check]⟩,
  ⟨.propertyExpressionChain, -- 905-907
    [.t (.kw .objectPropertyChain), .t .lpar, .n .objectPropertyExpression2List, .t .rpar],
    [.alias 3]⟩,
  ⟨.equivalentObjectProperties, -- 911-916
    [.t (.kw .equivalentObjectProperties), .t .lpar, .n .annotationStar, .n .objectPropertyExpression2List,
      .t .rpar],
    [.make ⟨.aEquivObjProp, 1, .annot⟩ [4] (some 3), .finalize 3, .finalize 4, .check]⟩,
  ⟨.disjointObjectProperties, -- 920-925
    [.t (.kw .disjointObjectProperties), .t .lpar, .n .annotationStar, .n .objectPropertyExpression2List,
      .t .rpar],
    [.make ⟨.aDisjObjProp, 1, .annot⟩ [4] (some 3), .finalize 3, .finalize 4, .check]⟩,
  ⟨.inverseObjectProperties, -- 929-935
    [.t (.kw .inverseObjectProperties), .t .lpar, .n .annotationStar, .n .objectPropertyExpression,
      .n .objectPropertyExpression, .t .rpar],
    [.make ⟨.aInvObjProp, 2, .annot⟩ [4, 5] (some 3), .finalize 3, .release 4, .release 5, .check]⟩,
  ⟨.objectPropertyDomain, -- 939-945
    [.t (.kw .objectPropertyDomain), .t .lpar, .n .annotationStar, .n .objectPropertyExpression,
      .n .classExpression, .t .rpar],
    [.make ⟨.aObjPropDomain, 2, .annot⟩ [4, 5] (some 3), .finalize 3, .release 4, .release 5, .check]⟩,
  ⟨.objectPropertyRange, -- 949-955
    [.t (.kw .objectPropertyRange), .t .lpar, .n .annotationStar, .n .objectPropertyExpression,
      .n .classExpression, .t .rpar],
    [.make ⟨.aObjPropRange, 2, .annot⟩ [4, 5] (some 3), .finalize 3, .release 4, .release 5, .check]⟩,
  ⟨.functionalObjectProperty, -- 959-964
    [.t (.kw .functionalObjectProperty), .t .lpar, .n .annotationStar, .n .objectPropertyExpression, .t .rpar],
    [.make ⟨.aFuncObjProp, 1, .annot⟩ [4] (some 3), .finalize 3, .release 4, .check]⟩,
  ⟨.inverseFunctionalObjectProperty, -- 968-973
    [.t (.kw .inverseFunctionalObjectProperty), .t .lpar, .n .annotationStar, .n .objectPropertyExpression,
      .t .rpar],
    [.make ⟨.aInvFuncObjProp, 1, .annot⟩ [4] (some 3), .finalize 3, .release 4, .check]⟩,
  ⟨.reflexiveObjectProperty, -- 977-982
    [.t (.kw .reflexiveObjectProperty), .t .lpar, .n .annotationStar, .n .objectPropertyExpression, .t .rpar],
    [.make ⟨.aReflObjProp, 1, .annot⟩ [4] (some 3), .finalize 3, .release 4, .check]⟩,
  ⟨.irreflexiveObjectProperty, -- 986-991
    [.t (.kw .irreflexiveObjectProperty), .t .lpar, .n .annotationStar, .n .objectPropertyExpression, .t .rpar],
    [.make ⟨.aIrreflObjProp, 1, .annot⟩ [4] (some 3), .finalize 3, .release 4, .check]⟩,
  ⟨.symmetricObjectProperty, -- 995-1000
    [.t (.kw .symmetricObjectProperty), .t .lpar, .n .annotationStar, .n .objectPropertyExpression, .t .rpar],
    [.make ⟨.aSymmObjProp, 1, .annot⟩ [4] (some 3), .finalize 3, .release 4, .check]⟩,
  ⟨.asymmetricObjectProperty, -- 1004-1009
    [.t (.kw .asymmetricObjectProperty), .t .lpar, .n .annotationStar, .n .objectPropertyExpression, .t .rpar],
    [.make ⟨.aAsymmObjProp, 1, .annot⟩ [4] (some 3), .finalize 3, .release 4, .check]⟩,
  ⟨.transitiveObjectProperty, -- 1013-1018
    [.t (.kw .transitiveObjectProperty), .t .lpar, .n .annotationStar, .n .objectPropertyExpression, .t .rpar],
    [.make ⟨.aTransObjProp, 1, .annot⟩ [4] (some 3), .finalize 3, .release 4, .check]⟩,
  ⟨.dataPropertyAxiom, [.n .subDataPropertyOf], [.alias 1]⟩, -- 1024
  ⟨.dataPropertyAxiom, [.n .equivalentDataProperties], [.alias 1]⟩, -- 1025
  ⟨.dataPropertyAxiom, [.n .disjointDataProperties], [.alias 1]⟩, -- 1026
  ⟨.dataPropertyAxiom, [.n .dataPropertyDomain], [.alias 1]⟩, -- 1027
  ⟨.dataPropertyAxiom, [.n .dataPropertyRange], [.alias 1]⟩, -- 1028
  ⟨.dataPropertyAxiom, [.n .functionalDataProperty], [.alias 1]⟩, -- 1029
  ⟨.subDataPropertyOf, -- 1033-1039
    [.t (.kw .subDataPropertyOf), .t .lpar, .n .annotationStar, .n .dataPropertyExpression,
      .n .dataPropertyExpression, .t .rpar],
    [.make ⟨.aSubDataProp, 2, .annot⟩ [4, 5] (some 3), .finalize 3, .release 4, .release 5, .check]⟩,
  ⟨.equivalentDataProperties, -- 1043-1048
    [.t (.kw .equivalentDataProperties), .t .lpar, .n .annotationStar, .n .dataPropertyExpression2List,
      .t .rpar],
    [.make ⟨.aEquivDataProp, 1, .annot⟩ [4] (some 3), .finalize 3, .finalize 4, .check]⟩,
  ⟨.disjointDataProperties, -- 1052-1057
    [.t (.kw .disjointDataProperties), .t .lpar, .n .annotationStar, .n .dataPropertyExpression2List, .t .rpar],
    [.make ⟨.aDisjDataProp, 1, .annot⟩ [4] (some 3), .finalize 3, .finalize 4, .check]⟩,
  ⟨.dataPropertyDomain, -- 1061-1067
    [.t (.kw .dataPropertyDomain), .t .lpar, .n .annotationStar, .n .dataPropertyExpression,
      .n .classExpression, .t .rpar],
    [.make ⟨.aDataPropDomain, 2, .annot⟩ [4, 5] (some 3), .finalize 3, .release 4, .release 5, .check]⟩,
  ⟨.dataPropertyRange, -- 1071-1077
    [.t (.kw .dataPropertyRange), .t .lpar, .n .annotationStar, .n .dataPropertyExpression, .n .dataRange,
      .t .rpar],
    [.make ⟨.aDataPropRange, 2, .annot⟩ [4, 5] (some 3), .finalize 3, .release 4, .release 5, .check]⟩,
  ⟨.functionalDataProperty, -- 1081-1086
    [.t (.kw .functionalDataProperty), .t .lpar, .n .annotationStar, .n .dataPropertyExpression, .t .rpar],
    [.make ⟨.aFuncDataProp, 1, .annot⟩ [4] (some 3), .finalize 3, .release 4, .check]⟩,
  ⟨.datatypeDefinition, -- 1092-1098
    [.t (.kw .datatypeDefinition), .t .lpar, .n .annotationStar, .n .datatype, .n .dataRange, .t .rpar],
    [.make ⟨.aDatatypeDef, 2, .annot⟩ [4, 5] (some 3), .finalize 3, .release 4, .release 5, .check]⟩,
  ⟨.hasKey, -- 1104-1114
    [.t (.kw .hasKey), .t .lpar, .n .annotationStar, .n .classExpression, .t .lpar,
      .n .objectPropertyExpressionStar, .t .rpar, .t .lpar, .n .dataPropertyExpressionStar, .t .rpar, .t .rpar],
    [.hasKey 4 6 9 3, .finalize 3, .release 4, .finalize 6, .finalize 9, .check]⟩,
  ⟨.assertion, [.n .sameIndividual], [.alias 1]⟩, -- 1120
  ⟨.assertion, [.n .differentIndividuals], [.alias 1]⟩, -- 1121
  ⟨.assertion, [.n .classAssertion], [.alias 1]⟩, -- 1122
  ⟨.assertion, [.n .objectPropertyAssertion], [.alias 1]⟩, -- 1123
  ⟨.assertion, [.n .negativeObjectPropertyAssertion], [.alias 1]⟩, -- 1124
  ⟨.assertion, [.n .dataPropertyAssertion], [.alias 1]⟩, -- 1125
  ⟨.assertion, [.n .negativeDataPropertyAssertion], [.alias 1]⟩, -- 1126
  ⟨.sameIndividual, -- 1130-1135
    [.t (.kw .sameIndividual), .t .lpar, .n .annotationStar, .n .individual2List, .t .rpar],
    [.make ⟨.aSameInd, 1, .annot⟩ [4] (some 3), .finalize 3, .finalize 4, .check]⟩,
  ⟨.differentIndividuals, -- 1139-1144
    [.t (.kw .differentIndividuals), .t .lpar, .n .annotationStar, .n .individual2List, .t .rpar],
    [.make ⟨.aDiffInd, 1, .annot⟩ [4] (some 3), .finalize 3, .finalize 4, .check]⟩,
  ⟨.classAssertion, -- 1148-1154
    [.t (.kw .classAssertion), .t .lpar, .n .annotationStar, .n .classExpression, .n .individual, .t .rpar],
    [.make ⟨.aClassAssert, 2, .annot⟩ [4, 5] (some 3), .finalize 3, .release 4, .release 5, .check]⟩,
  ⟨.objectPropertyAssertion, -- 1158-1165
    [.t (.kw .objectPropertyAssertion), .t .lpar, .n .annotationStar, .n .objectPropertyExpression,
      .n .individual, .n .individual, .t .rpar],
    [.make ⟨.aObjPropAssert, 3, .annot⟩ [4, 5, 6] (some 3), .finalize 3, .release 4, .release 5, .release 6,
      .check]⟩,
  ⟨.negativeObjectPropertyAssertion, -- 1169-1176
    [.t (.kw .negativeObjectPropertyAssertion), .t .lpar, .n .annotationStar, .n .objectPropertyExpression,
      .n .individual, .n .individual, .t .rpar],
    [.make ⟨.aNegObjPropAssert, 3, .annot⟩ [4, 5, 6] (some 3), .finalize 3, .release 4, .release 5, .release 6,
      .check]⟩,
  ⟨.dataPropertyAssertion, -- 1180-1187
    [.t (.kw .dataPropertyAssertion), .t .lpar, .n .annotationStar, .n .dataPropertyExpression, .n .individual,
      .n .literal, .t .rpar],
    [.make ⟨.aDataPropAssert, 3, .annot⟩ [4, 5, 6] (some 3), .finalize 3, .release 4, .release 5, .release 6,
      .check]⟩,
  ⟨.negativeDataPropertyAssertion, -- 1191-1198
    [.t (.kw .negativeDataPropertyAssertion), .t .lpar, .n .annotationStar, .n .dataPropertyExpression,
      .n .individual, .n .literal, .t .rpar],
    [.make ⟨.aNegDataPropAssert, 3, .annot⟩ [4, 5, 6] (some 3), .finalize 3, .release 4, .release 5, .release 6,
      .check]⟩,
  ⟨.annotation, -- 1204-1210
    [.t (.kw .annotation), .t .lpar, .n .annotationStar, .n .annotationProperty, .n .annotationValue, .t .rpar],
    [.make ⟨.annotation, 2, .annot⟩ [4, 5] (some 3), .finalize 3, .release 4, .release 5, .check]⟩,
  ⟨.annotationValue, [.n .anonymousIndividual], [.alias 1]⟩, -- 1214-1216
  ⟨.annotationValue, [.n .iri], [.alias 1]⟩, -- 1217-1219
  ⟨.annotationValue, [.n .literal], [.alias 1]⟩, -- 1220-1222
  ⟨.annotationAxiom, [.n .annotationAssertion], [.alias 1]⟩, -- 1228
  ⟨.annotationAxiom, [.n .subAnnotationPropertyOf], [.alias 1]⟩, -- 1229
  ⟨.annotationAxiom, [.n .annotationPropertyDomain], [.alias 1]⟩, -- 1230
  ⟨.annotationAxiom, [.n .annotationPropertyRange], [.alias 1]⟩, -- 1231
  ⟨.annotationAssertion, -- 1235-1242
    [.t (.kw .annotationAssertion), .t .lpar, .n .annotationStar, .n .annotationProperty, .n .annotationSubject,
      .n .annotationValue, .t .rpar],
    [.make ⟨.aAnnotAssert, 3, .annot⟩ [4, 5, 6] (some 3), .finalize 3, .release 4, .release 5, .release 6,
      .check]⟩,
  ⟨.annotationSubject, [.n .iri], [.alias 1]⟩, -- 1246-1248
  ⟨.annotationSubject, [.n .anonymousIndividual], [.alias 1]⟩, -- 1249-1251
  ⟨.subAnnotationPropertyOf, -- 1255-1261
    [.t (.kw .subAnnotationPropertyOf), .t .lpar, .n .annotationStar, .n .annotationProperty,
      .n .annotationProperty, .t .rpar],
    [.make ⟨.aSubAnnotProp, 2, .annot⟩ [4, 5] (some 3), .finalize 3, .release 4, .release 5, .check]⟩,
  ⟨.annotationPropertyDomain, -- 1265-1271
    [.t (.kw .annotationPropertyDomain), .t .lpar, .n .annotationStar, .n .annotationProperty, .n .iri,
      .t .rpar],
    [.make ⟨.aAnnotPropDomain, 2, .annot⟩ [4, 5] (some 3), .finalize 3, .release 4, .release 5, .check]⟩,
  ⟨.annotationPropertyRange, -- 1275-1281
    [.t (.kw .annotationPropertyRange), .t .lpar, .n .annotationStar, .n .annotationProperty, .n .iri, .t .rpar],
    [.make ⟨.aAnnotPropRange, 2, .annot⟩ [4, 5] (some 3), .finalize 3, .release 4, .release 5, .check]⟩,
  ⟨.annotationStar, [], [.null]⟩, -- 1287-1289
  ⟨.annotationStar, [.n .annotationStar, .n .annotation], [.reuse 1, .push 2]⟩, -- 1290-1298
  ⟨.classExpressionList, [.n .classExpression], [.empty, .check, .push 1]⟩, -- 1302-1306
  ⟨.classExpressionList, [.n .classExpressionList, .n .classExpression], [.alias 1, .push 2]⟩, -- 1307-1310
  ⟨.classExpression2List, [.n .classExpressionList, .n .classExpression], [.alias 1, .push 2]⟩, -- 1314-1317
  ⟨.dataPropertyExpressionList, [.n .dataPropertyExpression], [.empty, .check, .push 1]⟩, -- 1321-1325
  ⟨.dataPropertyExpressionList, -- 1326-1329
    [.n .dataPropertyExpressionList, .n .dataPropertyExpression],
    [.alias 1, .push 2]⟩,
  ⟨.dataPropertyExpression2List, -- 1333-1336
    [.n .dataPropertyExpressionList, .n .dataPropertyExpression],
    [.alias 1, .push 2]⟩,
  ⟨.dataPropertyExpressionStar, [], [.null]⟩, -- 1340-1342
  ⟨.dataPropertyExpressionStar, -- 1343-1351
    [.n .dataPropertyExpressionStar, .n .dataPropertyExpression],
    [.reuse 1, .push 2]⟩,
  ⟨.dataRangeList, [.n .dataRange], [.empty, .check, .push 1]⟩, -- 1355-1359
  ⟨.dataRangeList, [.n .dataRangeList, .n .dataRange], [.alias 1, .push 2]⟩, -- 1360-1363
  ⟨.dataRange2List, [.n .dataRangeList, .n .dataRange], [.alias 1, .push 2]⟩, -- 1367-1370
  ⟨.facetRestrictionList, [.n .facetRestriction], [.empty, .check, .push 1]⟩, -- 1374-1378
  ⟨.facetRestrictionList, [.n .facetRestrictionList, .n .facetRestriction], [.alias 1, .push 2]⟩, -- 1379-1382
  ⟨.individualList, [.n .individual], [.empty, .check, .push 1]⟩, -- 1386-1390
  ⟨.individualList, [.n .individualList, .n .individual], [.alias 1, .push 2]⟩, -- 1391-1394
  ⟨.individual2List, [.n .individualList, .n .individual], [.alias 1, .push 2]⟩, -- 1398-1401
  ⟨.literalList, [.n .literal], [.empty, .check, .push 1]⟩, -- 1405-1409
  ⟨.literalList, [.n .literalList, .n .literal], [.alias 1, .push 2]⟩, -- 1410-1413
  ⟨.objectPropertyExpressionList, [.n .objectPropertyExpression], [.empty, .check, .push 1]⟩, -- 1417-1421
  ⟨.objectPropertyExpressionList, -- 1422-1425
    [.n .objectPropertyExpressionList, .n .objectPropertyExpression],
    [.alias 1, .push 2]⟩,
  ⟨.objectPropertyExpression2List, -- 1429-1432
    [.n .objectPropertyExpressionList, .n .objectPropertyExpression],
    [.alias 1, .push 2]⟩,
  ⟨.objectPropertyExpressionStar, [], [.null]⟩, -- 1436-1438
  ⟨.objectPropertyExpressionStar, -- 1439-1447
    [.n .objectPropertyExpressionStar, .n .objectPropertyExpression],
    [.reuse 1, .push 2]⟩ ]

end Cowl.YOwn
