import Verif.FuncGramSpec
/-!
# Specification: the grammar of functional-style syntax in the OWL 2 standard

The grammar of "OWL 2 Web Ontology Language: Structural Specification and Functional-Style Syntax
(Second Edition)", W3C Recommendation 11 December 2012, appendix A ("Complete Grammar"), over the
tokens of the scanner. It is independent of the rules of `cowl_functional.y`: it is in EBNF, without
lists as nonterminals. Names that the standard gives to an occurrence (as `superClassExpression` for
`ClassExpression`) are replaced by what they stand for.
-/
namespace Cowl.Std
open YOwn (Term)
open Func (Kw)

/-- Nonterminals of the standard. -/
inductive N where
  | iri | ontologyDocument | prefixDeclaration | ontology | cls | datatype | objectProperty
  | dataProperty | annotationProperty | individual | namedIndividual | anonymousIndividual | literal
  | declaration | entity | objectPropertyExpression | inverseObjectProperty
  | dataPropertyExpression | dataRange | dataIntersectionOf | dataUnionOf | dataComplementOf
  | dataOneOf | datatypeRestriction | classExpression | objectIntersectionOf | objectUnionOf
  | objectComplementOf | objectOneOf | objectSomeValuesFrom | objectAllValuesFrom | objectHasValue
  | objectHasSelf | objectMinCardinality | objectMaxCardinality | objectExactCardinality
  | dataSomeValuesFrom | dataAllValuesFrom | dataHasValue | dataMinCardinality | dataMaxCardinality
  | dataExactCardinality | ax | classAxiom | subClassOf | equivalentClasses | disjointClasses
  | disjointUnion | objectPropertyAxiom | subObjectPropertyOf | propertyExpressionChain
  | equivalentObjectProperties | disjointObjectProperties | inverseObjectProperties
  | objectPropertyDomain | objectPropertyRange | functionalObjectProperty
  | inverseFunctionalObjectProperty | reflexiveObjectProperty | irreflexiveObjectProperty
  | symmetricObjectProperty | asymmetricObjectProperty | transitiveObjectProperty
  | dataPropertyAxiom | subDataPropertyOf | equivalentDataProperties | disjointDataProperties
  | dataPropertyDomain | dataPropertyRange | functionalDataProperty | datatypeDefinition | hasKey
  | assertion | sameIndividual | differentIndividuals | classAssertion | objectPropertyAssertion
  | negativeObjectPropertyAssertion | dataPropertyAssertion | negativeDataPropertyAssertion
  | annotation | annotationValue | annotationAxiom | annotationAssertion | annotationSubject
  | subAnnotationPropertyOf | annotationPropertyDomain | annotationPropertyRange
  deriving DecidableEq

/-- Symbols. -/
inductive Sy where
  | t (x : Term)
  | n (x : N)
  deriving DecidableEq

/-- Right sides in EBNF; `star` is of alternatives of sequences of symbols. -/
inductive E where
  | nil
  | s (x : Sy)
  | seq (a b : E)
  | alt (a b : E)
  | opt (a : E)
  | star (l : List (List Sy))

/-- A terminal. -/
abbrev t (x : Term) : E := .s (.t x)
/-- A nonterminal. -/
abbrev n (x : N) : E := .s (.n x)
/-- `{ x }`. -/
def many (x : N) : E := .star [[.n x]]
/-- A sequence. -/
def seqs : List E → E
  | [] => .nil
  | a :: l => .seq a (seqs l)
/-- Alternatives; of none there are none here. -/
def alts : List E → E
  | [] => .nil
  | [a] => a
  | a :: l => .alt a (alts l)
/-- Alternatives of nonterminals. -/
def oneOf (l : List N) : E := alts (l.map n)
/-- A keyword and its arguments in parentheses. -/
def form (k : Kw) (l : List E) : E := .seq (t (.kw k)) (.seq (t .lpar) (.seq (seqs l) (t .rpar)))
/-- `x { x }`. -/
def one (x : N) : E := .seq (n x) (many x)
/-- `x x { x }`. -/
def two (x : N) : E := .seq (n x) (.seq (n x) (many x))
/-- `axiomAnnotations`, `annotationAnnotations`. -/
def annots : E := many .annotation
/-- An axiom with its annotations. -/
def axm (k : Kw) (l : List E) : E := form k (annots :: l)
/-- `'Import' '(' IRI ')'`. -/
def imports : List Sy := [.t (.kw .import_), .t .lpar, .n .iri, .t .rpar]

/-- Two places where the grammar of the program is not that of the standard. -/
structure Variant where
  /-- Quantification over several data properties, as in the standard. -/
  nary : Bool
  /-- Imports and annotations of an ontology in any order, which the standard does not allow. -/
  mixed : Bool

/-- The standard. -/
def std : Variant := { nary := true, mixed := false }

/-- The rules of the standard, appendix A, in the order of `cowl_functional.y`; or a variant of them. -/
def rule (v : Variant) : N → E
  | .iri => .alt (t .iriRef) (t .pnameLn)
  | .ontologyDocument => .seq (many .prefixDeclaration) (n .ontology)
  | .prefixDeclaration => form .prefix_ [t .pnameNs, t .equals, t .iriRef]
  | .ontology => form .ontology [.opt (.seq (n .iri) (.opt (n .iri))),
      if v.mixed then .star [imports, [.n .annotation]] else .seq (.star [imports]) annots,
      many .ax]
  | .cls | .datatype | .objectProperty | .dataProperty | .annotationProperty | .namedIndividual => n .iri
  | .individual => oneOf [.namedIndividual, .anonymousIndividual]
  | .anonymousIndividual => t .blank
  | .literal => alts [seqs [t .qstr, t .dcaret, n .datatype], t .qstr, seqs [t .qstr, t .lang]]
  | .declaration => axm .declaration [n .entity]
  | .entity => alts [form .class_ [n .cls], form .datatype [n .datatype], form .objectProperty [n .objectProperty],
      form .dataProperty [n .dataProperty], form .annotationProperty [n .annotationProperty],
      form .namedIndividual [n .namedIndividual]]
  | .objectPropertyExpression => oneOf [.objectProperty, .inverseObjectProperty]
  | .inverseObjectProperty => form .objectInverseOf [n .objectProperty]
  | .dataPropertyExpression => n .dataProperty
  | .dataRange => oneOf [.datatype, .dataIntersectionOf, .dataUnionOf, .dataComplementOf, .dataOneOf,
      .datatypeRestriction]
  | .dataIntersectionOf => form .dataIntersectionOf [two .dataRange]
  | .dataUnionOf => form .dataUnionOf [two .dataRange]
  | .dataComplementOf => form .dataComplementOf [n .dataRange]
  | .dataOneOf => form .dataOneOf [one .literal]
  | .datatypeRestriction => form .datatypeRestriction [n .datatype, n .iri, n .literal, .star [[.n .iri, .n .literal]]]
  | .classExpression => oneOf [.cls, .objectIntersectionOf, .objectUnionOf, .objectComplementOf, .objectOneOf,
      .objectSomeValuesFrom, .objectAllValuesFrom, .objectHasValue, .objectHasSelf,
      .objectMinCardinality, .objectMaxCardinality, .objectExactCardinality,
      .dataSomeValuesFrom, .dataAllValuesFrom, .dataHasValue,
      .dataMinCardinality, .dataMaxCardinality, .dataExactCardinality]
  | .objectIntersectionOf => form .objectIntersectionOf [two .classExpression]
  | .objectUnionOf => form .objectUnionOf [two .classExpression]
  | .objectComplementOf => form .objectComplementOf [n .classExpression]
  | .objectOneOf => form .objectOneOf [one .individual]
  | .objectSomeValuesFrom => form .objectSomeValuesFrom [n .objectPropertyExpression, n .classExpression]
  | .objectAllValuesFrom => form .objectAllValuesFrom [n .objectPropertyExpression, n .classExpression]
  | .objectHasValue => form .objectHasValue [n .objectPropertyExpression, n .individual]
  | .objectHasSelf => form .objectHasSelf [n .objectPropertyExpression]
  | .objectMinCardinality => form .objectMinCardinality [t .nat, n .objectPropertyExpression, .opt (n .classExpression)]
  | .objectMaxCardinality => form .objectMaxCardinality [t .nat, n .objectPropertyExpression, .opt (n .classExpression)]
  | .objectExactCardinality => form .objectExactCardinality [t .nat, n .objectPropertyExpression, .opt (n .classExpression)]
  | .dataSomeValuesFrom => form .dataSomeValuesFrom
      [if v.nary then one .dataPropertyExpression else n .dataPropertyExpression, n .dataRange]
  | .dataAllValuesFrom => form .dataAllValuesFrom
      [if v.nary then one .dataPropertyExpression else n .dataPropertyExpression, n .dataRange]
  | .dataHasValue => form .dataHasValue [n .dataPropertyExpression, n .literal]
  | .dataMinCardinality => form .dataMinCardinality [t .nat, n .dataPropertyExpression, .opt (n .dataRange)]
  | .dataMaxCardinality => form .dataMaxCardinality [t .nat, n .dataPropertyExpression, .opt (n .dataRange)]
  | .dataExactCardinality => form .dataExactCardinality [t .nat, n .dataPropertyExpression, .opt (n .dataRange)]
  | .ax => oneOf [.declaration, .classAxiom, .objectPropertyAxiom, .dataPropertyAxiom, .datatypeDefinition,
      .hasKey, .assertion, .annotationAxiom]
  | .classAxiom => oneOf [.subClassOf, .equivalentClasses, .disjointClasses, .disjointUnion]
  | .subClassOf => axm .subClassOf [n .classExpression, n .classExpression]
  | .equivalentClasses => axm .equivalentClasses [two .classExpression]
  | .disjointClasses => axm .disjointClasses [two .classExpression]
  | .disjointUnion => axm .disjointUnion [n .cls, two .classExpression]
  | .objectPropertyAxiom => oneOf [.subObjectPropertyOf, .equivalentObjectProperties, .disjointObjectProperties,
      .inverseObjectProperties, .objectPropertyDomain, .objectPropertyRange, .functionalObjectProperty,
      .inverseFunctionalObjectProperty, .reflexiveObjectProperty, .irreflexiveObjectProperty,
      .symmetricObjectProperty, .asymmetricObjectProperty, .transitiveObjectProperty]
  | .subObjectPropertyOf => axm .subObjectPropertyOf
      [oneOf [.objectPropertyExpression, .propertyExpressionChain], n .objectPropertyExpression]
  | .propertyExpressionChain => form .objectPropertyChain [two .objectPropertyExpression]
  | .equivalentObjectProperties => axm .equivalentObjectProperties [two .objectPropertyExpression]
  | .disjointObjectProperties => axm .disjointObjectProperties [two .objectPropertyExpression]
  | .inverseObjectProperties => axm .inverseObjectProperties [n .objectPropertyExpression, n .objectPropertyExpression]
  | .objectPropertyDomain => axm .objectPropertyDomain [n .objectPropertyExpression, n .classExpression]
  | .objectPropertyRange => axm .objectPropertyRange [n .objectPropertyExpression, n .classExpression]
  | .functionalObjectProperty => axm .functionalObjectProperty [n .objectPropertyExpression]
  | .inverseFunctionalObjectProperty => axm .inverseFunctionalObjectProperty [n .objectPropertyExpression]
  | .reflexiveObjectProperty => axm .reflexiveObjectProperty [n .objectPropertyExpression]
  | .irreflexiveObjectProperty => axm .irreflexiveObjectProperty [n .objectPropertyExpression]
  | .symmetricObjectProperty => axm .symmetricObjectProperty [n .objectPropertyExpression]
  | .asymmetricObjectProperty => axm .asymmetricObjectProperty [n .objectPropertyExpression]
  | .transitiveObjectProperty => axm .transitiveObjectProperty [n .objectPropertyExpression]
  | .dataPropertyAxiom => oneOf [.subDataPropertyOf, .equivalentDataProperties, .disjointDataProperties,
      .dataPropertyDomain, .dataPropertyRange, .functionalDataProperty]
  | .subDataPropertyOf => axm .subDataPropertyOf [n .dataPropertyExpression, n .dataPropertyExpression]
  | .equivalentDataProperties => axm .equivalentDataProperties [two .dataPropertyExpression]
  | .disjointDataProperties => axm .disjointDataProperties [two .dataPropertyExpression]
  | .dataPropertyDomain => axm .dataPropertyDomain [n .dataPropertyExpression, n .classExpression]
  | .dataPropertyRange => axm .dataPropertyRange [n .dataPropertyExpression, n .dataRange]
  | .functionalDataProperty => axm .functionalDataProperty [n .dataPropertyExpression]
  | .datatypeDefinition => axm .datatypeDefinition [n .datatype, n .dataRange]
  | .hasKey => axm .hasKey [n .classExpression, t .lpar, many .objectPropertyExpression, t .rpar,
      t .lpar, many .dataPropertyExpression, t .rpar]
  | .assertion => oneOf [.sameIndividual, .differentIndividuals, .classAssertion, .objectPropertyAssertion,
      .negativeObjectPropertyAssertion, .dataPropertyAssertion, .negativeDataPropertyAssertion]
  | .sameIndividual => axm .sameIndividual [two .individual]
  | .differentIndividuals => axm .differentIndividuals [two .individual]
  | .classAssertion => axm .classAssertion [n .classExpression, n .individual]
  | .objectPropertyAssertion => axm .objectPropertyAssertion [n .objectPropertyExpression, n .individual, n .individual]
  | .negativeObjectPropertyAssertion => axm .negativeObjectPropertyAssertion
      [n .objectPropertyExpression, n .individual, n .individual]
  | .dataPropertyAssertion => axm .dataPropertyAssertion [n .dataPropertyExpression, n .individual, n .literal]
  | .negativeDataPropertyAssertion => axm .negativeDataPropertyAssertion
      [n .dataPropertyExpression, n .individual, n .literal]
  | .annotation => axm .annotation [n .annotationProperty, n .annotationValue]
  | .annotationValue => alts [n .anonymousIndividual, n .iri, n .literal]
  | .annotationAxiom => oneOf [.annotationAssertion, .subAnnotationPropertyOf, .annotationPropertyDomain,
      .annotationPropertyRange]
  | .annotationAssertion => axm .annotationAssertion [n .annotationProperty, n .annotationSubject, n .annotationValue]
  | .annotationSubject => oneOf [.iri, .anonymousIndividual]
  | .subAnnotationPropertyOf => axm .subAnnotationPropertyOf [n .annotationProperty, n .annotationProperty]
  | .annotationPropertyDomain => axm .annotationPropertyDomain [n .annotationProperty, n .iri]
  | .annotationPropertyRange => axm .annotationPropertyRange [n .annotationProperty, n .iri]

/-- The words of an expression. -/
inductive Words (v : Variant) : E → List Term → Prop where
  | nil : Words v .nil []
  | t (x : Term) : Words v (.s (.t x)) [x]
  | n {x : N} {w : List Term} : Words v (rule v x) w → Words v (.s (.n x)) w
  | seq {a b : E} {u w : List Term} : Words v a u → Words v b w → Words v (.seq a b) (u ++ w)
  | altL {a b : E} {w : List Term} : Words v a w → Words v (.alt a b) w
  | altR {a b : E} {w : List Term} : Words v b w → Words v (.alt a b) w
  | optN {a : E} : Words v (.opt a) []
  | optS {a : E} {w : List Term} : Words v a w → Words v (.opt a) w
  | starN {l : List (List Sy)} : Words v (.star l) []
  | starS {l : List (List Sy)} {α : List Sy} {u w : List Term} : α ∈ l → Words v (seqs (α.map .s)) u →
      Words v (.star l) w → Words v (.star l) (u ++ w)

/-- The documents of the grammar. -/
def Document (v : Variant) (w : List Term) : Prop := Words v (.s (.n .ontologyDocument)) w

end Cowl.Std
