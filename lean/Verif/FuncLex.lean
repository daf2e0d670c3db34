import Verif.UintText
/-!
# Lexer of the functional syntax

Models `src/formats/functional/reader/cowl_functional.l`. A flex scanner tries all
rules of the current start condition at the current position, takes the longest
match, and the first rule among those of equal length. That is what `best` does;
each rule is the length of its longest match, 0 if it does not match (no rule of the
initial condition matches the empty string). Line numbers are not modelled.
-/
namespace Cowl.Func

/-- Keyword tokens, `cowl_functional.l:83-161`, in the order of the rules. -/
inductive Kw where
  | import_ | ontology | prefix_ | declaration
  | annotation | datatypeDefinition | hasKey | class_
  | datatype | objectProperty | dataProperty | annotationProperty
  | namedIndividual | dataIntersectionOf | dataUnionOf | dataComplementOf
  | dataOneOf | datatypeRestriction | dataSomeValuesFrom | dataAllValuesFrom
  | dataHasValue | dataMinCardinality | dataMaxCardinality | dataExactCardinality
  | objectInverseOf | objectIntersectionOf | objectUnionOf | objectComplementOf
  | objectOneOf | objectSomeValuesFrom | objectAllValuesFrom | objectHasValue
  | objectHasSelf | objectMinCardinality | objectMaxCardinality | objectExactCardinality
  | subClassOf | equivalentClasses | disjointClasses | disjointUnion
  | subObjectPropertyOf | equivalentObjectProperties | disjointObjectProperties | inverseObjectProperties
  | objectPropertyDomain | objectPropertyRange | functionalObjectProperty | inverseFunctionalObjectProperty
  | reflexiveObjectProperty | irreflexiveObjectProperty | symmetricObjectProperty | asymmetricObjectProperty
  | transitiveObjectProperty | objectPropertyChain | subDataPropertyOf | equivalentDataProperties
  | disjointDataProperties | dataPropertyDomain | dataPropertyRange | functionalDataProperty
  | sameIndividual | differentIndividuals | classAssertion | objectPropertyAssertion
  | negativeObjectPropertyAssertion | dataPropertyAssertion | negativeDataPropertyAssertion | annotationAssertion
  | subAnnotationPropertyOf | annotationPropertyDomain | annotationPropertyRange
  deriving DecidableEq, Repr

/-- All keywords, `cowl_functional.l:83-161`. -/
def Kw.all : List Kw := [
  .import_, .ontology, .prefix_, .declaration,
  .annotation, .datatypeDefinition, .hasKey, .class_,
  .datatype, .objectProperty, .dataProperty, .annotationProperty,
  .namedIndividual, .dataIntersectionOf, .dataUnionOf, .dataComplementOf,
  .dataOneOf, .datatypeRestriction, .dataSomeValuesFrom, .dataAllValuesFrom,
  .dataHasValue, .dataMinCardinality, .dataMaxCardinality, .dataExactCardinality,
  .objectInverseOf, .objectIntersectionOf, .objectUnionOf, .objectComplementOf,
  .objectOneOf, .objectSomeValuesFrom, .objectAllValuesFrom, .objectHasValue,
  .objectHasSelf, .objectMinCardinality, .objectMaxCardinality, .objectExactCardinality,
  .subClassOf, .equivalentClasses, .disjointClasses, .disjointUnion,
  .subObjectPropertyOf, .equivalentObjectProperties, .disjointObjectProperties, .inverseObjectProperties,
  .objectPropertyDomain, .objectPropertyRange, .functionalObjectProperty, .inverseFunctionalObjectProperty,
  .reflexiveObjectProperty, .irreflexiveObjectProperty, .symmetricObjectProperty, .asymmetricObjectProperty,
  .transitiveObjectProperty, .objectPropertyChain, .subDataPropertyOf, .equivalentDataProperties,
  .disjointDataProperties, .dataPropertyDomain, .dataPropertyRange, .functionalDataProperty,
  .sameIndividual, .differentIndividuals, .classAssertion, .objectPropertyAssertion,
  .negativeObjectPropertyAssertion, .dataPropertyAssertion, .negativeDataPropertyAssertion, .annotationAssertion,
  .subAnnotationPropertyOf, .annotationPropertyDomain, .annotationPropertyRange]

/-- Text of a keyword, `cowl_functional.l:83-161`. -/
def Kw.text : Kw → Str
  | .import_ => ascii "Import"
  | .ontology => ascii "Ontology"
  | .prefix_ => ascii "Prefix"
  | .declaration => ascii "Declaration"
  | .annotation => ascii "Annotation"
  | .datatypeDefinition => ascii "DatatypeDefinition"
  | .hasKey => ascii "HasKey"
  | .class_ => ascii "Class"
  | .datatype => ascii "Datatype"
  | .objectProperty => ascii "ObjectProperty"
  | .dataProperty => ascii "DataProperty"
  | .annotationProperty => ascii "AnnotationProperty"
  | .namedIndividual => ascii "NamedIndividual"
  | .dataIntersectionOf => ascii "DataIntersectionOf"
  | .dataUnionOf => ascii "DataUnionOf"
  | .dataComplementOf => ascii "DataComplementOf"
  | .dataOneOf => ascii "DataOneOf"
  | .datatypeRestriction => ascii "DatatypeRestriction"
  | .dataSomeValuesFrom => ascii "DataSomeValuesFrom"
  | .dataAllValuesFrom => ascii "DataAllValuesFrom"
  | .dataHasValue => ascii "DataHasValue"
  | .dataMinCardinality => ascii "DataMinCardinality"
  | .dataMaxCardinality => ascii "DataMaxCardinality"
  | .dataExactCardinality => ascii "DataExactCardinality"
  | .objectInverseOf => ascii "ObjectInverseOf"
  | .objectIntersectionOf => ascii "ObjectIntersectionOf"
  | .objectUnionOf => ascii "ObjectUnionOf"
  | .objectComplementOf => ascii "ObjectComplementOf"
  | .objectOneOf => ascii "ObjectOneOf"
  | .objectSomeValuesFrom => ascii "ObjectSomeValuesFrom"
  | .objectAllValuesFrom => ascii "ObjectAllValuesFrom"
  | .objectHasValue => ascii "ObjectHasValue"
  | .objectHasSelf => ascii "ObjectHasSelf"
  | .objectMinCardinality => ascii "ObjectMinCardinality"
  | .objectMaxCardinality => ascii "ObjectMaxCardinality"
  | .objectExactCardinality => ascii "ObjectExactCardinality"
  | .subClassOf => ascii "SubClassOf"
  | .equivalentClasses => ascii "EquivalentClasses"
  | .disjointClasses => ascii "DisjointClasses"
  | .disjointUnion => ascii "DisjointUnion"
  | .subObjectPropertyOf => ascii "SubObjectPropertyOf"
  | .equivalentObjectProperties => ascii "EquivalentObjectProperties"
  | .disjointObjectProperties => ascii "DisjointObjectProperties"
  | .inverseObjectProperties => ascii "InverseObjectProperties"
  | .objectPropertyDomain => ascii "ObjectPropertyDomain"
  | .objectPropertyRange => ascii "ObjectPropertyRange"
  | .functionalObjectProperty => ascii "FunctionalObjectProperty"
  | .inverseFunctionalObjectProperty => ascii "InverseFunctionalObjectProperty"
  | .reflexiveObjectProperty => ascii "ReflexiveObjectProperty"
  | .irreflexiveObjectProperty => ascii "IrreflexiveObjectProperty"
  | .symmetricObjectProperty => ascii "SymmetricObjectProperty"
  | .asymmetricObjectProperty => ascii "AsymmetricObjectProperty"
  | .transitiveObjectProperty => ascii "TransitiveObjectProperty"
  | .objectPropertyChain => ascii "ObjectPropertyChain"
  | .subDataPropertyOf => ascii "SubDataPropertyOf"
  | .equivalentDataProperties => ascii "EquivalentDataProperties"
  | .disjointDataProperties => ascii "DisjointDataProperties"
  | .dataPropertyDomain => ascii "DataPropertyDomain"
  | .dataPropertyRange => ascii "DataPropertyRange"
  | .functionalDataProperty => ascii "FunctionalDataProperty"
  | .sameIndividual => ascii "SameIndividual"
  | .differentIndividuals => ascii "DifferentIndividuals"
  | .classAssertion => ascii "ClassAssertion"
  | .objectPropertyAssertion => ascii "ObjectPropertyAssertion"
  | .negativeObjectPropertyAssertion => ascii "NegativeObjectPropertyAssertion"
  | .dataPropertyAssertion => ascii "DataPropertyAssertion"
  | .negativeDataPropertyAssertion => ascii "NegativeDataPropertyAssertion"
  | .annotationAssertion => ascii "AnnotationAssertion"
  | .subAnnotationPropertyOf => ascii "SubAnnotationPropertyOf"
  | .annotationPropertyDomain => ascii "AnnotationPropertyDomain"
  | .annotationPropertyRange => ascii "AnnotationPropertyRange"

/-- Tokens, `cowl_functional.y:142-179`, with their values; `char` is a character
that is a token of its own (`cowl_functional.l:213-215`, `223`), which no rule of the
grammar accepts. -/
inductive Tok where
  | kw (k : Kw)
  | nat (n : UInt32)
  | iriRef (s : Str)
  | pnameNs (s : Str)
  | pnameLn (s : Str)
  | blank (s : Str)
  | lang (s : Str)
  | qstr (s : Str)
  | dcaret | lpar | rpar | equals
  | char (c : UInt8)
  deriving DecidableEq, Repr

/-! ## Character classes and patterns -/

/-- `WHITESPACE`, `cowl_functional.l:57`, one character. -/
def isWs (c : UInt8) : Bool := c == 32 || c == 9 || c == 13 || c == 10
/-- `DIGIT`, `cowl_functional.l:59`. -/
def isDig (c : UInt8) : Bool := decide (48 ≤ c) && decide (c ≤ 57)
/-- `ALPHA`, `cowl_functional.l:60`. -/
def isAlpha (c : UInt8) : Bool :=
  (decide (65 ≤ c) && decide (c ≤ 90)) || (decide (97 ≤ c) && decide (c ≤ 122))
/-- `ALNUM`, `cowl_functional.l:61`. -/
def isAlnum (c : UInt8) : Bool := isAlpha c || isDig c
/-- `PN_CHARS_BASE`, `cowl_functional.l:62`. -/
def isBase (c : UInt8) : Bool := isAlpha c || decide (128 ≤ c)
/-- `PN_CHARS_U`, `cowl_functional.l:63`. -/
def isU (c : UInt8) : Bool := isBase c || c == 95
/-- `PN_CHARS`, `cowl_functional.l:64`. -/
def isPn (c : UInt8) : Bool := isU c || c == 45 || isDig c
/-- `({PN_CHARS}|\.)`, `cowl_functional.l:65-66`. -/
def isPnDot (c : UInt8) : Bool := isPn c || c == 46
/-- Characters of `IRI_REF`, `cowl_functional.l:69`. -/
def isIriChar (c : UInt8) : Bool :=
  decide (32 < c) && !([60, 62, 34, 123, 125, 124, 94, 96, 92].contains c)

/-- A run of name characters and dots without the dots at its end: the longest match
of `({PN_CHARS}|\.)*{PN_CHARS}`, `cowl_functional.l:65-66`. -/
def trimDots (w : Str) : Str := (w.reverse.dropWhile (· == 46)).reverse

/-- `PN_LOCAL`, `cowl_functional.l:66`. -/
def pnLocalLen (s : Str) : Nat :=
  match s with
  | [] => 0
  | c :: _ => if isU c || isDig c then (trimDots (s.takeWhile isPnDot)).length else 0

/-- `{PN_PREFIX}?`, `cowl_functional.l:65`: whether a maximal run matches. -/
def prefixOk (p : Str) : Bool :=
  match p with
  | [] => true
  | c :: _ => isBase c && p.getLast? != some 46

/-- `PNAME_NS`, `cowl_functional.l:67`. -/
def pnameNsLen (s : Str) : Nat :=
  let p := s.takeWhile isPnDot
  if (s.drop p.length).head? = some 58 ∧ prefixOk p then p.length + 1 else 0

/-- `PNAME_LN`, `cowl_functional.l:68`. -/
def pnameLnLen (s : Str) : Nat :=
  let n := pnameNsLen s
  let l := pnLocalLen (s.drop n)
  if n = 0 ∨ l = 0 then 0 else n + l

/-- `IRI_REF`, `cowl_functional.l:69`. -/
def iriRefLen (s : Str) : Nat :=
  match s with
  | 60 :: t =>
    let n := (t.takeWhile isIriChar).length
    if (t.drop n).head? = some 62 then n + 2 else 0
  | _ => 0

/-- `BLANK_NODE_LABEL`, `cowl_functional.l:70`. -/
def blankLen (s : Str) : Nat :=
  match s with
  | 95 :: 58 :: t => let l := pnLocalLen t; if l = 0 then 0 else l + 2
  | _ => 0

/-- `(-{ALNUM}+)*`, `cowl_functional.l:71`; the fuel bounds the repetitions. -/
def langTailLen : Nat → Str → Nat
  | n + 1, 45 :: t =>
    let a := (t.takeWhile isAlnum).length
    if a = 0 then 0 else 1 + a + langTailLen n (t.drop a)
  | _, _ => 0

/-- `LANG_TAG`, `cowl_functional.l:71`. -/
def langLen (s : Str) : Nat :=
  match s with
  | 64 :: t =>
    let a := (t.takeWhile isAlpha).length
    if a = 0 then 0 else 1 + a + langTailLen t.length (t.drop a)
  | _ => 0

/-! ## Rules -/

/-- Rules of the initial start condition, `cowl_functional.l:81-223`. -/
inductive Rule where
  | ws | kw (k : Kw) | nat | iriRef | pnameNs | pnameLn | blank | lang | qmark
  | dcaret | lpar | rpar | equals | comment | any
  deriving DecidableEq, Repr

/-- The rules in order, `cowl_functional.l:81-223`. -/
def Rule.all : List Rule :=
  .ws :: Kw.all.map .kw ++
    [.nat, .iriRef, .pnameNs, .pnameLn, .blank, .lang, .qmark, .dcaret, .lpar, .rpar,
     .equals, .comment, .any]

/-- Length of the longest match of a literal pattern. -/
def textLen (w s : Str) : Nat := if w.isPrefixOf s then w.length else 0

/-- Length of the longest match of a rule, `cowl_functional.l:57-75`, `81-223`. -/
def Rule.len (s : Str) : Rule → Nat
  | .ws => (s.takeWhile isWs).length
  | .kw k => textLen k.text s
  | .nat => (s.takeWhile isDig).length
  | .iriRef => iriRefLen s
  | .pnameNs => pnameNsLen s
  | .pnameLn => pnameLnLen s
  | .blank => blankLen s
  | .lang => langLen s
  | .qmark => textLen [34] s
  | .dcaret => textLen [94, 94] s
  | .lpar => textLen [40] s
  | .rpar => textLen [41] s
  | .equals => textLen [61] s
  | .comment => match s with | 35 :: t => (t.takeWhile (· != 10)).length + 1 | _ => 0
  | .any => match s with | [] => 0 | c :: _ => if c = 10 then 0 else 1

/-- One step of the search for the longest match. -/
def better (s : Str) (b : Rule × Nat) (r : Rule) : Rule × Nat :=
  if b.2 < r.len s then (r, r.len s) else b

/-- The rule flex applies, with the length of its match (see the module comment). -/
def best (s : Str) : Rule × Nat := Rule.all.foldl (better s) (.any, 0)

/-- Result of scanning a quoted string: its contents and what follows, a character
that is returned as a token, or the end of the input. -/
inductive QRes where
  | done (v rest : Str)
  | bad (c : UInt8)
  | eof
  deriving DecidableEq, Repr

/-- Start condition `QSTRING`, `cowl_functional.l:193-215`, one character at a time;
`acc` is the buffer. -/
def lexQ : Str → Str → QRes
  | [], _ => .eof
  | c :: s, acc =>
    if c = 34 then .done acc s
    else if c = 92 then
      match s with
      | d :: s' => if d = 34 ∨ d = 92 then lexQ s' (acc ++ [d]) else .bad c
      | [] => .bad c
    else lexQ s (acc ++ [c])

/-- Token of a rule with its matched text, `cowl_functional.l:83-223`. -/
def Rule.tok (w : Str) : Rule → Tok
  | .kw k => .kw k
  | .nat => .nat (strToUint w)
  | .iriRef => .iriRef ((w.drop 1).take (w.length - 2))
  | .pnameNs => .pnameNs (w.take (w.length - 1))
  | .pnameLn => .pnameLn w
  | .blank => .blank (w.drop 2)
  | .lang => .lang (w.drop 1)
  | .dcaret => .dcaret
  | .lpar => .lpar
  | .rpar => .rpar
  | .equals => .equals
  | .ws | .qmark | .comment | .any => .char (w.headD 0)

/-- `return *yytext` as seen by the parser, `cowl_functional.l:223`: Bison takes codes
that are not positive for the end of the input, which holds for NUL and, where `char`
is signed (assumed here), for bytes from 128. -/
def endsInput (c : UInt8) : Bool := c == 0 || decide (128 ≤ c)

/-- The tokens of a text. The fuel bounds the number of matches. Scanning stops after
a character that makes a quoted string malformed: the grammar rejects that token. An
unterminated string ends the input without an error of its own. -/
def lexN : Nat → Str → List Tok
  | 0, _ => []
  | _ + 1, [] => []
  | n + 1, c :: s =>
    let b := best (c :: s)
    match b.1 with
    | .ws | .comment => lexN n ((c :: s).drop b.2)
    | .qmark =>
      match lexQ ((c :: s).drop b.2) [] with
      | .done v rest => .qstr v :: lexN n rest
      | .bad c => [.char c]
      | .eof => []
    | .any => if endsInput c then [] else .char c :: lexN n s
    | r => r.tok ((c :: s).take b.2) :: lexN n ((c :: s).drop b.2)

/-- The tokens of a text, `cowl_functional.l`. Every match has at least one
character, so the length of the text is enough fuel. -/
def lex (s : Str) : List Tok := lexN s.length s

end Cowl.Func
