import Verif.FuncDocSpec
/-!
# Specification: what a document in functional-style syntax says

After "OWL 2 Web Ontology Language: Structural Specification and Functional-Style Syntax (Second Edition)", W3C
Recommendation 11 December 2012, the functional-style syntax of each construct, over the tokens of the scanner. An IRI may be
written in full or abbreviated with any prefix, and a literal in several ways, so a construct has many spellings. The rules of
`cowl_functional.y` are not used.
-/
namespace Cowl.Says
open Ast Func XmlSpec FuncSpec

/-- Symbols of constructs: tokens, and IRIs and literals, which have several spellings. -/
inductive Sym where
  | tok (t : Tok)
  | iri (i : Iri)
  | lit (l : Lit)

/-- Spellings that a statement takes into account. -/
structure Ways where
  /-- Abbreviated IRIs, by namespace and local name. -/
  short : Str → Str → Prop
  /-- Literals of `rdf:PlainLiteral` without a language, which end with `@`. -/
  plain : Prop
  /-- IRIs of datatypes. -/
  dt : Iri → Prop
  /-- Literals of `rdf:langString` that are read as those of `rdf:PlainLiteral`, which the standard does not have. -/
  odd : Prop

/-- IRIs: not empty, and split in the way of C02, which is a matter of this model. -/
def Proper (i : Iri) : Prop := i.ns ++ i.rem ≠ [] ∧ IsSplit (i.ns ++ i.rem) i.ns i.rem

/-- All spellings. -/
def every : Ways := ⟨fun _ _ => True, True, Proper, False⟩

/-- The first exception: the IRI is put together of a namespace that ends in a local name and a local name that continues it
but cannot stand on its own. -/
def Joins (n l : Str) : Prop :=
  ¬ (l = [] ∨ XmlSpec.LocalName l) ∧ (∀ c ∈ l, NameChar c) ∧ ∃ a b, n = a ++ b ∧ XmlSpec.LocalName b

/-- All spellings but the exceptions. -/
def usual : Ways := ⟨fun n l => ¬ Joins n l, False, Proper, False⟩

/-- Tokens for an IRI (section 2.4 of the standard), given what prefixes stand for. -/
inductive Names (W : Ways) (ns : Str → Option Str) (i : Iri) : Tok → Prop
  | full : Names W ns i (.iriRef (i.ns ++ i.rem))
  | short (p l n : Str) : 58 ∉ p → ns p = some n → n ++ l = i.ns ++ i.rem → W.short n l → Names W ns i (.pnameLn (p ++ 58 :: l))

/-- Tokens for a literal (section 5.7, and section 4 of "rdf:PlainLiteral: A Datatype for RDF Plain Literals"). The case
of language tags has no meaning. -/
inductive Literal (W : Ways) (ns : Str → Option Str) : Lit → List Tok → Prop
  | string (v : Str) : Literal W ns ⟨v, .dt xsdString⟩ [.qstr v]
  | lang (v l : Str) : l ≠ [] → Literal W ns ⟨v, .lang (lower l)⟩ [.qstr v, .lang l]
  | typed (v : Str) (d : Iri) (t : Tok) : d ≠ rdfLangString → d ≠ rdfPlainLiteral → W.dt d →
      Names W ns d t → Literal W ns ⟨v, .dt d⟩ [.qstr v, .dcaret, t]
  | plain (v l : Str) (t : Tok) : l ≠ [] → 64 ∉ l → Names W ns rdfPlainLiteral t →
      Literal W ns ⟨v, .lang (lower l)⟩ [.qstr (v ++ 64 :: l), .dcaret, t]
  | plainString (v : Str) (t : Tok) : Names W ns rdfPlainLiteral t → W.plain →
      Literal W ns ⟨v, .dt xsdString⟩ [.qstr (v ++ [64]), .dcaret, t]
  | langString (v l : Str) (t : Tok) : l ≠ [] → 64 ∉ l → Names W ns rdfLangString t → W.odd →
      Literal W ns ⟨v, .lang (lower l)⟩ [.qstr (v ++ 64 :: l), .dcaret, t]

/-- Spellings of symbols. -/
inductive Spelt (W : Ways) (ns : Str → Option Str) : List Sym → List Tok → Prop
  | nil : Spelt W ns [] []
  | tok {t xs ts} : Spelt W ns xs ts → Spelt W ns (.tok t :: xs) (t :: ts)
  | iri {i t xs ts} : Names W ns i t → Spelt W ns xs ts → Spelt W ns (.iri i :: xs) (t :: ts)
  | lit {l us xs ts} : Literal W ns l us → Spelt W ns xs ts → Spelt W ns (.lit l :: xs) (us ++ ts)

/-- A keyword and its arguments in parentheses. -/
def form (k : Kw) (args : List Sym) : List Sym := .tok (.kw k) :: .tok .lpar :: (args ++ [.tok .rpar])

/-- Section 5.6. -/
def indForm : Ind → List Sym
  | .named i => [.iri i]
  | .anon s => [.tok (.blank s)]

/-- Section 6.1. -/
def opeForm : Ope → List Sym
  | .prop i => [.iri i]
  | .inv i => form .objectInverseOf [.iri i]

/-- Facets, section 7.5. -/
def facetForm (f : Iri × Lit) : List Sym := [.iri f.1, .lit f.2]

mutual
/-- Section 7. -/
def drForm : DR → List Sym
  | .dt i => [.iri i]
  | .inter ds => form .dataIntersectionOf (drForms ds)
  | .union ds => form .dataUnionOf (drForms ds)
  | .compl d => form .dataComplementOf (drForm d)
  | .oneOf ls => form .dataOneOf (ls.map .lit)
  | .restr i fs => form .datatypeRestriction (.iri i :: fs.flatMap facetForm)

/-- One after another. -/
def drForms : List DR → List Sym
  | [] => []
  | d :: ds => drForm d ++ drForms ds
end

/-- Section 8.3. -/
def objCardKw : CardKind → Kw
  | .min => .objectMinCardinality
  | .max => .objectMaxCardinality
  | .exact => .objectExactCardinality

/-- Section 8.5. -/
def dataCardKw : CardKind → Kw
  | .min => .dataMinCardinality
  | .max => .dataMaxCardinality
  | .exact => .dataExactCardinality

mutual
/-- Section 8. -/
def ceForm : CE → List Sym
  | .cls i => [.iri i]
  | .inter cs => form .objectIntersectionOf (ceForms cs)
  | .union cs => form .objectUnionOf (ceForms cs)
  | .compl c => form .objectComplementOf (ceForm c)
  | .oneOf is => form .objectOneOf (is.flatMap indForm)
  | .objSome p c => form .objectSomeValuesFrom (opeForm p ++ ceForm c)
  | .objAll p c => form .objectAllValuesFrom (opeForm p ++ ceForm c)
  | .objHasValue p i => form .objectHasValue (opeForm p ++ indForm i)
  | .objHasSelf p => form .objectHasSelf (opeForm p)
  | .objCard k n p => form (objCardKw k) (.tok (.nat n) :: opeForm p)
  | .objCardQ k n p c => form (objCardKw k) (.tok (.nat n) :: (opeForm p ++ ceForm c))
  | .dataSome p d => form .dataSomeValuesFrom (.iri p :: drForm d)
  | .dataAll p d => form .dataAllValuesFrom (.iri p :: drForm d)
  | .dataHasValue p l => form .dataHasValue [.iri p, .lit l]
  | .dataCard k n p => form (dataCardKw k) [.tok (.nat n), .iri p]
  | .dataCardQ k n p d => form (dataCardKw k) (.tok (.nat n) :: .iri p :: drForm d)

/-- One after another. -/
def ceForms : List CE → List Sym
  | [] => []
  | c :: cs => ceForm c ++ ceForms cs
end

/-- Section 10.1. -/
def valForm : AnnotVal → List Sym
  | .iri i => [.iri i]
  | .anon s => [.tok (.blank s)]
  | .lit l => [.lit l]

/-- Section 10.2.1. -/
def subjForm : AnnotSubj → List Sym
  | .iri i => [.iri i]
  | .anon s => [.tok (.blank s)]

mutual
/-- Section 10.1. -/
def annotForm : Annot → List Sym
  | .mk p v as => form .annotation (annotForms as ++ (.iri p :: valForm v))

/-- One after another. -/
def annotForms : List Annot → List Sym
  | [] => []
  | a :: as => annotForm a ++ annotForms as
end

/-- Section 5.8. -/
def entKw : EntKind → Kw
  | .cls => .class_
  | .datatype => .datatype
  | .objProp => .objectProperty
  | .dataProp => .dataProperty
  | .annotProp => .annotationProperty
  | .namedInd => .namedIndividual

/-- Section 9.2.1. -/
def subForm : SubOpe → List Sym
  | .ope p => opeForm p
  | .chain ps => form .objectPropertyChain (ps.flatMap opeForm)

/-- Sections 9.2.7 to 9.2.13. -/
def charKw : OpeChar → Kw
  | .func => .functionalObjectProperty
  | .invFunc => .inverseFunctionalObjectProperty
  | .symm => .symmetricObjectProperty
  | .asymm => .asymmetricObjectProperty
  | .trans => .transitiveObjectProperty
  | .refl => .reflexiveObjectProperty
  | .irrefl => .irreflexiveObjectProperty

/-- A list in parentheses. -/
def paren (xs : List Sym) : List Sym := .tok .lpar :: (xs ++ [.tok .rpar])

/-- The keyword of an axiom and what follows its annotations: sections 5.8, 9 and 10.2. -/
def axForm : Ax → Kw × List Sym
  | .decl k i => (.declaration, form (entKw k) [.iri i])
  | .subClass c d => (.subClassOf, ceForm c ++ ceForm d)
  | .equivClasses cs => (.equivalentClasses, ceForms cs)
  | .disjClasses cs => (.disjointClasses, ceForms cs)
  | .disjUnion c cs => (.disjointUnion, .iri c :: ceForms cs)
  | .subObjProp p q => (.subObjectPropertyOf, subForm p ++ opeForm q)
  | .equivObjProp ps => (.equivalentObjectProperties, ps.flatMap opeForm)
  | .disjObjProp ps => (.disjointObjectProperties, ps.flatMap opeForm)
  | .invObjProp p q => (.inverseObjectProperties, opeForm p ++ opeForm q)
  | .objPropDomain p c => (.objectPropertyDomain, opeForm p ++ ceForm c)
  | .objPropRange p c => (.objectPropertyRange, opeForm p ++ ceForm c)
  | .objPropChar k p => (charKw k, opeForm p)
  | .subDataProp p q => (.subDataPropertyOf, [.iri p, .iri q])
  | .equivDataProp ps => (.equivalentDataProperties, ps.map .iri)
  | .disjDataProp ps => (.disjointDataProperties, ps.map .iri)
  | .dataPropDomain p c => (.dataPropertyDomain, .iri p :: ceForm c)
  | .dataPropRange p d => (.dataPropertyRange, .iri p :: drForm d)
  | .funcDataProp p => (.functionalDataProperty, [.iri p])
  | .datatypeDef i d => (.datatypeDefinition, .iri i :: drForm d)
  | .hasKey c ps ds => (.hasKey, ceForm c ++ (paren (ps.flatMap opeForm) ++ paren (ds.map .iri)))
  | .sameInd is => (.sameIndividual, is.flatMap indForm)
  | .diffInd is => (.differentIndividuals, is.flatMap indForm)
  | .classAssert c i => (.classAssertion, ceForm c ++ indForm i)
  | .objPropAssert p i j => (.objectPropertyAssertion, opeForm p ++ (indForm i ++ indForm j))
  | .negObjPropAssert p i j => (.negativeObjectPropertyAssertion, opeForm p ++ (indForm i ++ indForm j))
  | .dataPropAssert p i l => (.dataPropertyAssertion, .iri p :: (indForm i ++ [.lit l]))
  | .negDataPropAssert p i l => (.negativeDataPropertyAssertion, .iri p :: (indForm i ++ [.lit l]))
  | .annotAssert p s v => (.annotationAssertion, .iri p :: (subjForm s ++ valForm v))
  | .subAnnotProp p q => (.subAnnotationPropertyOf, [.iri p, .iri q])
  | .annotPropDomain p i => (.annotationPropertyDomain, [.iri p, .iri i])
  | .annotPropRange p i => (.annotationPropertyRange, [.iri p, .iri i])

/-- An axiom with its annotations. -/
def axiomForm (a : Axiom) : List Sym := form (axForm a.ax).1 (annotForms a.annots ++ (axForm a.ax).2)

/-- What the standard requires of constructs: the number of operands. -/
def req : Req where
  iri := Proper
  lit := fun _ => True
  anon := fun _ => True
  sub := fun _ => True
  two := (2 ≤ ·)
  one := (1 ≤ ·)
  any := fun _ => True
  card := fun _ => True

/-- Documents, section 3.7: declarations of prefixes, IRI and version, imports, annotations and axioms. -/
structure Doc where
  prefixes : List (Str × Str)
  id : Option (Iri × Option Iri)
  imports : List Iri
  annots : List Annot
  axioms : List Axiom

/-- A prefix declaration. -/
def prefixForm (e : Str × Str) : List Sym := form .prefix_ [.tok (.pnameNs e.1), .tok .equals, .tok (.iriRef e.2)]

/-- The IRI and the version. -/
def idForm : Option (Iri × Option Iri) → List Sym
  | none => []
  | some (i, none) => [.iri i]
  | some (i, some v) => [.iri i, .iri v]

/-- Section 3.7. -/
def Doc.form (d : Doc) : List Sym :=
  d.prefixes.flatMap prefixForm ++ Says.form .ontology (idForm d.id ++ (d.imports.flatMap (fun i => Says.form .import_ [.iri i]) ++
    (annotForms d.annots ++ d.axioms.flatMap axiomForm)))

/-- The parts of the document are as the standard requires. -/
structure Doc.Ok (d : Doc) : Prop where
  id : ∀ i v, d.id = some (i, v) → Proper i ∧ ∀ w, v = some w → Proper w
  imports : ∀ i ∈ d.imports, Proper i
  annots : ∀ a ∈ d.annots, a.Meets req
  axioms : ∀ a ∈ d.axioms, a.Meets req
  /-- A prefix is declared once. -/
  prefixes : d.prefixes.Pairwise (fun e f => e.1 ≠ f.1)

/-- No prefix that stands for something at first is declared to stand for something else. For the prefixes of the standard this
is required by section 3.7. -/
def Doc.Agrees (d : Doc) (first : Str → Option Str) : Prop := ∀ e ∈ d.prefixes, ∀ n, first e.1 = some n → n = e.2

/-- What prefixes stand for in the document: what is declared, or else what they stand for at first. -/
def Doc.ns (d : Doc) (first : Str → Option Str) (p : Str) : Option Str :=
  match d.prefixes.find? (fun e => e.1 == p) with
  | some e => some e.2
  | none => first p

/-- What the document consists of, in order. -/
def Doc.items (d : Doc) : List Item :=
  d.prefixes.map (fun e => .prefixDecl e.1 e.2) ++ ((match d.id with
    | none => []
    | some (i, none) => [.iri i]
    | some (i, some v) => [.iri i, .version v]) ++ (d.imports.map .import ++
  (d.annots.map (fun a => .annot a.toObj) ++ d.axioms.map fun a => .ax a.toObj)))

/-- The text says the document. -/
def Says (W : Ways) (first : Str → Option Str) (text : Str) (d : Doc) : Prop := Spelt W (d.ns first) d.form (lex text)

end Cowl.Says
