import Verif.SaysSpec
import Verif.FuncReProps
import Verif.ApiProps
/-!
# Properties: the words of functional syntax are those of the standard

The specifications of the grammar (`FuncGramSpec.lean`, `FuncStdSpec.lean`, `SaysSpec.lean`) are about tokens. Here is how the keywords among them
are spelt in the OWL 2 structural specification.
-/
namespace Cowl
open Says Func Ast

/-- The terminal symbols of appendix A of the OWL 2 structural specification that are words. -/
def terminal : Kw → String
  | .import_ => "Import"
  | .ontology => "Ontology"
  | .prefix_ => "Prefix"
  | .declaration => "Declaration"
  | .annotation => "Annotation"
  | .datatypeDefinition => "DatatypeDefinition"
  | .hasKey => "HasKey"
  | .class_ => "Class"
  | .datatype => "Datatype"
  | .objectProperty => "ObjectProperty"
  | .dataProperty => "DataProperty"
  | .annotationProperty => "AnnotationProperty"
  | .namedIndividual => "NamedIndividual"
  | .dataIntersectionOf => "DataIntersectionOf"
  | .dataUnionOf => "DataUnionOf"
  | .dataComplementOf => "DataComplementOf"
  | .dataOneOf => "DataOneOf"
  | .datatypeRestriction => "DatatypeRestriction"
  | .dataSomeValuesFrom => "DataSomeValuesFrom"
  | .dataAllValuesFrom => "DataAllValuesFrom"
  | .dataHasValue => "DataHasValue"
  | .dataMinCardinality => "DataMinCardinality"
  | .dataMaxCardinality => "DataMaxCardinality"
  | .dataExactCardinality => "DataExactCardinality"
  | .objectInverseOf => "ObjectInverseOf"
  | .objectIntersectionOf => "ObjectIntersectionOf"
  | .objectUnionOf => "ObjectUnionOf"
  | .objectComplementOf => "ObjectComplementOf"
  | .objectOneOf => "ObjectOneOf"
  | .objectSomeValuesFrom => "ObjectSomeValuesFrom"
  | .objectAllValuesFrom => "ObjectAllValuesFrom"
  | .objectHasValue => "ObjectHasValue"
  | .objectHasSelf => "ObjectHasSelf"
  | .objectMinCardinality => "ObjectMinCardinality"
  | .objectMaxCardinality => "ObjectMaxCardinality"
  | .objectExactCardinality => "ObjectExactCardinality"
  | .subClassOf => "SubClassOf"
  | .equivalentClasses => "EquivalentClasses"
  | .disjointClasses => "DisjointClasses"
  | .disjointUnion => "DisjointUnion"
  | .subObjectPropertyOf => "SubObjectPropertyOf"
  | .equivalentObjectProperties => "EquivalentObjectProperties"
  | .disjointObjectProperties => "DisjointObjectProperties"
  | .inverseObjectProperties => "InverseObjectProperties"
  | .objectPropertyDomain => "ObjectPropertyDomain"
  | .objectPropertyRange => "ObjectPropertyRange"
  | .functionalObjectProperty => "FunctionalObjectProperty"
  | .inverseFunctionalObjectProperty => "InverseFunctionalObjectProperty"
  | .reflexiveObjectProperty => "ReflexiveObjectProperty"
  | .irreflexiveObjectProperty => "IrreflexiveObjectProperty"
  | .symmetricObjectProperty => "SymmetricObjectProperty"
  | .asymmetricObjectProperty => "AsymmetricObjectProperty"
  | .transitiveObjectProperty => "TransitiveObjectProperty"
  | .objectPropertyChain => "ObjectPropertyChain"
  | .subDataPropertyOf => "SubDataPropertyOf"
  | .equivalentDataProperties => "EquivalentDataProperties"
  | .disjointDataProperties => "DisjointDataProperties"
  | .dataPropertyDomain => "DataPropertyDomain"
  | .dataPropertyRange => "DataPropertyRange"
  | .functionalDataProperty => "FunctionalDataProperty"
  | .sameIndividual => "SameIndividual"
  | .differentIndividuals => "DifferentIndividuals"
  | .classAssertion => "ClassAssertion"
  | .objectPropertyAssertion => "ObjectPropertyAssertion"
  | .negativeObjectPropertyAssertion => "NegativeObjectPropertyAssertion"
  | .dataPropertyAssertion => "DataPropertyAssertion"
  | .negativeDataPropertyAssertion => "NegativeDataPropertyAssertion"
  | .annotationAssertion => "AnnotationAssertion"
  | .subAnnotationPropertyOf => "SubAnnotationPropertyOf"
  | .annotationPropertyDomain => "AnnotationPropertyDomain"
  | .annotationPropertyRange => "AnnotationPropertyRange"

theorem all_kw (k : Kw) : k ∈ Kw.all := by cases k <;> decide +kernel

/-- C88, words: every keyword is spelt as in the standard, and the scanner takes this word for this keyword and nothing else. -/
theorem C88_words (k : Kw) : k.text = ascii (terminal k) ∧ lex (ascii (terminal k)) = [.kw k] := by
  refine ⟨by cases k <;> rfl, ?_⟩
  have h : ∀ k ∈ Kw.all, lex (ascii (terminal k)) = [.kw k] := by decide +kernel
  exact h k (all_kw k)

/-- The keyword that a form begins with. -/
def leads : List Says.Sym → Option Kw
  | .tok (.kw k) :: _ => some k
  | _ => none

/-- C112, words: axioms, class expressions and data ranges begin with the word that names their construct in the standard, but for classes and datatypes, which are
given by their names alone; entities are declared with the word for their kind. Further words are those for inverse properties, chains, annotations, and the parts
of a document. -/
theorem C112_words (a : Ax) (c : CE) (d : DR) :
    terminal (axForm a).1 = a.keyword ∧ ((∃ i, c = .cls i) ∨ ∃ k, leads (ceForm c) = some k ∧ terminal k = c.keyword) ∧
    ((∃ i, d = .dt i) ∨ ∃ k, leads (drForm d) = some k ∧ terminal k = d.keyword) ∧
    ([EntKind.cls, .datatype, .objProp, .dataProp, .annotProp, .namedInd].map fun e => terminal (entKw e)) =
      ["Class", "Datatype", "ObjectProperty", "DataProperty", "AnnotationProperty", "NamedIndividual"] ∧
    ([Kw.objectInverseOf, .objectPropertyChain, .annotation, .prefix_, .ontology, .import_].map terminal) =
      ["ObjectInverseOf", "ObjectPropertyChain", "Annotation", "Prefix", "Ontology", "Import"] := by
  refine ⟨?_, ?_, ?_, rfl, rfl⟩
  · cases a with
    | objPropChar k _ => cases k <;> rfl
    | _ => rfl
  · cases c with
    | cls i => exact .inl ⟨i, rfl⟩
    | objCard k | objCardQ k | dataCard k | dataCardQ k => cases k <;> exact .inr ⟨_, by rw [ceForm]; rfl, rfl⟩
    | _ => exact .inr ⟨_, by rw [ceForm]; rfl, rfl⟩
  · cases d with
    | dt i => exact .inl ⟨i, rfl⟩
    | _ => exact .inr ⟨_, by rw [drForm]; rfl, rfl⟩

/-- C74, terms that the program itself uses: the default class and data range of restrictions, and the datatypes of literals, are those of the standard. -/
theorem C74_used : [owlThing, rdfsLiteral, rdfLangString, rdfPlainLiteral, xsdString].map (fun i => i.ns ++ i.rem) =
    [ascii "http://www.w3.org/2002/07/owl#Thing", ascii "http://www.w3.org/2000/01/rdf-schema#Literal",
     ascii "http://www.w3.org/1999/02/22-rdf-syntax-ns#langString", ascii "http://www.w3.org/1999/02/22-rdf-syntax-ns#PlainLiteral",
     ascii "http://www.w3.org/2001/XMLSchema#string"] := by decide +kernel

end Cowl
