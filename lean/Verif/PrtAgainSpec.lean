import Verif.PrtNormSpec
/-! # Specification: ontologies whose names ProtocOWL can express -/
namespace Cowl
open Prt Change

/-- The names of an ontology can be written, whatever its constructs. `names` are all names that were ever
mentioned in it; IRIs are split as C02 says; there is a version only with an IRI; names and prefixes are
short, and they, imports and annotations are few enough to be counted with 32 bits. -/
structure NamesFit (names : List Id) (o : OntoSt) : Prop where
  iri : ∀ i, o.iri = some i → .iri i ∈ names
  version : ∀ i, o.version = some i → o.iri ≠ none ∧ .iri i ∈ names
  prims : ∀ p, o.onto.hasPrimitive p = true → idOf p ∈ names
  imports : ∀ x ∈ o.onto.imports.getD [], ∀ i, x.obj = .prim (.iri i) → .iri i ∈ names
  split : ∀ i, .iri i ∈ names → XmlSpec.IsSplit (i.ns ++ i.rem) i.ns i.rem
  short : ∀ i ∈ names, IdShort i
  prefixes : ∀ e ∈ o.pm.fwd, e.1.txt.length < 4294967296 ∧ e.2.length < 4294967296
  few : names.length + o.pm.fwd.length < 4294967000
  few_imports : (o.onto.imports.getD []).length < 4294967296
  few_annots : (o.onto.annot.getD []).length < 4294967296

/-- Sizes fit into 32 bits, cardinalities into 31. -/
def small : Ast.Req where
  iri _ := True
  lit := LitShort
  anon _ := True
  sub _ := True
  two n := n < 4294967296
  one n := n < 4294967296
  any n := n < 4294967296
  card n := n.toNat < 2147483648

/-- The same for everything in the ontology. -/
structure SizesFit (o : OntoSt) : Prop where
  annots : ∀ x ∈ o.onto.annot.getD [], ∀ a : Ast.Annot, x.obj = a.toObj → a.Meets small
  axioms : ∀ x ∈ axiomsOf o.onto, ∀ a : Ast.Axiom, x.obj = a.toObj → a.Meets small

end Cowl
