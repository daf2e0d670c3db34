import Verif.PrtDoc
import Verif.PrtConstrProps
import Verif.FuncDocSpec
import Verif.XmlSpec
/-! # Specification of ProtocOWL documents -/
namespace Cowl
open Prt Ast Change

/-- Lengths that fit into 32 bits. -/
def IdShort : Id → Prop
  | .iri i => i.ns.length < 4294967296 ∧ i.rem.length < 4294967296
  | .anon s => s.length < 4294967296

/-- Ontologies that ProtocOWL can express, apart from the contents of constructs, which meet
`R`. `names` are all names that were ever mentioned in the ontology; IRIs are split as C02
says; there is a version only with an IRI; numbers and lengths fit into 32 bits. -/
structure PrtDocFits (R : Req) (names : List Id) (o : OntoSt) : Prop where
  iri : ∀ i, o.iri = some i → .iri i ∈ names
  version : ∀ i, o.version = some i → o.iri ≠ none ∧ .iri i ∈ names
  prims : ∀ p, o.onto.hasPrimitive p = true → idOf p ∈ names
  imports : ∀ x ∈ o.onto.imports.getD [], ∃ i, x.obj = .prim (.iri i) ∧ .iri i ∈ names
  annots : ∀ x ∈ o.onto.annot.getD [], ∃ a : Annot, x.obj = a.toObj ∧ a.Meets R
  axioms : ∀ x ∈ axiomsOf o.onto, ∃ a : Axiom, x.obj = a.toObj ∧ a.Meets R
  split : ∀ i, .iri i ∈ names → XmlSpec.IsSplit (i.ns ++ i.rem) i.ns i.rem
  short : ∀ i ∈ names, IdShort i
  prefixes : ∀ e ∈ o.pm.fwd, e.1.txt.length < 4294967296 ∧ e.2.length < 4294967296
  few : names.length + o.pm.fwd.length < 4294967000
  few_imports : (o.onto.imports.getD []).length < 4294967296
  few_annots : (o.onto.annot.getD []).length < 4294967296

/-- Ontologies that ProtocOWL can express: annotations and axioms fit (C32). -/
abbrev PrtDocOk (u : Ulib) (names : List Id) (o : OntoSt) : Prop := PrtDocFits (prtContents u) names o

/-- Namespaces that every document knows: those of `owl`, `rdf`, `rdfs`, `xsd` and `xml`. -/
def knownNs : List Str := [ascii "http://www.w3.org/2002/07/owl#", ascii "http://www.w3.org/1999/02/22-rdf-syntax-ns#",
  ascii "http://www.w3.org/2000/01/rdf-schema#", ascii "http://www.w3.org/2001/XMLSchema#",
  ascii "http://www.w3.org/XML/1998/namespace"]

/-- What a document tells, in order: one prefix for each namespace that has one and is not
known, IRI, version, imports, annotations, axioms. -/
def PrtTells (o : OntoSt) (items : List Func.Item) : Prop :=
  ∃ (ps : List (Str × Str)) (is : List Iri),
    ps.Sublist (o.pm.fwd.map fun e => (e.1.txt, e.2)) ∧ (ps.map (·.2)).Nodup ∧
    (∀ n, n ∈ ps.map (·.2) ↔ n ∉ knownNs ∧ ∃ p, (p, n) ∈ o.pm.fwd.map fun e => (e.1.txt, e.2)) ∧
    (o.onto.imports.getD []).map Ref.obj = is.map (fun i => Obj.prim (.iri i)) ∧
    items = (ps.map fun p => Func.Item.prefixDecl p.1 p.2) ++ ((o.iri.map Func.Item.iri).toList ++
      (o.version.map Func.Item.version).toList) ++ is.map Func.Item.import ++
      (o.onto.annot.getD []).map (fun x => Func.Item.annot x.obj) ++ (axiomsOf o.onto).map fun x => Func.Item.ax x.obj

end Cowl
