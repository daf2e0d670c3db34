import Verif.FuncDoc
import Verif.FuncSpec
import Verif.PrefixMapSpec
import Verif.ChangeSpec
/-! # Specification of documents in functional syntax -/
namespace Cowl.FuncSpec
open Cowl.Prefix Cowl.PrefixSpec Cowl.Func Cowl.Change Cowl.Ast

/-- The four prefixes that documents need not declare. -/
def Standard (p : Str) : Prop := p = ascii "owl" ∨ p = ascii "rdf" ∨ p = ascii "rdfs" ∨ p = ascii "xsd"

/-- Ontologies that documents can express: the prefixes that the map finds for
namespaces are registered for them (C23), with well-formed prefixes and namespaces; a version only together with an IRI; IRIs, annotations and
axioms that text can express (C30, C31). -/
structure DocOk (o : OntoSt) : Prop where
  history : ∃ a, PrefixSpec.Reaches False o.pm a
  sound : ∀ n p, lookup o.pm n = some p → o.pm.getNs p = some n
  plain : ∀ p n, o.pm.getNs p = some n → PlainPrefix p
  chars : ∀ p n, o.pm.getNs p = some n → ∀ c ∈ n, IriChar c
  iri : ∀ i, o.iri = some i → IriOk (fun _ => none) i
  version : ∀ v, o.version = some v → o.iri ≠ none ∧ IriOk (fun _ => none) v
  imports : ∀ x ∈ o.onto.imports.getD [], ∃ i, x.obj = .prim (.iri i) ∧ IriOk (fun _ => none) i
  annots : ∀ x ∈ o.onto.annot.getD [], ∃ a : Annot, x.obj = a.toObj ∧ a.Meets (textReq (lookup o.pm))
  axioms : ∀ x ∈ axiomsOf o.onto, ∃ a : Axiom, x.obj = a.toObj ∧ a.Meets (textReq (lookup o.pm))

/-- The default prefixes of the reader do not contradict those of the ontology. -/
def Compatible (m : PMap) (dflt : Fwd) : Prop :=
  ∀ p n n', m.getNs p = some n → meaning dflt p = some n' → n = n' ∨ Standard p

/-- What a document tells, in order: prefixes that are not standard, IRI, version,
imports, annotations, axioms. -/
def Tells (o : OntoSt) (items : List Item) : Prop :=
  ∃ (ps : Fwd) (is : List Iri),
    ps.Sublist o.pm.fwd ∧ (∀ e ∈ o.pm.fwd, e ∈ ps ↔ ¬ Standard e.1.txt) ∧
    (o.onto.imports.getD []).map Ref.obj = is.map (fun i => Obj.prim (.iri i)) ∧
    items = (ps.map fun e => Item.prefixDecl e.1.txt e.2) ++ ((o.iri.map Item.iri).toList ++
      (o.version.map Item.version).toList ++ is.map Item.import ++
      ((o.onto.annot.getD []).map Ref.obj).map Item.annot ++ ((axiomsOf o.onto).map Ref.obj).map Item.ax)

/-- The handler accepts everything. -/
def Accepts {σ ι : Type} (h : Callback σ ι) : Prop := ∀ s i, (h s i).2 = .ok

/-- State of a handler after the items, all accepted. -/
def give {σ ι : Type} (h : Callback σ ι) (s : σ) (is : List ι) : σ := is.foldl (fun s i => (h s i).1) s

end Cowl.FuncSpec
