import Verif.PrtStream
import Verif.PrtDocSpec
/-! # Specification of streaming in ProtocOWL -/
namespace Cowl
open Prt Ast

/-- Headers and axioms that ProtocOWL can express. `names` are all names in them; the rest
is as in `PrtDocOk`. -/
structure PrtStreamOk (u : Ulib) (names : List Id) (h : Prt.Header) (axioms : List Ref) : Prop where
  iri : ∀ i, h.iri = some i → .iri i ∈ names
  version : ∀ i, h.version = some i → h.iri ≠ none ∧ .iri i ∈ names
  imports : ∀ x ∈ h.imports, ∃ i, x.obj = .prim (.iri i) ∧ .iri i ∈ names
  annots : ∀ x ∈ h.annots, ∃ a : Annot, x.obj = a.toObj ∧ a.Meets (prtContents u) ∧
    ∀ p, IterSpec.Occurs p x.obj → idOf p ∈ names
  axioms : ∀ x ∈ axioms, ∃ a : Axiom, x.obj = a.toObj ∧ a.Meets (prtContents u) ∧
    ∀ p, IterSpec.Occurs p x.obj → idOf p ∈ names
  split : ∀ i, .iri i ∈ names → XmlSpec.IsSplit (i.ns ++ i.rem) i.ns i.rem
  short : ∀ i ∈ names, IdShort i
  prefixes : ∀ e ∈ h.prefixes, e.1.length < 4294967296 ∧ e.2.length < 4294967296
  few : names.length + h.prefixes.length < 4294967000
  few_imports : h.imports.length < 4294967296
  few_annots : h.annots.length < 4294967296

/-- What a document that was written incrementally tells, in order: prefixes of the header,
at least one for each namespace that has one and is not known; IRI, version, imports,
annotations; the axioms, those of each type in the same order. -/
def PrtStreamTells (h : Prt.Header) (axioms : List Ref) (items : List Func.Item) : Prop :=
  ∃ (ps : List (Str × Str)) (is : List Iri) (xs : List Ref),
    ps.Sublist h.prefixes ∧ (∀ n, n ∈ ps.map (·.2) ↔ n ∉ knownNs ∧ ∃ p, (p, n) ∈ h.prefixes) ∧
    h.imports.map Ref.obj = is.map (fun i => Obj.prim (.iri i)) ∧
    xs.Perm axioms ∧ (∀ t, xs.filter (fun x => axType x.obj = t) = axioms.filter fun x => axType x.obj = t) ∧
    items = (ps.map fun p => Func.Item.prefixDecl p.1 p.2) ++ ((h.iri.map Func.Item.iri).toList ++
      (h.version.map Func.Item.version).toList) ++ is.map Func.Item.import ++
      h.annots.map (fun x => Func.Item.annot x.obj) ++ xs.map fun x => Func.Item.ax x.obj

end Cowl
