import Verif.FuncDocSpec
/-!
# Specification: writing what was read

What the text of an accepted document does not guarantee, and the functional writer needs.
-/
namespace Cowl.Rewrite
open Cowl.Prefix Cowl.Func Cowl.FuncSpec Cowl.Change Cowl.Ast Cowl.XmlSpec

/-- Requirements on the names and literals of an ontology, given the prefix the writer has for a namespace. A name is
split in the way of C02, and has no full stop at its end if it is abbreviated; a value has no NUL; a language tag is
one of the grammar; a sub-property is not an inverse. -/
def restReq (gp : Str → Option Str) : Req where
  iri i := IsSplit (i.ns ++ i.rem) i.ns i.rem ∧ (gp i.ns ≠ none → NoFinalDot i.rem)
  lit l := 0 ∉ l.value ∧ match l.tag with
    | .lang t => LangTag t
    | .dt i => i = xsdString ∨ (IsSplit (i.ns ++ i.rem) i.ns i.rem ∧ (gp i.ns ≠ none → NoFinalDot i.rem))
  anon _ := True
  sub := Named
  two _ := True
  one _ := True
  any _ := True
  card _ := True

/-- The same for everything in the ontology; names of ontologies are not abbreviated. -/
structure Rewritable (o : OntoSt) : Prop where
  iri : ∀ i, o.iri = some i → IsSplit (i.ns ++ i.rem) i.ns i.rem
  version : ∀ i, o.version = some i → IsSplit (i.ns ++ i.rem) i.ns i.rem
  imports : ∀ x ∈ o.onto.imports.getD [], ∀ i, x.obj = .prim (.iri i) → IsSplit (i.ns ++ i.rem) i.ns i.rem
  annots : ∀ x ∈ o.onto.annot.getD [], ∀ a : Annot, x.obj = a.toObj → a.Meets (restReq (lookup o.pm))
  axioms : ∀ x ∈ axiomsOf o.onto, ∀ a : Axiom, x.obj = a.toObj → a.Meets (restReq (lookup o.pm))

/-- The default prefixes are ones that a document can declare. -/
def GoodDefaults (dflt : Fwd) : Prop := ∀ e ∈ dflt, PlainPrefix e.1.txt ∧ ∀ c ∈ e.2, IriChar c

end Cowl.Rewrite
