import Verif.Convert
import Verif.PrtDocSpec
/-! # Specification of conversions between formats -/
namespace Cowl.Convert
open Prefix PrefixSpec Func FuncSpec Change Ast Prt

/-- IRIs that both formats can express, with any prefixes. -/
structure IriPortable (i : Iri) : Prop where
  split : XmlSpec.IsSplit (i.ns ++ i.rem) i.ns i.rem
  some : i.ns ++ i.rem ≠ []
  chars : ∀ c ∈ i.ns ++ i.rem, IriChar c
  dot : NoFinalDot i.rem

/-- Literals that both formats can express. -/
structure LitPortable (u : Ulib) (l : Lit) : Prop where
  text : 0 ∉ l.value
  safe : LitSafe u l.value l.tag
  short : l.value.length < 4294967296
  lang : ∀ t, l.tag = .lang t → LangTag t ∧ t.length < 4294967296 ∧ ∀ c ∈ t, ¬ ('A'.toNat ≤ c.toNat ∧ c.toNat ≤ 'Z'.toNat)
  dt : ∀ i, l.tag = .dt i → i ≠ rdfLangString ∧ i ≠ rdfPlainLiteral ∧ (i = xsdString ∨ IriPortable i)

/-- Constructs that both formats can express. -/
def portable (u : Ulib) : Req where
  iri := IriPortable
  lit := LitPortable u
  anon := Label
  sub := Named
  two n := 2 ≤ n ∧ n < 4294967296
  one n := 1 ≤ n ∧ n < 4294967296
  any n := n < 4294967296
  card n := n.toNat < 2147483648

/-- All names in the object are among these. -/
def NamesIn (names : List Id) (x : Obj) : Prop := ∀ p, 0 < OntoSpec.times p x → idOf p ∈ names

/-- The names, prefixes and default prefixes of a series of conversions: all are short enough, names are
split as C02 says, no prefix has two namespaces, and the standard prefixes have their own. -/
structure Setting (names : List Id) (P : List (Str × Str)) (dflt : Fwd) : Prop where
  split : ∀ i, .iri i ∈ names → XmlSpec.IsSplit (i.ns ++ i.rem) i.ns i.rem
  short : ∀ i ∈ names, IdShort i
  one : ∀ p n n', (p, n) ∈ P → (p, n') ∈ P → n = n'
  std : ∀ p, Standard p → (p, std p []) ∈ P
  distinct : Distinct dflt
  dflt : ∀ e ∈ dflt, (e.1.txt, e.2) ∈ P
  prefixes : ∀ e ∈ P, PlainPrefix e.1 ∧ (∀ c ∈ e.2, IriChar c) ∧ e.1.length < 4294967296 ∧ e.2.length < 4294967296
  few : names.length + P.length < 4294967000

/-- Ontologies that both formats can express, with these names and prefixes. -/
structure Portable (u : Ulib) (names : List Id) (P : List (Str × Str)) (o : OntoSt) : Prop where
  reaches : ∃ s, OntoSpec.Reaches o.onto s
  calm : ∃ a, PrefixSpec.Reaches True o.pm a
  pm : ∀ p n, o.pm.getNs p = some n → (p, n) ∈ P
  prims : ∀ p, o.onto.hasPrimitive p = true → idOf p ∈ names
  iri : ∀ i, o.iri = some i → IriPortable i ∧ .iri i ∈ names
  version : ∀ i, o.version = some i → o.iri ≠ none ∧ IriPortable i ∧ .iri i ∈ names
  imports : ∀ x ∈ o.onto.imports.getD [], ∃ i, x.obj = .prim (.iri i) ∧ IriPortable i ∧ .iri i ∈ names
  annots : ∀ x ∈ o.onto.annot.getD [], NamesIn names x.obj ∧ ∃ a : Annot, x.obj = a.toObj ∧ a.Meets (portable u)
  axioms : ∀ x ∈ axiomsOf o.onto, NamesIn names x.obj ∧ ∃ a : Axiom, x.obj = a.toObj ∧ a.Meets (portable u)
  few_imports : (o.onto.imports.getD []).length < 4294967296
  few_annots : (o.onto.annot.getD []).length < 4294967296

/-- The ontologies have the same IRI, version, imports, annotations and axioms, those of each type in
the same order. -/
structure Same (o o' : OntoSt) : Prop where
  iri : o'.iri = o.iri
  version : o'.version = o.version
  imports : (o'.onto.imports.getD []).map Ref.obj = (o.onto.imports.getD []).map Ref.obj
  annots : (o'.onto.annot.getD []).map Ref.obj = (o.onto.annot.getD []).map Ref.obj
  axioms : ∀ t, ((o'.onto.byType t).getD []).map Ref.obj = ((o.onto.byType t).getD []).map Ref.obj

/-- Addresses for the standard prefixes, and an order that is one of the given primitives. -/
def Step.Fine : Step → Prop
  | .func ks ks' _ _ => ks.length = 4 ∧ ks'.length = 4
  | .prt order ks _ => ks.length = 4 ∧ ∀ ps, (order ps).Perm ps

end Cowl.Convert
