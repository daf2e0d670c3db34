import Verif.Obj
/-!
# Vocabulary constants

Models the parts of `src/cowl_owl_vocab.c`, `src/cowl_rdf_vocab.c`,
`src/cowl_rdfs_vocab.c`, `src/cowl_xsd_vocab.c` and `src/cowl_vocab.c` that other
modules refer to.
-/
namespace Cowl

/-- `cowl_owl_vocab.c:34`. -/
def owlNs : Str := ascii "http://www.w3.org/2002/07/owl#"
/-- `cowl_rdf_vocab.c:37`. -/
def rdfNs : Str := ascii "http://www.w3.org/1999/02/22-rdf-syntax-ns#"
/-- `cowl_rdfs_vocab.c:27`. -/
def rdfsNs : Str := ascii "http://www.w3.org/2000/01/rdf-schema#"
/-- `cowl_xsd_vocab.c:37`. -/
def xsdNs : Str := ascii "http://www.w3.org/2001/XMLSchema#"

/-- `cowl_owl_vocab.c:37,57`: `owl:Thing`. -/
def owlThing : Iri := ⟨owlNs, ascii "Thing"⟩
/-- `cowl_rdfs_vocab.c:33,41`: `rdfs:Literal`. -/
def rdfsLiteral : Iri := ⟨rdfsNs, ascii "Literal"⟩
/-- `cowl_rdf_vocab.c:41,51`: `rdf:langString`. -/
def rdfLangString : Iri := ⟨rdfNs, ascii "langString"⟩
/-- `cowl_rdf_vocab.c:42,52`: `rdf:PlainLiteral`. -/
def rdfPlainLiteral : Iri := ⟨rdfNs, ascii "PlainLiteral"⟩
/-- `cowl_xsd_vocab.c:82`: `xsd:string`. -/
def xsdString : Iri := ⟨xsdNs, ascii "string"⟩

/-- Reserved prefixes with their namespaces, `cowl_vocab.c:57-76`. -/
def reserved : List (Str × Str) :=
  [(ascii "owl", owlNs), (ascii "rdf", rdfNs), (ascii "rdfs", rdfsNs), (ascii "xsd", xsdNs)]

/-- `cowl_vocab_is_reserved_prefix`, `cowl_vocab.c:57-62`. -/
def isReservedPrefix (p : Str) : Bool := reserved.any fun r => p == r.1

/-- `cowl_vocab_is_reserved_ns`, `cowl_vocab.c:64-69`. -/
def isReservedNs (n : Str) : Bool := reserved.any fun r => n == r.2

end Cowl
