import Verif.PrtDocSpec
import Verif.TypedSpec
/-! # Specification: what ProtocOWL may do to the literals of an ontology -/
namespace Cowl
open Prt Ast

mutual
/-- The object with the value of each of its literals replaced. -/
def mapLit (f : Str → LitTag → Str) : Obj → Obj
  | .lit v t => .lit (f v t) t
  | .vec o xs => .vec o (mapLits f xs)
  | .comp t b fs n => .comp t b (mapLits f fs) n
  | .str s => .str s
  | .prim p => .prim p
  | .other t i => .other t i

/-- The objects of a list, each with the values of its literals replaced. -/
def mapLits (f : Str → LitTag → Str) : List Obj → List Obj
  | [] => []
  | x :: xs => mapLit f x :: mapLits f xs
end

/-- Literals as `cowl_literal` makes them: languages are not empty and in lower case, and
there is no language datatype without a language. -/
def LitMade : LitTag → Prop
  | .lang l => l ≠ [] ∧ ∀ c ∈ l, ¬ (65 ≤ c ∧ c ≤ 90)
  | .dt i => i ≠ rdfLangString ∧ i ≠ rdfPlainLiteral

/-- The value and the language of a literal have less than 2^32 bytes. -/
def LitShort (l : Lit) : Prop := l.value.length < 4294967296 ∧ ∀ s, l.tag = .lang s → s.length < 4294967296

/-- What ProtocOWL asks of the contents of a construct, the texts of numbers apart: literals
as `cowl_literal` makes them, sizes that fit into 32 bits. -/
def prtSizes : Req where
  iri _ := True
  anon _ := True
  lit l := LitMade l.tag ∧ LitShort l
  sub _ := True
  two n := n < 4294967296
  one n := n < 4294967296
  any n := n < 4294967296
  card n := n.toNat < 2147483648

/-- Names of the datatypes whose values may be written as numbers. -/
def numNames : List Str := ascii "boolean" :: (intNames ++ decNames)

/-- A normal form for the values of literals. It is one: what is normal is left alone.
Normal texts are those that survive (C34). Only booleans and numbers are changed, and then
to the text of the number they were taken for. -/
structure IsNorm (u : Ulib) (norm : Str → LitTag → Str) : Prop where
  once : ∀ v t, norm (norm v t) t = norm v t
  normal : ∀ v t, LitMade t → (LitSafe u v t ↔ norm v t = v)
  only : ∀ v t, norm v t ≠ v → ∃ n ∈ numNames, t = .dt ⟨xsdNs, n⟩
  int : ∀ v k n, n ∈ intNames → u.toInt v = some k → norm v (.dt ⟨xsdNs, n⟩) = fmtInt k
  bool : ∀ v k, v ≠ ascii "true" → v ≠ ascii "false" → u.toInt v = some k → norm v (.dt (xsd "boolean")) = fmtInt k
  dec : ∀ v n, n ∈ decNames → norm v (.dt ⟨xsdNs, n⟩) ≠ v →
    ∃ r, norm v (.dt ⟨xsdNs, n⟩) = fmtInt (u.strToInt v).1 ++ r ∧ ∀ c ∈ r.head?, c = 46

end Cowl
