import Verif.WireSpec
import Verif.Literal
import Verif.PrtNum
/-!
# Specification: what bytes in ProtocOWL say

Which bytes say a construct, with everything that a reader has to put up with: numbers may
be spelled in any way that reads as the number, every name that is next in turn stands for
a new anonymous individual, values of literals may have any format, and the bit that
announces annotations may be followed by none.

The numbers of constructs are written out again, as in `WireSpec`; nothing is taken from
the reader.
-/
namespace Cowl.Wire
open Ast

/-- What is left of the bytes, the names known so far, and the number of anonymous
individuals made up so far. -/
structure Src where
  inp : Str
  ids : List Prt.Id
  fresh : Nat

/-- What a reader does. -/
inductive Act where
  /-- It reads a number without sign. -/
  | num (n : Nat)
  /-- It reads a number with sign. -/
  | int (v : Int)
  /-- It reads a byte. -/
  | byte (c : UInt8)
  /-- It reads some bytes. -/
  | raw (s : Str)
  /-- It looks up a name. -/
  | look (k : Nat) (i : Prt.Id)

section
/- Reading numbers without and with sign; labels of new anonymous individuals. -/
variable (un : Str → Option (Nat × Str)) (sn : Str → Option (Int × Str)) (gen : Nat → Str)

/-- One action. -/
def Act.Does : Act → Src → Src → Prop
  | .num n, s, t => ∃ r, un s.inp = some (n, r) ∧ t = { s with inp := r }
  | .int v, s, t => ∃ r, sn s.inp = some (v, r) ∧ t = { s with inp := r }
  | .byte c, s, t => ∃ r, s.inp = c :: r ∧ t = { s with inp := r }
  | .raw x, s, t => ∃ r, s.inp = x ++ r ∧ t = { s with inp := r }
  | .look k i, s, t =>
    (s.ids[k]? = some i ∧ t = s) ∨
    (k = s.ids.length ∧ i = .anon (gen s.fresh) ∧ t = { s with ids := s.ids ++ [i], fresh := s.fresh + 1 })

/-- Actions one after another. -/
def Does : List Act → Src → Src → Prop
  | [], s, t => t = s
  | a :: as, s, t => ∃ m, a.Does un sn gen s m ∧ Does as m t

end

/-- Sequences of actions. -/
abbrev Lang := List Act → Prop

/-- One after the other. -/
def seq (P Q : Lang) : Lang := fun cs => ∃ a b, cs = a ++ b ∧ P a ∧ Q b

/-- A number. -/
def num (n : Nat) : Lang := fun cs => cs = [.num n]

/-- A name with an offset. -/
def name (off : Nat) (i : Prt.Id) : Lang := fun cs => ∃ k, cs = [.num (k + off), .look k i]

/-- A text. -/
def text (s : Str) : Lang := fun cs => cs = [.num s.length, .raw s]

/-- The members of a list. -/
def many {α : Type} (f : α → Lang) : List α → Lang
  | [] => fun cs => cs = []
  | x :: xs => seq (f x) (many f xs)

/-- The number of members, and the members. -/
def counted {α : Type} (f : α → Lang) (xs : List α) : Lang := seq (num xs.length) (many f xs)

/-- A value in the format with this number. -/
def value (fmt : Nat) (v : Str) : Lang := fun cs =>
  match fmt with
  | 0 => text v cs
  | 2 => (cs = [.byte 0] ∧ v = ascii "false") ∨ (cs = [.byte 1] ∧ v = ascii "true")
  | 3 => ∃ w, cs = [.int w] ∧ v = Prt.fmtInt w
  | 4 => ∃ n, cs = [.num n] ∧ v = Prt.fmtUint n
  | 5 => ∃ w f, cs = [.int w, .num f] ∧ v = Prt.fmtInt w ++ ascii "." ++ (Prt.fmtUint f).reverse
  | 6 => ∃ w f e, cs = [.int w, .num f, .int e] ∧
      v = Prt.fmtInt w ++ ascii "." ++ (Prt.fmtUint f).reverse ++ ascii "E" ++ Prt.fmtInt e
  | _ => False

/-- What follows the value of a literal: nothing, a language or a datatype. -/
def tail (ty : Nat) (a : LitArg) : Lang := fun cs =>
  match ty with
  | 0 => cs = [] ∧ a = .none
  | 1 => ∃ l, text l cs ∧ a = .lang l
  | 2 => ∃ i, name 0 (.iri i) cs ∧ a = .dt i
  | _ => False

/-- A literal: the first byte has its type in two bits and the format of its value in
four. -/
def literalSays (l : Lit) : Lang := fun cs =>
  ∃ (c : UInt8) (v : Str) (a : LitArg) (ds : List Act), cs = .byte c :: ds ∧ literal v a = .lit l.value l.tag ∧
    seq (value (c.toNat % 64 / 4) v) (tail (c.toNat % 4) a) ds

/-- An individual. -/
def indSays : Ind → Lang
  | .named i => name 0 (.iri i)
  | .anon s => name 0 (.anon s)

/-- An object property expression. -/
def opeSays : Ope → Lang
  | .prop i => name 1 (.iri i)
  | .inv i => seq (num 0) (name 0 (.iri i))

/-- A facet with its value. -/
def facetSays (f : Iri × Lit) : Lang := seq (name 0 (.iri f.1)) (literalSays f.2)

mutual
/-- A data range. -/
def drSays : DR → Lang
  | .dt i => name 5 (.iri i)
  | .inter ds => seq (num 0) (seq (num ds.length) (drsSay ds))
  | .union ds => seq (num 1) (seq (num ds.length) (drsSay ds))
  | .compl d => seq (num 2) (drSays d)
  | .oneOf ls => seq (num 3) (counted literalSays ls)
  | .restr i fs => seq (num 4) (seq (name 0 (.iri i)) (counted facetSays fs))

/-- The members of a list. -/
def drsSay : List DR → Lang
  | [] => fun cs => cs = []
  | d :: ds => seq (drSays d) (drsSay ds)
end

mutual
/-- A class expression. -/
def ceSays : CE → Lang
  | .cls i => name 17 (.iri i)
  | .inter cs => seq (num 0) (seq (num cs.length) (cesSay cs))
  | .union cs => seq (num 1) (seq (num cs.length) (cesSay cs))
  | .compl c => seq (num 2) (ceSays c)
  | .oneOf is => seq (num 3) (counted indSays is)
  | .objSome p c => seq (num 4) (seq (opeSays p) (ceSays c))
  | .objAll p c => seq (num 5) (seq (opeSays p) (ceSays c))
  | .objHasValue p i => seq (num 6) (seq (opeSays p) (indSays i))
  | .objHasSelf p => seq (num 7) (opeSays p)
  | .objCard k n p => seq (num (objCard k)) (seq (num (2 * n.toNat)) (opeSays p))
  | .objCardQ k n p c => seq (num (objCard k)) (seq (num (2 * n.toNat + 1)) (seq (opeSays p) (ceSays c)))
  | .dataSome p d => seq (num 11) (seq (name 0 (.iri p)) (drSays d))
  | .dataAll p d => seq (num 12) (seq (name 0 (.iri p)) (drSays d))
  | .dataHasValue p l => seq (num 13) (seq (name 0 (.iri p)) (literalSays l))
  | .dataCard k n p => seq (num (dataCard k)) (seq (num (2 * n.toNat)) (name 0 (.iri p)))
  | .dataCardQ k n p d => seq (num (dataCard k)) (seq (num (2 * n.toNat + 1)) (seq (name 0 (.iri p)) (drSays d)))

/-- The members of a list. -/
def cesSay : List CE → Lang
  | [] => fun cs => cs = []
  | c :: cs => seq (ceSays c) (cesSay cs)
end

/-- The value of an annotation. -/
def valSays : AnnotVal → Lang
  | .iri i => name 1 (.iri i)
  | .anon s => name 1 (.anon s)
  | .lit l => seq (num 0) (literalSays l)

mutual
/-- An annotation; the second form may be used without annotations, too. -/
def annotSays : Annot → Lang
  | .mk p v as => fun cs =>
    (as = [] ∧ seq (name 1 (.iri p)) (valSays v) cs) ∨
    seq (num 0) (seq (name 0 (.iri p)) (seq (valSays v) (seq (num as.length) (annotsSay as)))) cs

/-- The members of a list. -/
def annotsSay : List Annot → Lang
  | [] => fun cs => cs = []
  | a :: as => seq (annotSays a) (annotsSay as)
end

/-- The subject of an annotation assertion. -/
def subjSays : AnnotSubj → Lang
  | .iri i => name 0 (.iri i)
  | .anon s => name 0 (.anon s)

/-- What follows the first byte of an axiom, up to its annotations. -/
def bodySays : Ax → Lang
  | .decl _ i => name 0 (.iri i)
  | .subClass c d => seq (ceSays c) (ceSays d)
  | .equivClasses cs | .disjClasses cs => counted ceSays cs
  | .disjUnion c cs => seq (name 0 (.iri c)) (counted ceSays cs)
  | .subObjProp (.ope p) q => seq (opeSays p) (opeSays q)
  | .subObjProp (.chain ps) q => seq (counted opeSays ps) (opeSays q)
  | .equivObjProp ps | .disjObjProp ps => counted opeSays ps
  | .invObjProp p q => seq (opeSays p) (opeSays q)
  | .objPropDomain p c | .objPropRange p c => seq (opeSays p) (ceSays c)
  | .objPropChar _ p => opeSays p
  | .subDataProp p q => seq (name 0 (.iri p)) (name 0 (.iri q))
  | .equivDataProp ps | .disjDataProp ps => counted (fun p => name 0 (.iri p)) ps
  | .dataPropDomain p c => seq (name 0 (.iri p)) (ceSays c)
  | .dataPropRange p d => seq (name 0 (.iri p)) (drSays d)
  | .funcDataProp p => name 0 (.iri p)
  | .datatypeDef i d => seq (name 0 (.iri i)) (drSays d)
  | .hasKey c ps ds => seq (ceSays c) (seq (counted opeSays ps) (counted (fun p => name 0 (.iri p)) ds))
  | .sameInd is | .diffInd is => counted indSays is
  | .classAssert c i => seq (ceSays c) (indSays i)
  | .objPropAssert p i j | .negObjPropAssert p i j => seq (opeSays p) (seq (indSays i) (indSays j))
  | .dataPropAssert p i l | .negDataPropAssert p i l => seq (name 0 (.iri p)) (seq (indSays i) (literalSays l))
  | .annotAssert p s v => seq (name 0 (.iri p)) (seq (subjSays s) (valSays v))
  | .subAnnotProp p q => seq (name 0 (.iri p)) (name 0 (.iri q))
  | .annotPropDomain p i | .annotPropRange p i => seq (name 0 (.iri p)) (name 0 (.iri i))

/-- The axiom has a chain of properties on its left. -/
def isChain : Ax → Bool
  | .subObjProp (.chain _) _ => true
  | _ => false

/-- The axiom is one on sub-properties. -/
def isSub : Ax → Bool
  | .subObjProp _ _ => true
  | _ => false

/-- An axiom: its first byte and what follows. Bit 7 tells chains from properties and has no
meaning in other axioms; bit 6 announces annotations. -/
def axSays (a : Axiom) (c : UInt8) : Lang := fun cs =>
  c.toNat % 64 = head a.ax % 64 ∧ (isSub a.ax = true → (c.toNat / 128 = 1 ↔ isChain a.ax = true)) ∧
  if c.toNat / 64 % 2 = 1 then seq (bodySays a.ax) (seq (num a.annots.length) (annotsSay a.annots)) cs
  else a.annots = [] ∧ bodySays a.ax cs

/-! ## Documents -/

/-- What a document has. -/
inductive Entry where
  | pfx (p n : Str)
  | iri (i : Iri)
  | version (i : Iri)
  | imported (i : Iri)
  | annot (a : Annot)
  | ax (a : Axiom)

/-- The situation in a document: the namespaces known so far, and whether entries are
removals. -/
structure Sit where
  src : Src
  nss : List Str
  remove : Bool

/-- A part of a document. -/
abbrev Part := Sit → List Entry → Sit → Prop

/-- One more name. -/
def Sit.push (s : Sit) (i : Prt.Id) : Sit := { s with src := { s.src with ids := s.src.ids ++ [i] } }

/-- The namespaces that need no declaration. -/
def known : List Str := [rdfNs, rdfsNs, xsdNs, owlNs, ascii "http://www.w3.org/XML/1998/namespace"]

section
/- As before; IRIs by namespace and rest. -/
variable (un : Str → Option (Nat × Str)) (sn : Str → Option (Int × Str)) (gen : Nat → Str) (mk : Str → Str → Iri)

/-- Actions that say something; namespaces stay. -/
def Acts (L : Lang) (s t : Sit) : Prop :=
  t.nss = s.nss ∧ t.remove = s.remove ∧ ∃ cs, L cs ∧ Does un sn gen cs s.src t.src

/-- The same part several times. -/
def Times (P : Part) : Nat → Part
  | 0 => fun s es t => es = [] ∧ t = s
  | n + 1 => fun s es t => ∃ m es1 es2, es = es1 ++ es2 ∧ P s es1 m ∧ Times P n m es2 t

/-- A number, and as many parts. -/
def Listed (P : Part) : Part := fun s es t => ∃ n m, Acts un sn gen (num n) s m ∧ Times P n m es t

/-- A prefix with its namespace. -/
def pfxDecl : Part := fun s es t => ∃ p n m, es = [.pfx p n] ∧ Acts un sn gen (seq (text p) (text n)) s m ∧
  t = { m with nss := m.nss ++ [n] }

/-- A namespace. -/
def nsDecl : Part := fun s es t => ∃ n m, es = [] ∧ Acts un sn gen (text n) s m ∧ t = { m with nss := m.nss ++ [n] }

/-- An IRI: the index of a namespace, and the rest of its text. -/
def iriDecl : Part := fun s es t => ∃ (k : Nat) (n r : Str) (m : Sit), es = [] ∧
  Acts un sn gen (seq (num k) (text r)) s m ∧ m.nss[k]? = some n ∧ t = m.push (.iri (mk n r))

/-- An anonymous individual. -/
def anonDecl : Part := fun s es t => ∃ (a : Str) (m : Sit), es = [] ∧ Acts un sn gen (text a) s m ∧ t = m.push (.anon a)

/-- A frame that begins with the byte; 3 is the end. -/
def Frame (c : UInt8) : Part := fun s es t =>
  match c.toNat % 64 with
  | 0 => es = [] ∧ t = { s with remove := false }
  | 1 => es = [] ∧ t = { s with remove := true }
  | 2 => es = [] ∧ t = { s with
      nss := if c.toNat / 64 % 2 = 1 then known else s.nss
      src := { s.src with ids := if c.toNat / 128 = 1 then [] else s.src.ids } }
  | 3 => False
  | 4 => if c.toNat / 64 % 2 = 1 then Listed un sn gen (pfxDecl un sn gen) s es t
    else Listed un sn gen (nsDecl un sn gen) s es t
  | 5 => if c.toNat / 64 % 2 = 1 then Listed un sn gen (iriDecl un sn gen mk) s es t
    else Listed un sn gen (anonDecl un sn gen) s es t
  | 6 => ∃ i m, Acts un sn gen (name 0 (.iri i)) s m ∧
    if c.toNat / 128 = 1 then ∃ v, es = [.iri i, .version v] ∧ Acts un sn gen (name 0 (.iri v)) m t
    else es = [.iri i] ∧ t = m
  | 7 => Listed un sn gen (fun s es t => ∃ i, es = [.imported i] ∧ Acts un sn gen (name 0 (.iri i)) s t) s es t
  | 8 => Listed un sn gen (fun s es t => ∃ a, es = [.annot a] ∧ Acts un sn gen (annotSays a) s t) s es t
  | _ => ∃ a, es = [.ax a] ∧ Acts un sn gen (axSays a c) s t

/-- Frames up to the end, with the entries and whether they are removed. -/
inductive Frames : Sit → List (Bool × Entry) → Prop
  | eof {s : Sit} : s.src.inp = [] → Frames s []
  | last {s : Sit} {c : UInt8} {r : Str} : s.src.inp = c :: r → c.toNat % 64 = 3 → Frames s []
  | more {s t : Sit} {c : UInt8} {r : Str} {es : List Entry} {fs : List (Bool × Entry)} : s.src.inp = c :: r →
      Frame un sn gen mk c { s with src := { s.src with inp := r } } es t → Frames t fs →
      Frames s (es.map (fun e => (s.remove, e)) ++ fs)

/-- A document: the number of the protocol, then frames. -/
def DocSays (b : Str) (fs : List (Bool × Entry)) : Prop :=
  ∃ r, b = 1 :: r ∧ Frames un sn gen mk ⟨⟨r, [], 0⟩, known, false⟩ fs

end

end Cowl.Wire
