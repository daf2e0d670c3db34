import Verif.Ast
import Verif.PrtIndex
/-!
# Specification: the bytes of constructs in ProtocOWL

The layout of each construct, written down construct by construct with the numbers that
stand in the bytes. The only names taken from the model are those of the constructs and of
what an index holds; no function of the writer or of the reader is used.

A construct is a sequence of cells. Class expressions begin with a number below 17, data
ranges with one below 5 and inverse properties with 0; names in these places are written
as their index plus 17, 5 and 1.
-/
namespace Cowl.Wire
open Ast

/-- What can stand in the bytes. -/
inductive Cell where
  /-- One byte. -/
  | byte (n : Nat)
  /-- A number without sign, of variable length. -/
  | num (n : Nat)
  /-- The same, as part of the value of a literal. -/
  | val (n : Nat)
  /-- A number with sign, of variable length. -/
  | int (v : Int)
  /-- The length of a text and its bytes. -/
  | text (s : Str)
  /-- The index of a name, plus an offset, as a number without sign. -/
  | name (off : Nat) (i : Prt.Id)

/-- The bytes of a cell, if the name in it has an index; `un` and `sn` are the numbers of
variable length. -/
def Cell.bytes (un : Nat → Str) (sn : Int → Str) (ids : Prt.Id → Option Nat) : Cell → Option Str
  | .byte n => some [UInt8.ofNat n]
  | .num n | .val n => some (un n)
  | .int v => some (sn v)
  | .text s => some (un s.length ++ s)
  | .name off i => (ids i).map fun n => un (n + off)

/-- The bytes of a sequence of cells, if all names have an index. -/
def bytes (un : Nat → Str) (sn : Int → Str) (ids : Prt.Id → Option Nat) : List Cell → Option Str
  | [] => some []
  | c :: cs =>
    match c.bytes un sn ids, bytes un sn ids cs with
    | some a, some b => some (a ++ b)
    | _, _ => none

/-- Counts, lengths, cardinalities and indices have 32 bits. -/
def Cell.Small (ids : Prt.Id → Option Nat) : Cell → Prop
  | .byte _ | .val _ | .int _ => True
  | .num n => n < 4294967296
  | .text s => s.length < 4294967296
  | .name off i => ∀ n, ids i = some n → n + off < 4294967296

/-- The value of a literal that is written as a number or a truth value. -/
inductive Value where
  | bool (b : Bool)
  | int (v : Int)
  | uint (n : Nat)
  | fixed (whole : Int) (frac : Nat)
  | exp (whole : Int) (frac : Nat) (e : Int)

/-- The first byte of a literal with a datatype and the value behind it: 2, plus four times
the number of the format. -/
def Value.cells : Value → List Cell
  | .bool b => [.byte 10, .byte (if b then 1 else 0)]
  | .int v => [.byte 14, .int v]
  | .uint n => [.byte 18, .val n]
  | .fixed w f => [.byte 22, .int w, .val f]
  | .exp w f e => [.byte 26, .int w, .val f, .int e]

section
/- The value as which a text with a datatype is written, if it is not written as text. -/
variable (val : Iri → Str → Option Value)

/-- A literal. -/
def lit (l : Lit) : List Cell :=
  match l.tag with
  | .lang t => [.byte 1, .text l.value, .text t]
  | .dt i =>
    if i = xsdString then [.byte 0, .text l.value]
    else
      match val i l.value with
      | none => [.byte 2, .text l.value, .name 0 (.iri i)]
      | some v => v.cells ++ [.name 0 (.iri i)]

/-- An individual. -/
def ind : Ind → List Cell
  | .named i => [.name 0 (.iri i)]
  | .anon s => [.name 0 (.anon s)]

/-- An object property expression. -/
def ope : Ope → List Cell
  | .prop i => [.name 1 (.iri i)]
  | .inv i => [.num 0, .name 0 (.iri i)]

/-- The number of members, and the members. -/
def list {α : Type} (f : α → List Cell) (xs : List α) : List Cell := .num xs.length :: xs.flatMap f

/-- A facet with its value. -/
def facet (f : Iri × Lit) : List Cell := .name 0 (.iri f.1) :: lit val f.2

mutual
/-- A data range. -/
def dr : DR → List Cell
  | .dt i => [.name 5 (.iri i)]
  | .inter ds => .num 0 :: .num ds.length :: drs ds
  | .union ds => .num 1 :: .num ds.length :: drs ds
  | .compl d => .num 2 :: dr d
  | .oneOf ls => .num 3 :: list (lit val) ls
  | .restr i fs => .num 4 :: .name 0 (.iri i) :: list (facet val) fs

/-- The members of a list. -/
def drs : List DR → List Cell
  | [] => []
  | d :: ds => dr d ++ drs ds
end

/-- The number of a cardinality restriction on an object property. -/
def objCard : CardKind → Nat
  | .min => 8
  | .max => 9
  | .exact => 10

/-- The number of a cardinality restriction on a data property. -/
def dataCard : CardKind → Nat
  | .min => 14
  | .max => 15
  | .exact => 16

mutual
/-- A class expression. The last bit of a cardinality says whether there is a filler. -/
def ce : CE → List Cell
  | .cls i => [.name 17 (.iri i)]
  | .inter cs => .num 0 :: .num cs.length :: ces cs
  | .union cs => .num 1 :: .num cs.length :: ces cs
  | .compl c => .num 2 :: ce c
  | .oneOf is => .num 3 :: list ind is
  | .objSome p c => .num 4 :: (ope p ++ ce c)
  | .objAll p c => .num 5 :: (ope p ++ ce c)
  | .objHasValue p i => .num 6 :: (ope p ++ ind i)
  | .objHasSelf p => .num 7 :: ope p
  | .objCard k n p => .num (objCard k) :: .num (2 * n.toNat) :: ope p
  | .objCardQ k n p c => .num (objCard k) :: .num (2 * n.toNat + 1) :: (ope p ++ ce c)
  | .dataSome p d => .num 11 :: .name 0 (.iri p) :: dr val d
  | .dataAll p d => .num 12 :: .name 0 (.iri p) :: dr val d
  | .dataHasValue p l => .num 13 :: .name 0 (.iri p) :: lit val l
  | .dataCard k n p => [.num (dataCard k), .num (2 * n.toNat), .name 0 (.iri p)]
  | .dataCardQ k n p d => .num (dataCard k) :: .num (2 * n.toNat + 1) :: .name 0 (.iri p) :: dr val d

/-- The members of a list. -/
def ces : List CE → List Cell
  | [] => []
  | c :: cs => ce c ++ ces cs
end

/-- The value of an annotation. -/
def annotVal : AnnotVal → List Cell
  | .iri i => [.name 1 (.iri i)]
  | .anon s => [.name 1 (.anon s)]
  | .lit l => .num 0 :: lit val l

mutual
/-- An annotation; one that is annotated begins with 0. -/
def annot : Annot → List Cell
  | .mk p v [] => .name 1 (.iri p) :: annotVal val v
  | .mk p v (a :: as) =>
    .num 0 :: .name 0 (.iri p) :: (annotVal val v ++ .num (as.length + 1) :: (annot a ++ annots as))

/-- The members of a list. -/
def annots : List Annot → List Cell
  | [] => []
  | a :: as => annot a ++ annots as
end

/-- The subject of an annotation assertion. -/
def subj : AnnotSubj → List Cell
  | .iri i => [.name 0 (.iri i)]
  | .anon s => [.name 0 (.anon s)]

/-- The first byte of an axiom without annotations. -/
def head : Ax → Nat
  | .decl .cls _ => 9
  | .decl .datatype _ => 10
  | .decl .objProp _ => 11
  | .decl .dataProp _ => 12
  | .decl .annotProp _ => 13
  | .decl .namedInd _ => 14
  | .subClass .. => 15
  | .equivClasses _ => 16
  | .disjClasses _ => 17
  | .disjUnion .. => 18
  | .subObjProp (.ope _) _ => 19
  | .subObjProp (.chain _) _ => 147
  | .equivObjProp _ => 20
  | .disjObjProp _ => 21
  | .invObjProp .. => 22
  | .objPropDomain .. => 23
  | .objPropRange .. => 24
  | .objPropChar .func _ => 25
  | .objPropChar .invFunc _ => 26
  | .objPropChar .refl _ => 27
  | .objPropChar .irrefl _ => 28
  | .objPropChar .symm _ => 29
  | .objPropChar .asymm _ => 30
  | .objPropChar .trans _ => 31
  | .subDataProp .. => 32
  | .equivDataProp _ => 33
  | .disjDataProp _ => 34
  | .dataPropDomain .. => 35
  | .dataPropRange .. => 36
  | .funcDataProp _ => 37
  | .datatypeDef .. => 38
  | .hasKey .. => 39
  | .sameInd _ => 40
  | .diffInd _ => 41
  | .classAssert .. => 42
  | .objPropAssert .. => 43
  | .negObjPropAssert .. => 44
  | .dataPropAssert .. => 45
  | .negDataPropAssert .. => 46
  | .annotAssert .. => 47
  | .subAnnotProp .. => 48
  | .annotPropDomain .. => 49
  | .annotPropRange .. => 50

/-- What follows the first byte of an axiom. -/
def body : Ax → List Cell
  | .decl _ i => [.name 0 (.iri i)]
  | .subClass c d => ce val c ++ ce val d
  | .equivClasses cs | .disjClasses cs => .num cs.length :: ces val cs
  | .disjUnion c cs => .name 0 (.iri c) :: .num cs.length :: ces val cs
  | .subObjProp (.ope p) q => ope p ++ ope q
  | .subObjProp (.chain ps) q => list ope ps ++ ope q
  | .equivObjProp ps | .disjObjProp ps => list ope ps
  | .invObjProp p q => ope p ++ ope q
  | .objPropDomain p c | .objPropRange p c => ope p ++ ce val c
  | .objPropChar _ p => ope p
  | .subDataProp p q => [.name 0 (.iri p), .name 0 (.iri q)]
  | .equivDataProp ps | .disjDataProp ps => list (fun p => [.name 0 (.iri p)]) ps
  | .dataPropDomain p c => .name 0 (.iri p) :: ce val c
  | .dataPropRange p d => .name 0 (.iri p) :: dr val d
  | .funcDataProp p => [.name 0 (.iri p)]
  | .datatypeDef i d => .name 0 (.iri i) :: dr val d
  | .hasKey c ps ds => ce val c ++ list ope ps ++ list (fun p => [.name 0 (.iri p)]) ds
  | .sameInd is | .diffInd is => list ind is
  | .classAssert c i => ce val c ++ ind i
  | .objPropAssert p i j | .negObjPropAssert p i j => ope p ++ ind i ++ ind j
  | .dataPropAssert p i l | .negDataPropAssert p i l => .name 0 (.iri p) :: (ind i ++ lit val l)
  | .annotAssert p s v => .name 0 (.iri p) :: (subj s ++ annotVal val v)
  | .subAnnotProp p q => [.name 0 (.iri p), .name 0 (.iri q)]
  | .annotPropDomain p i | .annotPropRange p i => [.name 0 (.iri p), .name 0 (.iri i)]

/-- An axiom; 64 is added to the first byte if it has annotations, which come last. -/
def ax (a : Axiom) : List Cell :=
  match a.annots with
  | [] => .byte (head a.ax) :: body val a.ax
  | b :: bs => .byte (head a.ax + 64) :: (body val a.ax ++ .num (bs.length + 1) :: annots val (b :: bs))

/-- A frame with a number of entries, left out if there are none. -/
def frame {α : Type} (c : Nat) (f : α → List Cell) (xs : List α) : List Cell :=
  if xs.isEmpty then [] else .byte c :: list f xs

/-- The names of the ontology; a version without an IRI is not written. -/
def names : Option Iri → Option Iri → List Cell
  | none, _ => []
  | some i, none => [.byte 6, .name 0 (.iri i)]
  | some i, some v => [.byte 134, .name 0 (.iri i), .name 0 (.iri v)]

/-- What the four frames of declarations hold: prefixes with their namespaces, further
namespaces, IRIs as the position of a namespace with the rest, ids of anonymous
individuals. -/
structure Tables where
  prefixes : List (Str × Str)
  spaces : List Str
  iris : List (Nat × Str)
  anons : List Str

/-- The frames of declarations. -/
def tables (t : Tables) : List Cell :=
  frame 68 (fun p => [.text p.1, .text p.2]) t.prefixes ++ frame 4 (fun n => [.text n]) t.spaces ++
    frame 69 (fun i => [.num i.1, .text i.2]) t.iris ++ frame 5 (fun s => [.text s]) t.anons

/-- A document: the version of the format, the declarations, the names of the ontology,
its imports, its annotations and its axioms. -/
def doc (t : Tables) (iri version : Option Iri) (imports : List Iri) (as : List Annot) (xs : List Axiom) : List Cell :=
  .byte 1 :: (tables t ++ names iri version ++ frame 7 (fun i => [.name 0 (.iri i)]) imports ++ frame 8 (annot val) as ++
    xs.flatMap (ax val))

end

end Cowl.Wire
