import Verif.Iter
/-! # Specification of iteration: what occurs where, and how a list is visited -/
namespace Cowl.IterSpec

/-- Visiting a list with a callback: items in order, until one visit returns a
code other than OK, which is then the overall code; OK if none does. -/
inductive Run {σ α : Type} (k : σ → α → σ × Ret) : List α → σ → σ → Ret → Prop
  | done (s : σ) : Run k [] s s .ok
  | stop {x : α} {xs : List α} {s s' : σ} {r : Ret} (h : k s x = (s', r)) (hr : r ≠ .ok) :
      Run k (x :: xs) s s' r
  | go {x : α} {xs : List α} {s s' s'' : σ} {r : Ret} (h : k s x = (s', .ok))
      (hs : Run k xs s' s'' r) : Run k (x :: xs) s s'' r

/-- `p` occurs in an object. -/
inductive Occurs : Prim → Obj → Prop
  | self (p : Prim) : Occurs p (.prim p)
  | datatype (v : Str) (i : Iri) : Occurs (.ent .datatype i) (.lit v (.dt i))
  | langString (v l : Str) : Occurs (.ent .datatype rdfLangString) (.lit v (.lang l))
  | item {p : Prim} {x : Obj} {xs : List Obj} {o : Bool} (hx : x ∈ xs) (h : Occurs p x) :
      Occurs p (.vec o xs)
  | field {p : Prim} {x : Obj} {t : OType} {b : Bool} {fs : List Obj} {u : Nat} (hx : x ∈ fs)
      (h : Occurs p x) : Occurs p (.comp t b fs u)
  | defaultFiller {t : OType} {fs : List Obj} {u : Nat} (ht : t = .ceObjSome ∨ t = .ceObjAll) :
      Occurs (.ent .cls owlThing) (.comp t false fs u)
  | defaultRange {t : OType} {fs : List Obj} {u : Nat} (ht : t = .ceDataSome ∨ t = .ceDataAll) :
      Occurs (.ent .datatype rdfsLiteral) (.comp t false fs u)

/-- The mask asks for primitives of this kind: `COWL_PF_CLASS`, `_DATATYPE`,
`_OBJ_PROP`, `_DATA_PROP`, `_ANNOT_PROP`, `_NAMED_IND`, `_ANON_IND`, `_IRI` are
the bits 0 to 7. -/
def Selects (mask : BitVec 8) : Prim → Prop
  | .ent .cls _ => mask &&& 0x01#8 ≠ 0#8
  | .ent .datatype _ => mask &&& 0x02#8 ≠ 0#8
  | .ent .objProp _ => mask &&& 0x04#8 ≠ 0#8
  | .ent .dataProp _ => mask &&& 0x08#8 ≠ 0#8
  | .ent .annotProp _ => mask &&& 0x10#8 ≠ 0#8
  | .ent .namedInd _ => mask &&& 0x20#8 ≠ 0#8
  | .anon _ => mask &&& 0x40#8 ≠ 0#8
  | .iri _ => mask &&& 0x80#8 ≠ 0#8

/-- Operand `i` of an axiom with `n` operands sits at one of the requested
positions: leftmost, rightmost, or in the middle (of three; a single operand is
everywhere). -/
def SitsAt (n i : Nat) (pos : BitVec 8) : Prop :=
  (i = 0 ∧ pos &&& psLeft ≠ 0#8) ∨ (i + 1 = n ∧ pos &&& psRight ≠ 0#8) ∨
    ((n = 1 ∨ n = 3 ∧ i = 1) ∧ pos &&& psMiddle ≠ 0#8)

instance (n i : Nat) (pos : BitVec 8) : Decidable (SitsAt n i pos) := by
  unfold SitsAt; infer_instance

/-- The operands at a position, in order: vectors are replaced by their items. -/
def operandsAt (ops : List Obj) (pos : BitVec 8) : List Obj :=
  (ops.zipIdx.filter fun (_, i) => SitsAt ops.length i pos).flatMap fun (op, _) =>
    match op with
    | .vec _ xs => xs
    | o => [o]

/-- `x` is `op`, or one of its items if `op` is a vector. -/
def Expands (op x : Obj) : Prop :=
  match op with
  | .vec _ xs => x ∈ xs
  | o => x = o

end Cowl.IterSpec
