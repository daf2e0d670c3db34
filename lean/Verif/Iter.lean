import Verif.Vocab
/-!
# Iteration

Models `include/cowl_ret.h`, `src/cowl_iterator.c`, `cowl_iterate_primitives` and
`cowl_has_primitive` (`src/cowl_object.c`, with the delegates in
`src/cowl_vector.c`, `src/cowl_literal.c`, `src/cowl_obj_quant.c`,
`src/cowl_data_quant.c`), and the operand iteration of `src/cowl_axiom.c`.
-/
namespace Cowl

/-- `cowl_ret`, `include/cowl_ret.h:33-66` (the codes used by the modelled code). -/
inductive Ret where
  | ok | no | err | errMem | errBounds | errIo | errSyntax
  deriving DecidableEq, Repr

/-- `cowl_ret_should_stop`, `include/cowl_ret.h:107-109`. -/
def Ret.shouldStop (r : Ret) : Bool := r != .ok

/-- `cowl_ret_is_err`: neither `OK` nor `NO`, `include/cowl_ret.h:111-125`. -/
def Ret.isErr : Ret → Bool
  | .ok => false
  | .no => false
  | _ => true

/-- An iterator: context and callback (`CowlIterator`, `include/cowl_iterator.h`).
The callback may update its context, of type `σ`. -/
abbrev Callback (σ α : Type) := σ → α → σ × Ret

/-- The loop found throughout: call, return the code if it asks to stop
(for instance `cowl_vector_iterate`, `cowl_vector.c:164-171`). -/
def iterList {σ α : Type} (k : Callback σ α) : List α → σ → σ × Ret
  | [], s => (s, .ok)
  | x :: xs, s =>
    let r := k s x
    if r.2.shouldStop then r else iterList k xs r.1

/-! ## Primitives -/

/-- Bit of `CowlPrimitiveFlags` for a primitive: `cowl_primitive_get_type`,
`cowl_primitive.c:15-26`, and `cowl_object.c:394-402`; bit numbers from
`include/cowl_primitive_flags.h:42-63`. -/
def Prim.bit : Prim → Nat
  | .ent .cls _ => 0
  | .ent .datatype _ => 1
  | .ent .objProp _ => 2
  | .ent .dataProp _ => 3
  | .ent .annotProp _ => 4
  | .ent .namedInd _ => 5
  | .anon _ => 6
  | .iri _ => 7

/-- `iterate_pf`, `cowl_object.c:383-386`. -/
def iteratePf {σ : Type} (fl : BitVec 8) (k : Callback σ Prim) (p : Prim) (s : σ) : σ × Ret :=
  if fl.getLsbD p.bit then k s p else (s, .ok)

/-- `cowl_literal_get_datatype`, `cowl_literal.c:160-163`. -/
def LitTag.datatype : LitTag → Iri
  | .lang _ => rdfLangString
  | .dt i => i

mutual
/-- `cowl_iterate_primitives`, `cowl_object.c:388-420`. Object quantifiers
(`cowl_obj_quant.c:33-38`) visit property and filler, where an absent filler
reads as owl:Thing; data quantifiers (`cowl_data_quant.c:34-39`) likewise with
rdfs:Literal. Literals visit their datatype (`cowl_literal.c:186-189`).
Simplifications: ontologies are handled in `Verif.Onto`, tables in
`Verif.Table`; strings have no fields (a string never is a member of a
construct; on an interned string the C code would read a field that is not there). -/
def iterPrims {σ : Type} (fl : BitVec 8) (k : Callback σ Prim) : Obj → σ → σ × Ret
  | .str _, s => (s, .ok)
  | .other _ _, s => (s, .ok)
  | .prim p, s => iteratePf fl k p s
  | .lit _ t, s => iteratePf fl k (.ent .datatype t.datatype) s
  | .vec _ xs, s => iterPrimsN fl k xs.length xs s
  | .comp t b fs _, s =>
    if t = .ceObjSome ∨ t = .ceObjAll then
      let r := iterPrimsN fl k (nFields t b) fs s
      if r.2.shouldStop || b then r else iteratePf fl k (.ent .cls owlThing) r.1
    else if t = .ceDataSome ∨ t = .ceDataAll then
      let r := iterPrimsN fl k (nFields t b) fs s
      if r.2.shouldStop || b then r else iteratePf fl k (.ent .datatype rdfsLiteral) r.1
    else
      iterPrimsN fl k (nFields t b) fs s

/-- Loop over the first `n` fields, `cowl_object.c:414-417`. -/
def iterPrimsN {σ : Type} (fl : BitVec 8) (k : Callback σ Prim) (n : Nat) :
    List Obj → σ → σ × Ret
  | [], s => (s, .ok)
  | x :: xs, s =>
    match n with
    | 0 => (s, .ok)
    | n + 1 =>
      let r := iterPrims fl k x s
      if r.2.shouldStop then r else iterPrimsN fl k n xs r.1
end

/-- `for_each_contains_primitive`, `cowl_iterator.c:48-50`. -/
def containsPrimCb (p : Prim) : Callback Unit Prim := fun s q => (s, if q = p then .no else .ok)

/-- `cowl_has_primitive`, `cowl_object.c:377-381`. -/
def hasPrimitive (o : Obj) (p : Prim) : Bool :=
  (iterPrims (BitVec.ofNat 8 (2 ^ p.bit)) (containsPrimCb p) o ()).2 == .no

/-! ## Operands of axioms -/

/-- `CowlPosition` bits, `include/cowl_position.h:38-44`. -/
abbrev psLeft : BitVec 8 := 1#8
abbrev psRight : BitVec 8 := 2#8
abbrev psMiddle : BitVec 8 := 4#8
abbrev psAny : BitVec 8 := 7#8

/-- Row `n`, column `i` of the table in `index_allowed`, `cowl_axiom.c:54-58`. -/
def positionOf : Nat → Nat → BitVec 8
  | 1, 0 => psAny
  | 2, 0 => psLeft
  | 2, 1 => psRight
  | 3, 0 => psLeft
  | 3, 1 => psMiddle
  | 3, 2 => psRight
  | _, _ => 0#8

/-- `index_allowed`, `cowl_axiom.c:53-60` (`ubit_is_any_set`: a common bit). -/
def indexAllowed (n i : Nat) (pos : BitVec 8) : Bool := (pos &&& positionOf n i) != 0#8

/-- Inner part of the loop of `cowl_axiom_iterate_operands`, `cowl_axiom.c:69-80`:
a vector is expanded into its items. -/
def iterOperand {σ : Type} (k : Callback σ Obj) (op : Obj) (s : σ) : σ × Ret :=
  match op with
  | .vec _ xs => iterList k xs s
  | o => k s o

/-- Loop of `cowl_axiom_iterate_operands`, `cowl_axiom.c:67-83`: `n` operands in
all, the list holds those from index `i` on. -/
def iterOperandsFrom {σ : Type} (n : Nat) (pos : BitVec 8) (k : Callback σ Obj) :
    Nat → List Obj → σ → σ × Ret
  | _, [], s => (s, .ok)
  | i, x :: xs, s =>
    if indexAllowed n i pos then
      let r := iterOperand k x s
      if r.2.shouldStop then r else iterOperandsFrom n pos k (i + 1) xs r.1
    else iterOperandsFrom n pos k (i + 1) xs s

/-- `cowl_axiom_iterate_operands`, `cowl_axiom.c:62-84`: the fields without the
optional one (`cowl_get_fields(axiom, false, &n)`). -/
def iterOperands {σ : Type} (ax : Obj) (pos : BitVec 8) (k : Callback σ Obj) (s : σ) : σ × Ret :=
  match ax with
  | .comp t _ fs _ => iterOperandsFrom t.fieldCount pos k 0 (fs.take t.fieldCount) s
  | _ => (s, .ok)

/-- `cowl_iterator_contains`, `cowl_iterator.c:80-85` with `44-50`: pointer
comparison for primitives, `cowl_equals(visited, object)` otherwise. -/
def containsCb (x : Obj) : Callback Unit Obj := fun s o =>
  (s, match x, o with
    | .prim p, .prim q => if q = p then .no else .ok
    | .prim _, _ => .ok
    | x, o => if o.equals x then .no else .ok)

/-- `cowl_axiom_has_operand`, `cowl_axiom.c:39-42`. -/
def hasOperand (ax x : Obj) (pos : BitVec 8) : Bool :=
  (iterOperands ax pos (containsCb x) ()).2 == .no

/-- `cowl_get_iri`, `cowl_object.c:237-242` (ontologies excluded). -/
def Obj.iri? : Obj → Option Iri
  | .prim (.ent _ i) => some i
  | .prim (.iri i) => some i
  | _ => none

/-- `cowl_axiom_has_operand_with_iri`, `cowl_axiom.c:44-51`. -/
def hasOperandWithIri (ax : Obj) (i : Iri) (pos : BitVec 8) : Bool :=
  (iterOperands ax pos (fun (s : Unit) o => (s, if o.iri? = some i then .no else .ok)) ()).2 == .no

/-- `operand_has_primitive`, `cowl_axiom.c:86-89`: the operand is the
primitive, or has it. -/
def axiomHasPrimCb (p : Prim) : Callback Unit Obj := fun s o =>
  (s, if (match o with | .prim q => q == p | _ => false) then .no
      else if hasPrimitive o p then .no else .ok)

/-- `cowl_axiom_has_primitive`, `cowl_axiom.c:91-96`. -/
def axiomHasPrimitive (ax : Obj) (p : Prim) (pos : BitVec 8) : Bool :=
  if pos = psAny then hasPrimitive ax p
  else (iterOperands ax pos (axiomHasPrimCb p) ()).2 == .no

/-! ## Ready-made iterators -/

/-- `for_each_store_vec`, `cowl_iterator.c:18-20` (push never fails here). -/
def storeVecCb {α : Type} : Callback (List α) α := fun v x => (v ++ [x], .ok)

/-- `for_each_store_set`, `cowl_iterator.c:29-31`: `uhset_insert` returns `NO` when
an equal object is already in the set, and that code is passed on. -/
def storeSetCb {α : Type} (eq : α → α → Bool) : Callback (List α) α := fun v x =>
  if v.any fun y => eq y x then (v, .no) else (v ++ [x], .ok)

/-- `for_each_count`, `cowl_iterator.c:39-42`: an `ulib_uint` (32 bits) is incremented. -/
def countCb {α : Type} : Callback (BitVec 32) α := fun n _ => (n + 1#32, .ok)

end Cowl
