import Verif.Iter
/-!
# Vectors and tables

Models the mutators of `src/cowl_vector.c` and the comparison and iteration of
`src/cowl_table.c`. Here identity matters, so an object comes with its address.
Constructors and allocation failure are not modelled.
-/
namespace Cowl

/-- A pointer to an object, and the object. -/
structure Ref where
  addr : Nat
  obj : Obj

/-- A `CowlVector`: its ordered bit, its items, and, per address, the balance of
retains and releases the vector's operations have performed. -/
structure Vec where
  ordered : Bool
  items : List Ref
  refs : Nat → Int

/-- Change of the balance of one address. -/
def bump (refs : Nat → Int) (a : Nat) (d : Int) : Nat → Int :=
  fun x => if x = a then refs x + d else refs x

/-- `cowl_vector_empty`: no items, not ordered. -/
def Vec.empty : Vec := ⟨false, [], fun _ => 0⟩

/-- `cowl_vector_add`, `cowl_vector.c:177-182`. -/
def Vec.add (v : Vec) (x : Ref) : Vec :=
  { v with items := v.items ++ [x], refs := bump v.refs x.addr 1 }

/-- `uvec_index_of` (ulib): index of the first item equal to `x`. -/
def Vec.indexOf (v : Vec) (x : Ref) : Option Nat :=
  v.items.findIdx? fun y => y.obj.equals x.obj

/-- `cowl_vector_contains`, `include/cowl_vector.h` (`uvec_contains`). -/
def Vec.contains (v : Vec) (x : Ref) : Bool := (v.indexOf x).isSome

/-- `uvec_unordered_remove_at` (ulib): the last item takes the place of the removed one. -/
def swapRemove {α : Type} (xs : List α) (i : Nat) : List α :=
  match xs.getLast? with
  | none => xs
  | some l => (xs.set i l).dropLast

/-- `cowl_vector_remove`, `cowl_vector.c:193-202`. The released object is the
argument, not the item taken out. -/
def Vec.remove (v : Vec) (x : Ref) : Vec × Bool :=
  match v.indexOf x with
  | none => (v, false)
  | some i =>
    ({ v with
        items := if v.ordered then v.items.eraseIdx i else swapRemove v.items i
        refs := bump v.refs x.addr (-1) }, true)

/-! ## Tables -/

/-- A `CowlTable`: a set or a map; entries in iteration order. -/
structure Table where
  isMap : Bool
  entries : List (Ref × Option Ref)

/-- `uhash_get` (ulib): the entry of an equal key. -/
def Table.find (t : Table) (k : Obj) : Option (Ref × Option Ref) :=
  t.entries.find? fun e => e.1.obj.equals k

/-- `cowl_table_get_value`, `include/cowl_table.h:99-101`. -/
def Table.getValue (t : Table) (k : Obj) : Option Ref :=
  match t.find k with
  | some e => e.2
  | none => none

/-- `uhset_equals` (ulib): same count, and each key of one is in the other. -/
def setEquals (a b : Table) : Bool :=
  a.entries.length == b.entries.length && a.entries.all fun e => (b.find e.1.obj).isSome

/-- The loop of `cowl_table_equals`, `cowl_table.c:93-97`. -/
def tableLoop (b : Table) : List (Ref × Option Ref) → Bool
  | [] => true
  | e :: es =>
    let r := b.getValue e.1.obj
    if r.map Ref.addr = e.2.map Ref.addr then true
    else match e.2, r with
      | some v, some r => if v.obj.equals r.obj then tableLoop b es else false
      | _, _ => false

/-- `cowl_table_equals`, `cowl_table.c:85-100`. -/
def Table.equals (a b : Table) : Bool :=
  if !setEquals a b then false
  else if !a.isMap then !b.isMap
  else if !b.isMap then false
  else tableLoop b a.entries

/-- `cowl_table_iterate_primitives`, `cowl_table.c:106-116`: when the iterator
stops inside a value, the code of the key is returned. -/
def tableIterPrims {σ : Type} (fl : BitVec 8) (k : Callback σ Prim) :
    List (Ref × Option Ref) → σ → σ × Ret
  | [], s => (s, .ok)
  | e :: es, s =>
    let r := iterPrims fl k e.1.obj s
    if r.2.shouldStop then r
    else match e.2 with
      | none => tableIterPrims fl k es r.1
      | some v =>
        let r' := iterPrims fl k v.obj r.1
        if r'.2.shouldStop then (r'.1, r.2) else tableIterPrims fl k es r'.1

/-- `cowl_has_primitive` on a table, `cowl_object.c:377-381`. -/
def tableHasPrimitive (t : Table) (p : Prim) : Bool :=
  (tableIterPrims (BitVec.ofNat 8 (2 ^ p.bit)) (containsPrimCb p) t.entries ()).2 == .no

end Cowl
