import Verif.Obj
/-!
# Identifiers of entities

Models `src/cowl_entity.c` in the configuration with `COWL_ENTITY_IDS`, in which every entity has
a number and stays in memory until the library ends. Entities are addresses with a reference
count; the IRI of an entity is a value (IRIs are interned, see `Verif/Heap.lean`). `none` is
undefined behaviour. Allocations are given as arguments.
-/
namespace Cowl.EntId

/-- `struct CowlEntity`, `cowl_entity_private.h:24-30`, as far as it is not the count. -/
structure Ent where
  type : OType
  iri : Iri
  id : Nat
  deriving DecidableEq

/-- State of the library: `inst_tbl`, `cowl_entity.c:23`, `id_map`, `cowl_entity.c:27`, and
memory. `ext` counts the references of the client, for the sake of specification only. -/
structure St where
  tbl : List Nat
  map : List Nat
  cell : Nat → Option Ent
  rc : Nat → Nat
  ext : Nat → Nat

/-- `cowl_entity_api_init`, `cowl_entity.c:41-47`. -/
def St.init : St := ⟨[], [], fun _ => none, fun _ => 0, fun _ => 0⟩

/-- Lookup in the table by `inst_tbl_eq`, `cowl_entity.c:36-39`: IRI and type are the same. -/
def St.find (s : St) (t : OType) (i : Iri) : Option Nat :=
  s.tbl.find? fun a => match s.cell a with
    | none => false
    | some e => e.iri = i ∧ e.type = t

/-- Outcome of the allocations of `cowl_entity_get_impl`: whether the table can grow, the block
for the entity, and whether the vector of entities can grow. -/
structure Mem where
  put : Bool
  block : Option Nat
  push : Bool

/-- `cowl_entity_get_impl`, `cowl_entity.c:85-106`, with `cowl_entity_alloc`, `59-77`. The key
that is put into the table is replaced by the entity, or deleted if there is none. The count of a
new entity is 1, and 1 for the vector of entities. -/
def St.get (s : St) (mem : Mem) (t : OType) (i : Iri) : St × Option Nat :=
  match s.find t i with
  | some a =>
    ({ s with rc := fun b => if b = a then s.rc b + 1 else s.rc b
              ext := fun b => if b = a then s.ext b + 1 else s.ext b }, some a)
  | none =>
    if !mem.put then (s, none)
    else
      match mem.block with
      | none => (s, none)
      | some a =>
        if !mem.push then (s, none)
        else
          ({ tbl := s.tbl ++ [a], map := s.map ++ [a]
             cell := fun b => if b = a then some ⟨t, i, s.map.length⟩ else s.cell b
             rc := fun b => if b = a then 2 else s.rc b
             ext := fun b => if b = a then 1 else s.ext b }, some a)

/-- `cowl_retain`, `cowl_object.c:157-160`. -/
def St.retain (s : St) (a : Nat) : Option St :=
  match s.cell a with
  | none => none
  | some _ => some { s with rc := fun b => if b = a then s.rc b + 1 else s.rc b
                            ext := fun b => if b = a then s.ext b + 1 else s.ext b }

/-- `cowl_release`, `cowl_object.c:171-194`, with `cowl_entity_free`, `cowl_entity.c:79-83`. The
vector of entities does not change. -/
def St.drop (s : St) (a : Nat) : Option St :=
  match s.cell a with
  | none => none
  | some _ =>
    if s.rc a = 0 then none
    else if s.rc a = 1 then
      some { s with tbl := s.tbl.erase a, cell := fun b => if b = a then none else s.cell b
                    rc := fun b => if b = a then 0 else s.rc b }
    else some { s with rc := fun b => if b = a then s.rc b - 1 else s.rc b }

/-- `cowl_release` by the client. -/
def St.release (s : St) (a : Nat) : Option St :=
  { s with ext := fun b => if b = a then s.ext b - 1 else s.ext b }.drop a

/-- `cowl_entity_get_id`, `cowl_entity.c:141-143`. -/
def St.getId (s : St) (a : Nat) : Option Nat := (s.cell a).map Ent.id

/-- `cowl_entity_with_id`, `cowl_entity.c:145-147`; the pointer returned, or NULL. -/
def St.withId (s : St) (id : Nat) : Option Nat := if id < s.map.length then s.map[id]? else none

/-- Several entities, one after the other. -/
def St.dropAll : List Nat → St → Option St
  | [], s => some s
  | a :: l, s => (s.drop a).bind (St.dropAll l)

/-- `cowl_entity_api_deinit`, `cowl_entity.c:49-57`. The table goes first; removing from it
afterwards is taken to do nothing. -/
def St.deinit (s : St) : Option St :=
  (St.dropAll s.map { s with tbl := [] }).map fun s' => { s' with map := [] }

/-- A call of the client. -/
inductive Op where
  | get (mem : Mem) (t : OType) (i : Iri)
  | retain (a : Nat)
  | release (a : Nat)

/-- Effect of a call; the pointer returned. -/
def St.step (s : St) : Op → Option (St × Option Nat)
  | .get mem t i => some (s.get mem t i)
  | .retain a => (s.retain a).map fun s => (s, some a)
  | .release a => (s.release a).map fun s => (s, none)

end Cowl.EntId
