import Verif.Iter
/-!
# Memory of the index of the ProtocOWL encoder

Models `src/formats/protocowl/cowl_prt_index.c` as the encoder uses it, with the references the index
takes and gives back, and with requests for memory that may fail. What is kept in the index is told in
`Verif/PrtIndex.lean`; here an object is an address and what it is compared by.

Simplified: objects the caller hands over live during the call. The index may rely on nothing but its
own references after that; looking something up in a table may compare it to any of the keys.
-/
namespace Cowl.PIdx

/-- A string, IRI or anonymous individual: objects with the same `key` are equal. -/
structure Thing where
  addr : Nat
  key : Nat
  deriving DecidableEq, Repr

/-- What is known about requests for memory, of the tables from names to positions, of the vectors,
and of the table from namespaces to prefixes. Those that nothing is known about succeed. -/
structure Mem where
  tabs : List Bool := []
  vecs : List Bool := []
  prefs : List Bool := []
  deriving DecidableEq, Repr

/-- One request. -/
def ask : List Bool → Bool × List Bool
  | [] => (true, [])
  | b :: l => (b, l)

/-- A vector and the table from its items to positions, as in `CowlPRTPrefixMap` and `CowlPRTIdMap`,
`cowl_prt_index.h:17-30`; a value that has not been set is `none`. -/
structure PVec where
  vec : List Thing := []
  tab : List (Thing × Option Nat) := []
  enc : Nat := 0
  sep : Nat := 0
  deriving DecidableEq, Repr

/-- `CowlPRTIndex`, `cowl_prt_index.h:32-35`; `prefs` is `_ns_to_prefix`. `own` are the references the
index has, ever since they were taken by `cowl_retain` and until they are given back. -/
structure St where
  ns : PVec := {}
  prefs : List (Thing × Thing) := []
  ids : PVec := {}
  own : List Nat := []
  deriving DecidableEq, Repr

/-- Whether all keys of a table are alive: the index has a reference to them. -/
def alive {β : Type} (own : List Nat) (tab : List (Thing × β)) : Bool := tab.all fun e => own.contains e.1.addr

/-- `ULIB_NO` of `uhash_put`. -/
def has {β : Type} (tab : List (Thing × β)) (x : Thing) : Bool := tab.any fun e => e.1.key == x.key

/-- `cowl_release` of references of the index; undefined if it does not have them. -/
def releaseAll : List Nat → List Nat → Option (List Nat)
  | own, [] => some own
  | own, a :: l => if own.contains a then releaseAll (own.erase a) l else none

/-- The vector part of `prefix_map_add_encoding`, `cowl_prt_index.c:62-76`, and of
`id_map_add_encoding`, `239-252`, once there is room. -/
def PVec.push (m : PVec) (x : Thing) (first : Bool) : PVec :=
  { m with
    vec :=
      if first then
        match m.vec[m.sep]? with
        | some f => (m.vec ++ [f]).set m.sep x
        | none => m.vec ++ [x]
      else m.vec ++ [x]
    sep := if first then m.sep + 1 else m.sep }

/-- Result of adding to a vector: undefined, nothing to do, an error, or done. -/
inductive Added where
  | undef
  | known (mem : Mem)
  | fails (m : PVec) (mem : Mem)
  | done (m : PVec) (mem : Mem)

/-- `prefix_map_add_encoding`, `cowl_prt_index.c:55-76`, and `id_map_add_encoding`, `232-252`: the table
gets the name before there is room for it in the vector, and keeps it if there is none. -/
def PVec.add (own : List Nat) (m : PVec) (mem : Mem) (x : Thing) (first : Bool) : Added :=
  if !alive own m.tab then .undef
  else if has m.tab x then .known mem
  else
    let t := ask mem.tabs
    if !t.1 then .fails m { mem with tabs := t.2 }
    else
      let m := { m with tab := m.tab ++ [(x, none)] }
      let v := ask mem.vecs
      let mem := { mem with tabs := t.2, vecs := v.2 }
      if !v.1 then .fails m mem else .done (m.push x first) mem

/-- `uhmap_set_val` after `uhash_put` on `_ns_to_prefix`, `cowl_prt_index.c:80-82`. -/
def putPref (ns p : Thing) : List (Thing × Thing) → List (Thing × Thing)
  | [] => [(ns, p)]
  | e :: l => if e.1.key == ns.key then (e.1, p) :: l else e :: putPref ns p l

/-- `prefix_map_add_encoding`, `cowl_prt_index.c:54-87`. If the table of prefixes cannot grow, the
namespace is in the vector but not retained. -/
def addNs (s : St) (mem : Mem) (ns : Thing) (p : Option Thing) : Option (St × Ret × Mem) :=
  match s.ns.add s.own mem ns p.isSome with
  | .undef => none
  | .known mem => some (s, .ok, mem)
  | .fails m mem => some ({ s with ns := m }, .errMem, mem)
  | .done m mem =>
    match p with
    | none => some ({ s with ns := m, own := ns.addr :: s.own }, .ok, mem)
    | some p =>
      if !alive s.own s.prefs then none
      else
        let q := ask mem.prefs
        let mem := { mem with prefs := q.2 }
        if !q.1 then some ({ s with ns := m }, .errMem, mem)
        else some ({ s with ns := m, prefs := putPref ns p s.prefs, own := ns.addr :: p.addr :: s.own }, .ok, mem)

/-- `id_map_add_encoding`, `cowl_prt_index.c:232-256`. -/
def addId (s : St) (mem : Mem) (x : Thing) (isIri : Bool) : Option (St × Ret × Mem) :=
  match s.ids.add s.own mem x isIri with
  | .undef => none
  | .known mem => some (s, .ok, mem)
  | .fails m mem => some ({ s with ids := m }, .errMem, mem)
  | .done m mem => some ({ s with ids := m, own := x.addr :: s.own }, .ok, mem)

/-- `cowl_prt_index_add_primitive`, `cowl_prt_index.c:349-360`, on an IRI and its namespace. -/
def addIri (s : St) (mem : Mem) (iri ns : Thing) : Option (St × Ret × Mem) :=
  match addNs s mem ns none with
  | none => none
  | some (s, r, mem) => if r = .ok then addId s mem iri true else some (s, .errMem, mem)

/-- `uhmap_set_val` on the entry with the given key. -/
def setVal (tab : List (Thing × Option Nat)) (x : Thing) (i : Nat) : List (Thing × Option Nat) :=
  tab.map fun e => if e.1.key == x.key then (e.1, some i) else e

/-- Loop of `prefix_map_sync_unencoded`, `cowl_prt_index.c:44-49`, and of `id_map_sync_unencoded`,
`208-213`; undefined if an item is not in the table. -/
def syncLoop (tab : List (Thing × Option Nat)) : Nat → List Thing → Option (List (Thing × Option Nat))
  | _, [] => some tab
  | i, x :: xs => if has tab x then syncLoop (setVal tab x i) (i + 1) xs else none

/-- `prefix_map_sync_unencoded`, `cowl_prt_index.c:41-52`, and `id_map_sync_unencoded`, `205-216`. -/
def PVec.sync (own : List Nat) (m : PVec) : Option PVec :=
  if !alive own m.tab then none
  else
    match syncLoop m.tab m.enc (m.vec.drop m.enc) with
    | none => none
    | some t => some { m with tab := t, enc := m.vec.length, sep := m.vec.length }

/-- `prefix_map_unencoded`, `cowl_prt_index.c:144-150`, and `id_map_unencoded`, `218-224`: the views
must be within the vector. -/
def PVec.unencoded (own : List Nat) (m : PVec) : Option PVec :=
  if m.enc ≤ m.sep ∧ m.sep ≤ m.vec.length then m.sync own else none

/-- `prefix_map_get_idx`, `cowl_prt_index.c:161-165`, and `id_map_get_idx`, `226-230`: undefined if the
value has not been set. -/
def PVec.idx (own : List Nat) (m : PVec) (x : Thing) : Option (Option Nat) :=
  if !alive own m.tab then none
  else
    match m.tab.find? fun e => e.1.key == x.key with
    | none => some none
    | some (_, v) => v.map some

/-- All lookups are defined. -/
def looks (own : List Nat) (m : PVec) (xs : List Thing) : Bool := xs.all fun x => (m.idx own x).isSome

/-- `encode_data`, `cowl_prt_encoder.c:726-734`, as far as the index is concerned: names that are new
get their positions, then any names are looked up. -/
def flush (s : St) (nss ids : List Thing) : Option St :=
  match s.ns.unencoded s.own with
  | none => none
  | some ns =>
    if !alive s.own s.prefs then none
    else
      match s.ids.unencoded s.own with
      | none => none
      | some i => if looks s.own ns nss && looks s.own i ids then some { s with ns := ns, ids := i } else none

/-- `prefix_map_deinit`, `cowl_prt_index.c:29-39`: containers that have been deinitialised are empty. -/
def deinitNs (s : St) : Option St :=
  match releaseAll s.own (s.prefs.map fun e => e.2.addr) with
  | none => none
  | some o =>
    match releaseAll o (s.ns.vec.map (·.addr)) with
    | none => none
    | some o => some { s with ns := { s.ns with vec := [], tab := [] }, prefs := [], own := o }

/-- `id_map_reset`, `cowl_prt_index.c:189-193`, with `id_map_deinit`, `181-187`. -/
def resetIds (s : St) : Option St :=
  match releaseAll s.own (s.ids.vec.map (·.addr)) with
  | none => none
  | some o => some { s with ids := {}, own := o }

/-- Loop of `prefix_map_add_standard_prefixes`, `cowl_prt_index.c:111-113`, on the standard namespaces
and prefixes. -/
def addStd (s : St) (mem : Mem) : List (Thing × Thing) → Option (St × Ret × Mem)
  | [] => some (s, .ok, mem)
  | e :: l =>
    match addNs s mem e.1 (some e.2) with
    | none => none
    | some (s, r, mem) => if r = .ok then addStd s mem l else some (s, r, mem)

/-- `prefix_map_init`, `cowl_prt_index.c:117-132`. -/
def initNs (std : List (Thing × Thing)) (s : St) (mem : Mem) : Option (St × Ret × Mem) :=
  match addStd { s with ns := {}, prefs := [] } mem std with
  | none => none
  | some (s, r, mem) =>
    if r = .ok then (s.ns.sync s.own).map fun m => ({ s with ns := m }, .ok, mem)
    else (deinitNs s).map fun s => (s, .errMem, mem)

/-- `encoder_reset`, `cowl_prt_encoder.c:69-73`, as far as the index is concerned, with
`prefix_map_reset`, `cowl_prt_index.c:134-138`. -/
def reset (std : List (Thing × Thing)) (s : St) (mem : Mem) (prefixes : Bool) : Option (St × Ret × Mem) :=
  match resetIds s with
  | none => none
  | some s =>
    if !prefixes then some (s, .ok, mem)
    else
      match deinitNs s with
      | none => none
      | some s => initNs std s mem

/-- What the encoder does with the index. -/
inductive Call where
  | addPrefix (ns p : Thing)
  | addIri (iri ns : Thing)
  | addAnon (x : Thing)
  | flush (nss ids : List Thing)
  | reset (prefixes : Bool)
  deriving DecidableEq

/-- One call. -/
def exec (std : List (Thing × Thing)) (s : St) (mem : Mem) : Call → Option (St × Ret × Mem)
  | .addPrefix ns p => addNs s mem ns (some p)
  | .addIri i ns => addIri s mem i ns
  | .addAnon x => addId s mem x false
  | .flush nss ids => (flush s nss ids).map fun s => (s, .ok, mem)
  | .reset p => reset std s mem p

/-- Calls one after the other, with the codes they return. -/
def run (std : List (Thing × Thing)) : St → Mem → List Call → Option (St × List Ret)
  | s, _, [] => some (s, [])
  | s, mem, c :: l =>
    match exec std s mem c with
    | none => none
    | some (s, r, mem) => (run std s mem l).map fun x => (x.1, r :: x.2)

/-- `cowl_prt_index_deinit`, `cowl_prt_index.c:300-303`. -/
def deinit (s : St) : Option St :=
  match deinitNs s with
  | none => none
  | some s => resetIds s

/-- The life of an index: `cowl_prt_index_init`, `cowl_prt_index.c:295-298`, calls, and
`cowl_prt_index_deinit`. The result are the codes and the references that are left. -/
def life (std : List (Thing × Thing)) (mem : Mem) (cs : List Call) : Option (List Ret × List Nat) :=
  match initNs std {} mem with
  | none => none
  | some (s, r, mem) =>
    match run std s mem cs with
    | none => none
    | some (s, rs) => (deinit s).map fun s => (r :: rs, s.own)

end Cowl.PIdx
