import Verif.PrefixMap
/-!
# Prefix maps when memory runs out

`src/cowl_prefix_map.c` again, as in `Verif/PrefixMap.lean`, but each request for memory may fail.
What is known about the requests is a list; all of them succeed once it is over.
-/
namespace Cowl.PrefixOom
open Cowl.Prefix

/-- A prefix map, and whether it has a reverse table yet. There is a first table once the map has been
created, as the reserved prefixes are registered then. -/
structure OMap where
  map : PMap
  hasRev : Bool := false
  deriving DecidableEq, Repr

/-- A request for memory. -/
def ask : List Bool → Bool × List Bool
  | [] => (true, [])
  | b :: l => (b, l)

/-- The loop of `update_reverse_map`, `cowl_prefix_map.c:63-76`; `uhash_put` may fail. -/
def putAll : List Bool → Fwd → Rev → Rev × Bool × List Bool
  | mem, [], r => (r, true, mem)
  | mem, e :: f, r =>
    if (ask mem).1 then putAll (ask mem).2 f (revPut e.1 e.2 r) else (r, false, (ask mem).2)

/-- `update_reverse_map`, `cowl_prefix_map.c:57-80`. If it fails the map stays dirty. -/
def OMap.update (m : OMap) (mem : List Bool) : OMap × Bool × List Bool :=
  if !m.map.dirty then (m, true, mem)
  else
    let r := putAll mem m.map.fwd m.map.rev
    ({ m with map := { m.map with rev := r.1, dirty := !r.2.1 } }, r.2)

/-- `cowl_prefix_map_get_table(map, true)`, `cowl_prefix_map.c:112-123`. -/
def OMap.revTable (m : OMap) (mem : List Bool) : OMap × Bool × List Bool :=
  if m.hasRev then m.update mem
  else if (ask mem).1 then { m with hasRev := true }.update (ask mem).2
  else (m, false, (ask mem).2)

/-- `cowl_prefix_map_get_prefix`, `cowl_prefix_map.c:129-131`; the value of a key in no table is
NULL. -/
def OMap.getPrefix (m : OMap) (mem : List Bool) (n : Str) : OMap × Option SRef :=
  let r := m.revTable mem
  (r.1, if r.2.1 then revFind n r.1.map.rev else none)

/-- `intern_ns`, `cowl_prefix_map.c:133-138`: whether it succeeds. Reserved namespaces are not
interned again. -/
def intern (mem : List Bool) (p : Str) : Bool × List Bool :=
  match reserved.find? fun r => p == r.1 with
  | some _ => (true, mem)
  | none => ask mem

/-- `cowl_prefix_map_add`, `cowl_prefix_map.c:140-161`. -/
def OMap.add (m : OMap) (mem : List Bool) (p : SRef) (n : Str) (overwrite : Bool) : OMap × Ret × List Bool :=
  let i := intern mem p.txt
  if !i.1 then (m, .errMem, i.2)
  else if !(ask i.2).1 then (m, .errMem, (ask i.2).2)
  else
    let r := m.map.add p n overwrite
    ({ m with map := r.1 }, r.2, (ask i.2).2)

/-- `cowl_prefix_map_remove_prefix`, `cowl_prefix_map.c:181-204`: the entry is gone by the time the
reverse table is asked for. -/
def OMap.removePrefix (m : OMap) (mem : List Bool) (p : Str) : OMap × Ret :=
  match fwdFind p m.map.fwd with
  | none => (m, .no)
  | some (k, n) =>
    let r := { m with map := { m.map with fwd := fwdErase p m.map.fwd } : OMap }.revTable mem
    if !r.2.1 then (r.1, .errMem)
    else
      match revFind n r.1.map.rev with
      | some k' =>
        if k.addr = k'.addr then
          ({ r.1 with map := { r.1.map with rev := revErase n r.1.map.rev, dirty := true } }, .ok)
        else (r.1, .ok)
      | none => (r.1, .ok)

/-- `cowl_prefix_map_remove_ns`, `cowl_prefix_map.c:211-231`. -/
def OMap.removeNs (m : OMap) (mem : List Bool) (n : Str) : OMap × Ret :=
  let ret := if m.map.fwd.any fun e => e.2 = n then Ret.ok else Ret.no
  let r := { m with map := { m.map with fwd := m.map.fwd.filter fun e => ¬ e.2 = n } : OMap }.revTable mem
  if !r.2.1 then (r.1, .errMem)
  else ({ r.1 with map := { r.1.map with rev := revErase n r.1.map.rev } }, ret)

/-- Loop of `cowl_prefix_map_merge`, `cowl_prefix_map.c:237-241`. -/
def mergeLoop (overwrite : Bool) : Fwd → OMap → List Bool → Ret → OMap × Ret
  | [], m, _, ret => (m, ret)
  | e :: f, m, mem, ret =>
    let r := m.add mem e.1 e.2 overwrite
    if r.2.1.isErr then (r.1, r.2.1)
    else mergeLoop overwrite f r.1 r.2.2 (if r.2.1 = .ok then .ok else ret)

/-- `cowl_prefix_map_merge`, `cowl_prefix_map.c:233-243`; the table of the other map exists. -/
def OMap.merge (m : OMap) (mem : List Bool) (src : Fwd) (overwrite : Bool) : OMap × Ret :=
  mergeLoop overwrite src m mem .no

/-- `register_reserved`, `cowl_prefix_map.c:82-88`, with the rest of the list. -/
def registerLoop : List ((Str × Str) × Nat) → OMap → List Bool → Option (OMap × List Bool)
  | [], m, mem => some (m, mem)
  | e :: l, m, mem =>
    let r := m.add mem ⟨e.2, e.1.1⟩ e.1.2 false
    if r.2.1.isErr then none else registerLoop l r.1 r.2.2

/-- `cowl_prefix_map`, `cowl_prefix_map.c:90-104`: there is a request for the map and one for its
table; `ks` and `dflt` are as for `Prefix.create`. If something fails the map is freed. -/
def create (mem : List Bool) (ks : List Nat) (dflt : Fwd) : Option OMap :=
  if !(ask mem).1 then none
  else if !(ask (ask mem).2).1 then none
  else
    match registerLoop (reserved.zip ks) ⟨⟨[], [], false⟩, false⟩ (ask (ask mem).2).2 with
    | none => none
    | some (m, mem) =>
      let r := m.merge mem dflt false
      if r.2.isErr then none else some r.1

end Cowl.PrefixOom
