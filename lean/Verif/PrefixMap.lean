import Verif.Iter
import Verif.Vocab
/-!
# Prefix maps

Models `src/cowl_prefix_map.c`: the table from prefixes to namespaces, the lazily
updated reverse table, and the resolution of short IRIs.

The keys of the first table are string objects and are compared by address in one
place, so they are `SRef`s. Namespaces are interned (`intern_ns`), hence their
contents stand for their addresses (C04). This module assumes that the strings stay
alive, although the map does not own what its reverse table refers to.
A hash table is a list in its current iteration order;
the order can be anything, see `Reaches.reorder` in `Verif.PrefixMapSpec`.
Allocation failure is not modelled.
-/
namespace Cowl.Prefix

/-- A `CowlString` object: its address and its text. -/
structure SRef where
  addr : Nat
  txt : Str
  deriving DecidableEq, Repr

/-- Table `prefix_ns`, in iteration order. -/
abbrev Fwd := List (SRef × Str)
/-- Table `ns_prefix`, in iteration order. -/
abbrev Rev := List (Str × SRef)

/-- `struct CowlPrefixMap`, `cowl_prefix_map_private.h:22-26`; a table that has not
been created yet is an empty table. `dirty` is the flag bit (`cowl_prefix_map.c:45-55`). -/
structure PMap where
  fwd : Fwd
  rev : Rev
  dirty : Bool
  deriving DecidableEq, Repr

/-- `uhash_get` on the first table: by text (`cowl_string_map`, `cowl_table.c`). -/
def fwdFind (p : Str) : Fwd → Option (SRef × Str)
  | [] => none
  | e :: f => if e.1.txt = p then some e else fwdFind p f

/-- `uhmap_set_val` on the entry of a prefix. -/
def fwdSet (p n : Str) : Fwd → Fwd
  | [] => []
  | e :: f => if e.1.txt = p then (e.1, n) :: f else e :: fwdSet p n f

/-- `uhash_delete` on the entry of a prefix. -/
def fwdErase (p : Str) : Fwd → Fwd
  | [] => []
  | e :: f => if e.1.txt = p then f else e :: fwdErase p f

/-- `uhash_get` on the second table: by text. -/
def revFind (n : Str) : Rev → Option SRef
  | [] => none
  | e :: r => if e.1 = n then some e.2 else revFind n r

/-- `uhash_delete` on the entry of a namespace. -/
def revErase (n : Str) : Rev → Rev
  | [] => []
  | e :: r => if e.1 = n then r else e :: revErase n r

/-- Body of the loop of `update_reverse_map`, `cowl_prefix_map.c:64-75`. -/
def revPut (k : SRef) (n : Str) : Rev → Rev
  | [] => [(n, k)]
  | e :: r =>
    if e.1 = n then (if k.txt.length < e.2.txt.length then (n, k) :: r else e :: r)
    else e :: revPut k n r

/-- `update_reverse_map`, `cowl_prefix_map.c:57-80`. The reverse table is not
cleared. -/
def PMap.updateReverse (m : PMap) : PMap :=
  if !m.dirty then m
  else { m with rev := m.fwd.foldl (fun r e => revPut e.1 e.2 r) m.rev, dirty := false }

/-- `cowl_prefix_map_get_ns`, `cowl_prefix_map.c:125-127`. -/
def PMap.getNs (m : PMap) (p : Str) : Option Str := (fwdFind p m.fwd).map Prod.snd

/-- `cowl_prefix_map_get_prefix`, `cowl_prefix_map.c:129-131`, with
`cowl_prefix_map_get_table`, `112-123`. -/
def PMap.getPrefix (m : PMap) (n : Str) : PMap × Option SRef :=
  let m := m.updateReverse
  (m, revFind n m.rev)

/-- `intern_ns`, `cowl_prefix_map.c:133-138`: contents of the result. -/
def internNs (p n : Str) : Str :=
  match reserved.find? fun r => p == r.1 with
  | some r => r.2
  | none => n

/-- `cowl_prefix_map_add`, `cowl_prefix_map.c:140-161`. -/
def PMap.add (m : PMap) (p : SRef) (n : Str) (overwrite : Bool) : PMap × Ret :=
  let n := internNs p.txt n
  match fwdFind p.txt m.fwd with
  | some _ =>
    if !overwrite then (m, .no)
    else ({ m with fwd := fwdSet p.txt n m.fwd, dirty := true }, .ok)
  | none => ({ m with fwd := m.fwd ++ [(p, n)], dirty := true }, .ok)

/-- `cowl_prefix_map_remove_prefix`, `cowl_prefix_map.c:181-204`. -/
def PMap.removePrefix (m : PMap) (p : Str) : PMap × Ret :=
  match fwdFind p m.fwd with
  | none => (m, .no)
  | some (k, n) =>
    let m := ({ m with fwd := fwdErase p m.fwd } : PMap).updateReverse
    match revFind n m.rev with
    | some k' =>
      if k.addr = k'.addr then ({ m with rev := revErase n m.rev, dirty := true }, .ok)
      else (m, .ok)
    | none => (m, .ok)

/-- `cowl_prefix_map_remove_ns`, `cowl_prefix_map.c:211-231`. -/
def PMap.removeNs (m : PMap) (n : Str) : PMap × Ret :=
  let ret := if m.fwd.any fun e => e.2 = n then Ret.ok else Ret.no
  let m := ({ m with fwd := m.fwd.filter fun e => ¬ e.2 = n } : PMap).updateReverse
  ({ m with rev := revErase n m.rev }, ret)

/-- Loop of `cowl_prefix_map_merge`, `cowl_prefix_map.c:236-242`. `add` fails only
for lack of memory. -/
def mergeLoop (overwrite : Bool) : Fwd → PMap → Ret → PMap × Ret
  | [], m, ret => (m, ret)
  | e :: f, m, ret =>
    let r := m.add e.1 e.2 overwrite
    mergeLoop overwrite f r.1 (if r.2 = .ok then .ok else ret)

/-- `cowl_prefix_map_merge`, `cowl_prefix_map.c:233-243`. -/
def PMap.merge (m : PMap) (src : Fwd) (overwrite : Bool) : PMap × Ret :=
  mergeLoop overwrite src m .no

/-- `register_reserved`, `cowl_prefix_map.c:82-88`; `ks` are the addresses of the four
prefix strings of the vocabularies. -/
def registerReserved (ks : List Nat) (m : PMap) : PMap :=
  ((reserved.zip ks).foldl (fun m e => (m.add ⟨e.2, e.1.1⟩ e.1.2 false).1) m)

/-- `cowl_prefix_map`, `cowl_prefix_map.c:90-104`; `dflt` is the table of the default
prefix map, empty while that map is itself being created (`cowl_config.c:43`). -/
def create (ks : List Nat) (dflt : Fwd) : PMap :=
  ((registerReserved ks ⟨[], [], false⟩).merge dflt false).1

/-! ## Resolution of IRIs -/

/-- `cowl_prefix_map_get_iri`, `cowl_prefix_map.c:245-257`; `none` is NULL. -/
def PMap.getIri (m : PMap) (p rem : Str) : Option (Str × Str) :=
  (m.getNs p).map fun ns => iriOfParts ns rem

/-- `ustring_index_of`: index of the first occurrence, or the length. -/
def indexOf (c : UInt8) : Str → Nat
  | [] => 0
  | x :: s => if x = c then 0 else indexOf c s + 1

/-- The character `:`. -/
def colon : UInt8 := 58

/-- `cowl_prefix_map_parse_short_iri`, `cowl_prefix_map.c:259-267`. Outer `none`:
undefined behaviour. Without a colon the remainder starts beyond the end and has
length `2^32 - 1`; it is read only if the prefix is found. -/
def PMap.parseShortIri (m : PMap) (s : Str) : Option (Option (Str × Str)) :=
  let i := indexOf colon s
  if i < s.length then some (m.getIri (s.take i) (s.drop (i + 1)))
  else match m.getNs s with
    | none => some none
    | some _ => none

/-- `cowl_prefix_map_parse_iri`, `cowl_prefix_map.c:269-272`. -/
def PMap.parseIri (m : PMap) (s : Str) : Option (Option (Str × Str)) :=
  match m.parseShortIri s with
  | none => none
  | some (some i) => some (some i)
  | some none => some (iriFromString s)

end Cowl.Prefix
