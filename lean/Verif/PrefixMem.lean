import Verif.Heap
import Verif.PrefixMap
/-!
# Prefix maps in memory

Models `src/cowl_prefix_map.c` a second time, over the heap of `Verif.Heap`: tables
hold addresses of strings, the first table owns what it refers to, the second one does
not. `none` is undefined behaviour: an access to a string that was freed.

A lookup in a table reads its keys in iteration order until one has the given text. In
C it reads those whose hash leads to the same places in the table; the key that is
found is among them, and so is every key that was put there with the same text.
Allocation failure is not modelled.
-/
namespace Cowl.PMem
open Heap

/-- Entries of a table, in iteration order: addresses of key and value. -/
abbrev Tbl := List (Nat × Nat)

/-- `struct CowlPrefixMap`, `cowl_prefix_map_private.h:22-26`: `prefix_ns`, `ns_prefix`
and the flag bit. A table that has not been created yet is an empty table. -/
structure MMap where
  fwd : Tbl
  rev : Tbl
  dirty : Bool
  deriving DecidableEq, Repr

/-- An argument: a string object, or one on the stack of the caller
(`cowl_string_init`, `cowl_prefix_map.c:176-179`, `206-209`, `246`). -/
inductive Arg where
  | obj (a : Nat)
  | text (t : Str)

/-- Reading an argument. -/
def Arg.read (s : St) : Arg → Option Str
  | .obj a => s.content a
  | .text t => some t

/-- `uhash_get` on a table of strings: `cowl_string_equals`, `cowl_string.c:227-229`. -/
def find (s : St) (t : Str) : Tbl → Option (Option (Nat × Nat))
  | [] => some none
  | e :: f =>
    match s.content e.1 with
    | none => none
    | some c => if c = t then some (some e) else find s t f

/-- `uhmap_set_val` on the entry with the given key. -/
def setVal (k v : Nat) (f : Tbl) : Tbl := f.map fun e => if e.1 = k then (k, v) else e

/-- `uhash_delete` on the entry with the given key. -/
def erase (k : Nat) (f : Tbl) : Tbl := f.filter fun e => ¬ e.1 = k

/-- Body of the loop of `update_reverse_map`, `cowl_prefix_map.c:64-75`, for the prefix
`k` and the namespace `n`, whose text is `t`. -/
def revPut (s : St) (k n : Nat) (t : Str) : Tbl → Option Tbl
  | [] => some [(n, k)]
  | e :: r =>
    match s.content e.1 with
    | none => none
    | some c =>
      if c = t then
        match s.content k, s.content e.2 with
        | some x, some y => some (if x.length < y.length then (e.1, k) :: r else e :: r)
        | _, _ => none
      else (revPut s k n t r).map (e :: ·)

/-- The loop of `update_reverse_map`, `cowl_prefix_map.c:63-76`. -/
def revLoop (s : St) : Tbl → Tbl → Option Tbl
  | [], r => some r
  | e :: f, r =>
    match s.content e.2 with
    | none => none
    | some t => (revPut s e.1 e.2 t r).bind (revLoop s f)

/-- `update_reverse_map`, `cowl_prefix_map.c:57-80`. -/
def updateReverse (s : St) (m : MMap) : Option MMap :=
  if !m.dirty then some m
  else (revLoop s m.fwd m.rev).map fun r => { m with rev := r, dirty := false }

/-- `cowl_prefix_map_get_ns`, `cowl_prefix_map.c:125-127`; the inner `none` is NULL. The
result is not retained. -/
def getNs (s : St) (m : MMap) (p : Arg) : Option (Option Nat) :=
  (p.read s).bind fun t => (find s t m.fwd).map (Option.map Prod.snd)

/-- `cowl_prefix_map_get_prefix`, `cowl_prefix_map.c:129-131`, with
`cowl_prefix_map_get_table`, `112-123`. -/
def getPrefix (s : St) (m : MMap) (n : Arg) : Option (MMap × Option Nat) :=
  (updateReverse s m).bind fun m =>
    (n.read s).bind fun t => (find s t m.rev).map fun e => (m, e.map Prod.snd)

/-- `intern_ns`, `cowl_prefix_map.c:133-138`; `res` are the strings `RESERVED_PN`,
`cowl_prefix_map.c:26-39`. The result is not retained. -/
def internNs (res : Tbl) (s : St) (p n : Nat) : Option (St × Nat) :=
  (s.content p).bind fun t =>
    match find s t res with
    | none => none
    | some (some e) => some (s, e.2)
    | some none => intern s n

/-- `cowl_prefix_map_add`, `cowl_prefix_map.c:140-161`. -/
def add (res : Tbl) (s : St) (m : MMap) (p n : Nat) (overwrite : Bool) :
    Option (St × MMap × Ret) :=
  (internNs res s p n).bind fun (s, n) =>
    (s.content p).bind fun t =>
      match find s t m.fwd with
      | none => none
      | some (some e) =>
        if !overwrite then some (s, m, .no)
        else (release s e.2).bind fun s => (retain s n).map fun s =>
          (s, { m with fwd := setVal e.1 n m.fwd, dirty := true }, .ok)
      | some none =>
        (retain s p).bind fun s => (retain s n).map fun s =>
          (s, { m with fwd := m.fwd ++ [(p, n)], dirty := true }, .ok)

/-- `cowl_prefix_map_add_raw`, `cowl_prefix_map.c:163-174`; `a1` and `a2` are addresses
for new strings. -/
def addRaw (res : Tbl) (s : St) (m : MMap) (a1 a2 : Nat) (p n : Str) (overwrite : Bool) :
    Option (St × MMap × Ret) :=
  (newString s a1 p).bind fun (s, p) =>
    (newIntern s a2 n).bind fun (s, n) =>
      (add res s m p n overwrite).bind fun (s, m, ret) =>
        (release s p).bind fun s => (release s n).map fun s => (s, m, ret)

/-- `cowl_prefix_map_remove_prefix`, `cowl_prefix_map.c:181-204`. -/
def removePrefix (s : St) (m : MMap) (p : Arg) : Option (St × MMap × Ret) :=
  (p.read s).bind fun t =>
    match find s t m.fwd with
    | none => none
    | some none => some (s, m, .no)
    | some (some e) =>
      (updateReverse s { m with fwd := erase e.1 m.fwd }).bind fun m =>
        (s.content e.2).bind fun tn =>
          match find s tn m.rev with
          | none => none
          | some f =>
            let m : MMap := match f with
              | some f => if e.1 = f.2 then { m with rev := erase f.1 m.rev, dirty := true } else m
              | none => m
            (release s e.1).bind fun s => (release s e.2).map fun s => (s, m, .ok)

/-- The loop of `cowl_prefix_map_remove_ns`, `cowl_prefix_map.c:215-222`; the last
result tells whether there was such an entry. -/
def dropNs (n : Arg) : St → Tbl → Option (St × Tbl × Bool)
  | s, [] => some (s, [], false)
  | s, e :: f =>
    match s.content e.2, n.read s with
    | some c, some t =>
      if c = t then
        (release s e.1).bind fun s => (release s e.2).bind fun s =>
          (dropNs n s f).map fun r => (r.1, r.2.1, true)
      else (dropNs n s f).map fun r => (r.1, e :: r.2.1, r.2.2)
    | _, _ => none

/-- `cowl_prefix_map_remove_ns`, `cowl_prefix_map.c:211-231`. -/
def removeNs (s : St) (m : MMap) (n : Arg) : Option (St × MMap × Ret) :=
  (dropNs n s m.fwd).bind fun (s, f, b) =>
    (updateReverse s { m with fwd := f }).bind fun m =>
      (n.read s).bind fun t =>
        (find s t m.rev).map fun e =>
          let m : MMap := match e with
            | some e => { m with rev := erase e.1 m.rev }
            | none => m
          (s, m, if b then .ok else .no)

/-- The loop of `cowl_prefix_map_merge`, `cowl_prefix_map.c:236-241`. -/
def mergeLoop (res : Tbl) (overwrite : Bool) : Tbl → St → MMap → Ret → Option (St × MMap × Ret)
  | [], s, m, ret => some (s, m, ret)
  | e :: f, s, m, ret =>
    (add res s m e.1 e.2 overwrite).bind fun (s, m, r) =>
      mergeLoop res overwrite f s m (if r = .ok then .ok else ret)

/-- `cowl_prefix_map_merge`, `cowl_prefix_map.c:233-243`, with the entries of the other
map. -/
def merge (res : Tbl) (s : St) (m : MMap) (src : Tbl) (overwrite : Bool) :
    Option (St × MMap × Ret) :=
  mergeLoop res overwrite src s m .no

/-- `cowl_prefix_map`, `cowl_prefix_map.c:90-104`, with `register_reserved`, `82-88`,
while there is no default prefix map (otherwise a `merge` follows). -/
def create (res : Tbl) (s : St) : Option (St × MMap) :=
  (mergeLoop res false res s ⟨[], [], false⟩ .no).map fun r => (r.1, r.2.1)

/-- The loop of `cowl_table_free_ex`, `cowl_table.c:57-69`. -/
def freeLoop : Tbl → St → Option St
  | [], s => some s
  | e :: f, s => (release s e.1).bind fun s => (release s e.2).bind (freeLoop f)

/-- `cowl_prefix_map_free`, `cowl_prefix_map.c:106-110`: only the first table owns its
entries. -/
def free (s : St) (m : MMap) : Option St := freeLoop m.fwd s

end Cowl.PMem
