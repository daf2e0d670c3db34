import Verif.StrBuf
/-!
# IRIs and anonymous individuals with their strings in memory

`src/cowl_iri.c` and `src/cowl_anon_ind.c` with the strings of `Verif/StrBuf.lean`, whose texts have
buffers, and with allocations that may fail. In `Verif/Heap.lean` and `Verif/HeapOom.lean` strings
have texts but no buffers. `none` outside is undefined behaviour.

Simplifications: the objects are a list of cells with their addresses; the two tables are one list,
in which individuals are told from IRIs by having no namespace; a table compares the key with all
its elements; the contents of a buffer that is filled after its allocation are those it is filled
with; hash codes of tables are not computed, but those of strings are compared.
-/
namespace Cowl.PrimM
open SBuf

/-- `struct CowlIRI`, `cowl_iri_private.h:19-23`, and `struct CowlAnonInd`,
`cowl_anon_ind_private.h:19-22`: count, namespace unless it is an individual, and remainder or id. -/
structure PCell where
  rc : Nat
  ns : Option Nat
  rem : Nat

/-- The memory, with `inst_tbl` of `cowl_iri.c:25` and `cowl_anon_ind.c:24`. -/
structure Mem where
  str : St
  prims : List (Nat × PCell)
  tbl : List Nat

/-- The object at an address. -/
def Mem.prim (s : Mem) (a : Nat) : Option PCell := s.prims.lookup a

/-- Outcomes of the allocations of a call: the text of a `UStrBuf` (`bw`); text, place in the table
of strings and string at `na` for a namespace; text and string at `ma` for a remainder or an id;
place in the table of strings when a namespace is interned (`put`); place in the table of instances
(`iput`); the object at `a`. -/
structure Alloc where
  bw : Where
  nw : Where
  nput : Bool
  nok : Bool
  na : Nat
  mw : Where
  mok : Bool
  ma : Nat
  put : Bool
  iput : Bool
  ok : Bool
  a : Nat

/-- `cowl_string_get_raw`: the text of a string in memory. -/
def textOf (s : St) (a : Nat) : Option Str := (s.cells a).bind fun k => s.txt k.raw

/-- Lookup of a key in the table, `cowl_iri.c:33-36` and `cowl_anon_ind.c:30-32`: namespaces are
compared as pointers, remainders and ids with `cowl_string_equals`, `cowl_string.c:227-229`. `hs` and
`c` are hash and text of the remainder of the key. -/
def find (s : Mem) (ns : Option Nat) (hs : Nat) (c : Str) : List Nat → Option (Option Nat)
  | [] => some none
  | b :: bs =>
    match s.prim b with
    | none => none
    | some k =>
      if k.ns = ns then
        match s.str.cells k.rem with
        | none => none
        | some l =>
          if l.hash = hs then
            match s.str.txt l.raw with
            | none => none
            | some d => if d = c then some (some b) else find s ns hs c bs
          else find s ns hs c bs
      else find s ns hs c bs

/-- The count of an object is set. -/
def setRc (s : Mem) (a n : Nat) : Mem :=
  { s with prims := s.prims.map fun p => if p.1 = a then (a, { p.2 with rc := n }) else p }

/-- `cowl_incr_ref`, `cowl_object_private.h:42-45`, and `cowl_retain`, `cowl_object.c:157-160`. -/
def retainPrim (s : Mem) (x : Nat) : Option Mem := (s.prim x).map fun k => setRc s x (k.rc + 1)

/-- `cowl_retain` of a string, or of none for individuals. -/
def retainOpt (s : St) : Option Nat → Option St
  | none => some s
  | some a => retain s a

/-- `cowl_release` of a string; of NULL it does nothing, `cowl_object.c:171-172`. -/
def releaseOpt (s : Mem) : Option Nat → Option Mem
  | none => some s
  | some a => (release s.str a).map fun t => { s with str := t }

/-- `cowl_iri_alloc`, `cowl_iri.c:47-58`, and `anon_ind_alloc`, `cowl_anon_ind.c:47-55`, with
`uhash_set_key` if there is memory, and `uhash_delete` otherwise. -/
def alloc (m : Alloc) (s : Mem) (ns : Option Nat) (rem : Nat) : Option (Mem × Option Nat) :=
  if !m.ok then some (s, none)
  else
    (retainOpt s.str ns).bind fun t => (retain t rem).map fun t =>
      (⟨t, (m.a, ⟨1, ns, rem⟩) :: s.prims, m.a :: s.tbl⟩, some m.a)

/-- `cowl_iri_unvalidated` from `uhash_put` on, `cowl_iri.c:70-88`, and `anon_ind` without copy,
`cowl_anon_ind.c:63-89`. -/
def pool (m : Alloc) (s : Mem) (ns : Option Nat) (rem : Nat) : Option (Mem × Option Nat) :=
  (s.str.cells rem).bind fun l => (s.str.txt l.raw).bind fun c =>
    if !m.iput then some (s, none)
    else
      (find s ns l.hash c s.tbl).bind fun r =>
        match r with
        | some x => (retainPrim s x).map fun s => (s, some x)
        | none => alloc m s ns rem

/-- `cowl_iri_unvalidated`, `cowl_iri.c:67-89`, for a namespace that is not NULL. -/
def unvalidated (m : Alloc) (s : Mem) (ns rem : Nat) : Option (Mem × Option Nat) :=
  (intern m.put s.str ns).bind fun (t, r) =>
    match r with
    | none => some ({ s with str := t }, none)
    | some n => pool m { s with str := t } (some n) rem

/-- The IRI of two strings, unless one of them could not be made: `cowl_iri.c:135-139`, and
`cowl_iri.c:152-155`. -/
def both (m : Alloc) (s : Mem) : Option Nat → Option Nat → Option (Mem × Option Nat)
  | some n, some r => unvalidated m s n r
  | _, _ => some (s, none)

/-- The end of `cowl_iri`, `cowl_iri.c:135-144`, and of `cowl_iri_from_string`, `cowl_iri.c:152-157`
with `cowl_string.c:136-144`. -/
def finish (m : Alloc) (s : Mem) (r1 r2 : Option Nat) : Option (Mem × Option Nat) :=
  (both m s r1 r2).bind fun (s, x) =>
    (releaseOpt s r1).bind fun s => (releaseOpt s r2).map fun s => (s, x)

/-- `cowl_iri`, `cowl_iri.c:91-145`, for two strings. -/
def iri (h : Str → Nat) (m : Alloc) (s : Mem) (p q : Nat) : Option (Mem × Option Nat) :=
  (textOf s.str p).bind fun c => (textOf s.str q).bind fun d =>
    if nsLength d > 0 then
      let (t, u) := s.str.fresh m.bw (c ++ d.take (nsLength d))
      if u = .null then some ({ s with str := t }, none)
      else
        (string h m.nok t m.na u).bind fun (t, r1) =>
          (opt h m.mw true m.mok t m.ma (.inl (d.drop (nsLength d))) true false).bind fun (t, r2) =>
            finish m { s with str := t } r1 r2
    else if nsLength c < c.length then
      let (t, u) := s.str.fresh m.bw (c.drop (nsLength c) ++ d)
      if u = .null then some ({ s with str := t }, none)
      else
        (opt h m.nw m.nput m.nok t m.na (.inl (c.take (nsLength c))) true true).bind fun (t, r1) =>
          (string h m.mok t m.ma u).bind fun (t, r2) => finish m { s with str := t } r1 r2
    else
      (retain s.str p).bind fun t => (retain t q).bind fun t =>
        finish m { s with str := t } (some p) (some q)

/-- `cowl_iri_from_string`, `cowl_iri.c:147-158`, with `cowl_string_get_ns_rem`,
`cowl_string.c:120-149`. -/
def iriOf (h : Str → Nat) (m : Alloc) (s : Mem) (u : UStr) : Option (Mem × Option Nat) :=
  (s.str.txt u).bind fun c =>
    if c.length + 1 ≤ 1 then some (s, none)
    else
      let n := nsLength c
      (if n < c.length then opt h m.mw true m.mok s.str m.ma (.inl (c.drop n)) true false
        else emptyStr s.str).bind fun (t, r2) =>
        (opt h m.nw m.nput m.nok t m.na (.inl (c.take (if n < c.length then n else c.length))) true true).bind
          fun (t, r1) => finish m { s with str := t } r1 r2

/-- `cowl_string_copy`, `cowl_string.c:109-118`, of a string on the stack with raw string `u` and hash
`hs`. It does not look whether `ustring_dup` has failed. -/
def copyStr (m : Alloc) (s : St) (u : UStr) (hs : Nat) : Option (St × Option Nat) :=
  if !m.mok then some (s, none)
  else (dup m.mw s u).map fun (s, v) => ({ s with cells := set s.cells m.ma (some ⟨1, false, hs, v⟩) }, some m.ma)

/-- `cowl_anon_ind_from_string`, `cowl_anon_ind.c:131-134`, with `anon_ind`,
`cowl_anon_ind.c:63-89`. `anon_ind_alloc` would retain NULL. -/
def anonOf (h : Str → Nat) (m : Alloc) (s : Mem) (u : UStr) : Option (Mem × Option Nat) :=
  (s.str.txt u).bind fun c =>
    if !m.iput then some (s, none)
    else
      (find s none (initCell h u c).hash c s.tbl).bind fun r =>
        match r with
        | some x => (retainPrim s x).map fun s => (s, some x)
        | none =>
          (copyStr m s.str u (initCell h u c).hash).bind fun (t, r) =>
            match r with
            | none => if m.ok then none else some ({ s with str := t }, none)
            | some id =>
              (alloc m { s with str := t } none id).bind fun (s, x) =>
                (releaseOpt s (some id)).map fun s => (s, x)

/-- `anon_ind_generate`, `cowl_anon_ind.c:91-125`. The list has the ids that `generate_id`,
`cowl_anon_ind.c:43-45`, gives, each with the outcome of its allocation; when it is at its end there
is no memory for a further one. -/
def generate (h : Str → Nat) (m : Alloc) (s : Mem) : List (Where × Str) → Option (Mem × Option Nat)
  | [] => some (s, none)
  | (w, c) :: l =>
    let (t, u) := s.str.fresh w c
    if u = .null then some ({ s with str := t }, none)
    else if !m.iput then (deinit t u).map fun t => ({ s with str := t }, none)
    else
      (find { s with str := t } none (initCell h u c).hash c s.tbl).bind fun r =>
        match r with
        | some _ => (deinit t u).bind fun t => generate h m { s with str := t } l
        | none =>
          (string h m.mok t m.ma u).bind fun (t, r) =>
            match r with
            | none => some ({ s with str := t }, none)
            | some id =>
              (alloc m { s with str := t } none id).bind fun (s, x) =>
                (releaseOpt s (some id)).map fun s => (s, x)

/-- `uhset_remove` of an object: the element that is equal to it is taken out. Contract of ulib. -/
def removePrim (s : Mem) (k : PCell) : Option Mem :=
  (s.str.cells k.rem).bind fun l => (s.str.txt l.raw).bind fun c =>
    (find s k.ns l.hash c s.tbl).map fun r =>
      match r with
      | some b => { s with tbl := s.tbl.erase b }
      | none => s

/-- `cowl_iri_free`, `cowl_iri.c:60-65`, and `cowl_anon_ind_free`, `cowl_anon_ind.c:57-61`. -/
def freePrim (s : Mem) (x : Nat) (k : PCell) : Option Mem :=
  (removePrim s k).bind fun s => (releaseOpt s k.ns).bind fun s => (releaseOpt s (some k.rem)).map fun s =>
    { s with prims := s.prims.filter fun p => p.1 ≠ x }

/-- `cowl_release`, `cowl_object.c:171-194`, of an IRI or an anonymous individual. -/
def releasePrim (s : Mem) (x : Nat) : Option Mem :=
  (s.prim x).bind fun k =>
    if k.rc = 0 then none
    else if k.rc - 1 ≠ 0 then some (setRc s x (k.rc - 1))
    else freePrim s x k

/-- Texts of namespace and remainder, or of the id: `cowl_iri_get_ns`, `cowl_iri_get_rem`,
`cowl_iri.c:160-166`, and `cowl_anon_ind_get_id`, `cowl_anon_ind.c:136-138`. -/
def content (s : Mem) (a : Nat) : Option (Option Str × Str) :=
  match s.prim a with
  | none => none
  | some k =>
    match k.ns with
    | none => (textOf s.str k.rem).map fun c => (none, c)
    | some n => (textOf s.str n).bind fun d => (textOf s.str k.rem).map fun c => (some d, c)

/-- After `cowl_string_api_init`, `cowl_iri_api_init`, `cowl_iri.c:38-41`, and
`cowl_anon_ind_api_init`, `cowl_anon_ind.c:34-37`. The vocabulary is left out. -/
def init (h : Str → Nat) (e : Nat) : Mem := ⟨apiInit h e, [], []⟩

/-- The calls of a client. NULL is `none`. -/
inductive Op where
  /-- a call on strings, or what the client does with raw strings of its own -/
  | str (o : SBuf.Op)
  /-- `cowl_iri_unvalidated` -/
  | unval (m : Alloc) (ns : Option Nat) (rem : Nat)
  /-- `cowl_iri` -/
  | iri (m : Alloc) (p q : Option Nat)
  /-- `cowl_iri_from_string` -/
  | iriOf (m : Alloc) (u : UStr)
  /-- `cowl_anon_ind`, with the ids that are generated -/
  | anon (m : Alloc) (id : Option Nat) (ids : List (Where × Str))
  /-- `cowl_anon_ind_from_string` -/
  | anonOf (m : Alloc) (u : UStr)
  | retain (x : Nat)
  | release (x : Nat)

/-- What a call returns. -/
inductive Res where
  | str (r : SBuf.Res)
  | ptr (r : Option Nat)
  | unit

/-- One call: `cowl_iri.c:67-158`, `cowl_anon_ind.c:127-134`. -/
def step (h : Str → Nat) (s : Mem) : Op → Option (Mem × Res)
  | .str o => (SBuf.step h s.str o).map fun (t, r) => ({ s with str := t }, .str r)
  | .unval _ none _ => some (s, .ptr none)
  | .unval m (some n) r => (unvalidated m s n r).map fun (s, x) => (s, .ptr x)
  | .iri m (some p) (some q) => (iri h m s p q).map fun (s, x) => (s, .ptr x)
  | .iri _ _ _ => some (s, .ptr none)
  | .iriOf m u => (iriOf h m s u).map fun (s, x) => (s, .ptr x)
  | .anon m (some id) _ => (pool m s none id).map fun (s, x) => (s, .ptr x)
  | .anon m none ids => (generate h m s ids).map fun (s, x) => (s, .ptr x)
  | .anonOf m u => (anonOf h m s u).map fun (s, x) => (s, .ptr x)
  | .retain x => (retainPrim s x).map fun s => (s, .unit)
  | .release x => (releasePrim s x).map fun s => (s, .unit)

end Cowl.PrimM
