import Verif.Iter
/-!
# Collections and reference counts

Models the iterators that collect objects (`src/cowl_iterator.c`), and constructors, destructors and
additions of `src/cowl_vector.c` and `src/cowl_table.c`, for a client that uses any number of
collections, with requests for memory that may fail. Objects are addresses. `none` is undefined
behaviour.

Simplified:
* Only the counts of the collected objects are told. An object with count 0 is gone; what happens to
  its fields is told by C66.
* The blocks of raw collections are not counted; C67 has those of vectors.
* Removal is left out; C42 has it.
-/
namespace Cowl.Coll

/-- Reference counts, by address. -/
abbrev Rc := Nat → Nat

/-- `cowl_retain`, `cowl_object.c:157-160`, of an object that is not NULL. -/
def retain (rc : Rc) (a : Nat) : Option Rc :=
  if rc a = 0 then none else some fun x => if x = a then rc x + 1 else rc x

/-- `cowl_release`, `cowl_object.c:171-173`, of an object that is not NULL. -/
def release (rc : Rc) (a : Nat) : Option Rc :=
  if rc a = 0 then none else some fun x => if x = a then rc x - 1 else rc x

/-- The loop in `cowl_vector`, `cowl_vector.c:60`, and `for_each_retain`, `cowl_iterator.c:52-55`. -/
def retainAll (rc : Rc) : List Nat → Option Rc
  | [] => some rc
  | a :: l => (retain rc a).bind fun rc => retainAll rc l

/-- The loop of `cowl_vector_free_ex`, `cowl_vector.c:88-92`, and `for_each_release`,
`cowl_iterator.c:57-60`. -/
def releaseAll (rc : Rc) : List Nat → Option Rc
  | [] => some rc
  | a :: l => (release rc a).bind fun rc => releaseAll rc l

/-- What a raw vector or set holds, with the counts. -/
abbrev Store := Rc × List Nat

/-- `for_each_store_vec` and `for_each_store_vec_retain`, `cowl_iterator.c:18-27`; `ok` tells whether
there was memory. -/
def storeVec (keep : Bool) (s : Store) (ok : Bool) (a : Nat) : Option (Store × Ret) :=
  if !ok then some (s, .errMem)
  else if keep then (retain s.1 a).map fun rc => ((rc, s.2 ++ [a]), .ok)
  else some ((s.1, s.2 ++ [a]), .ok)

/-- `for_each_store_set` and `for_each_store_set_retain`, `cowl_iterator.c:29-37`; `eq` is
`cowl_equals`. -/
def storeSet (eq : Nat → Nat → Bool) (keep : Bool) (s : Store) (ok : Bool) (a : Nat) :
    Option (Store × Ret) :=
  if !ok then some (s, .errMem)
  else if s.2.any (eq a) then some (s, .no)
  else if keep then (retain s.1 a).map fun rc => ((rc, s.2 ++ [a]), .ok)
  else some ((s.1, s.2 ++ [a]), .ok)

/-- A function that calls an iterator on objects until it says to stop, e.g. `cowl_vector_iterate`,
`cowl_vector.c:164-171`. `mem` tells which requests for memory succeed; those that nothing is known
about do. -/
def each (f : Store → Bool → Nat → Option (Store × Ret)) :
    List Nat → List Bool → Store → Option (Store × Ret)
  | [], _, s => some (s, .ok)
  | a :: l, mem, s =>
    (f s (mem.headD true) a).bind fun r => if r.2.shouldStop then some r else each f l mem.tail r.1

/-- Entries of a table: keys, and values that may be NULL. -/
abbrev Entries := List (Nat × Option Nat)

/-- The loop in `cowl_table`, `cowl_table.c:50-53`. -/
def retainEntries (rc : Rc) : Entries → Option Rc
  | [] => some rc
  | (k, v) :: l =>
    (retain rc k).bind fun rc =>
      match v with
      | some v => (retain rc v).bind fun rc => retainEntries rc l
      | none => retainEntries rc l

/-- The loop of `cowl_table_free_ex`, `cowl_table.c:60-63`. -/
def releaseEntries (rc : Rc) : Entries → Option Rc
  | [] => some rc
  | (k, v) :: l =>
    (release rc k).bind fun rc =>
      match v with
      | some v => (release rc v).bind fun rc => releaseEntries rc l
      | none => releaseEntries rc l

/-- `cowl_table`, `cowl_table.c:39-56`. If there is no memory, the raw table is deinitialised, also if
it is NULL. -/
def table (rc : Rc) (raw : Option Entries) (ok : Bool) : Option (Rc × Option Entries) :=
  if !ok then
    match raw with
    | some _ => some (rc, none)
    | none => none
  else (retainEntries rc (raw.getD [])).map fun rc => (rc, some (raw.getD []))

/-- `cowl_vector_wrap`, `cowl_vector.c:44-55`; `ok` tells whether there was memory. -/
def wrap (raw : List Nat) (ok : Bool) : Option (List Nat) := if ok then some raw else none

/-- `cowl_vector`, `cowl_vector.c:57-62`. -/
def vector (rc : Rc) (raw : List Nat) (ok : Bool) : Option (Rc × Option (List Nat)) :=
  match wrap raw ok with
  | none => some (rc, none)
  | some v => (retainAll rc v).map fun rc => (rc, some v)

/-- `cowl_vector_add`, `cowl_vector.c:177-182`. -/
def add (rc : Rc) (v : List Nat) (a : Nat) (ok : Bool) : Option (Rc × List Nat × Ret) :=
  if !ok then some (rc, v, .errMem) else (retain rc a).map fun rc => (rc, v ++ [a], .ok)

/-- `cowl_vector_push`, `cowl_vector.c:184-191`. -/
def push (rc : Rc) (v : List Nat) (a : Nat) (ok : Bool) : Option (Rc × List Nat × Ret) :=
  if !ok then (release rc a).map fun rc => (rc, v, .errMem) else some (rc, v ++ [a], .ok)

/-- A raw collection of the client: a vector or a set, with what it holds, and whether the client
collects with `retain` (argument of `cowl_iterator_vec` and `cowl_iterator_set`,
`cowl_iterator.c:62-74`). -/
structure Raw where
  set : Bool
  keep : Bool
  items : List Nat := []

/-- What the client has: counts, the references it holds itself, raw collections, vectors and tables
with their reference counts. (`held` is not stored by the program.) -/
structure St where
  rc : Rc
  held : Nat → Nat
  raws : List Raw := []
  vecs : List (Nat × List Nat) := []
  tabs : List (Nat × Entries) := []

/-- What the client can do. Numbers that are followed by nothing else are positions in the lists. -/
inductive Op where
  /-- `uvec` or `uhset` -/
  | raw (set keep : Bool)
  /-- any function that iterates, with `cowl_iterator_vec` or `cowl_iterator_set` -/
  | collect (i : Nat) (objs : List Nat) (mem : List Bool)
  /-- `cowl_iterator_release` on what the raw collection owns, and `uvec_deinit` or `uhash_deinit` -/
  | drop (i : Nat)
  /-- `cowl_vector` of a raw vector -/
  | vector (i : Nat) (ok : Bool)
  /-- `cowl_vector_wrap` of a raw vector that was collected with `retain` -/
  | wrap (i : Nat) (ok : Bool)
  /-- `cowl_vector_empty` -/
  | vectorEmpty (ok : Bool)
  /-- `cowl_table` of a raw set -/
  | table (i : Nat) (ok : Bool)
  /-- `cowl_table` of a raw table made by the client, or of NULL (`cowl_table_empty`) -/
  | tableOf (raw : Option Entries) (ok : Bool)
  | retain (a : Nat)
  | release (a : Nat)
  | add (i a : Nat) (ok : Bool)
  | push (i a : Nat) (ok : Bool)
  | retainVec (i : Nat)
  /-- `cowl_vector_release_ex`; `cowl_release` if `elements` -/
  | releaseVec (i : Nat) (elements : Bool)
  | retainTab (i : Nat)
  | releaseTab (i : Nat) (elements : Bool)

/-- Objects of a table. -/
def objects (e : Entries) : List Nat := e.flatMap fun x => x.1 :: x.2.toList

/-- References that the client takes over or gives away. -/
def gain (h : Nat → Nat) (l : List Nat) : Nat → Nat := fun a => h a + l.count a
def lose (h : Nat → Nat) (l : List Nat) : Nat → Nat := fun a => h a - l.count a

/-- What a raw collection owns. -/
def Raw.owned (r : Raw) : List Nat := if r.keep then r.items else []

section
variable (eq : Nat → Nat → Bool)

/-- One operation. Positions that do not exist are ignored.
`cowl_vector_release_ex`, `cowl_vector.c:101-105` with `87-95`; `cowl_table_release_ex`,
`cowl_table.c:74-78` with `58-68`. -/
def St.step (s : St) : Op → Option St
  | .raw set keep => some { s with raws := s.raws ++ [{ set, keep }] }
  | .collect i objs mem =>
    match s.raws[i]? with
    | none => some s
    | some r =>
      (each (if r.set then storeSet eq r.keep else storeVec r.keep) objs mem (s.rc, r.items)).map fun x =>
        { s with rc := x.1.1, raws := s.raws.set i { r with items := x.1.2 } }
  | .drop i =>
    match s.raws[i]? with
    | none => some s
    | some r => (releaseAll s.rc r.owned).map fun rc => { s with rc, raws := s.raws.eraseIdx i }
  | .vector i ok =>
    match s.raws[i]? with
    | none => some s
    | some r =>
      (vector s.rc r.items ok).map fun x =>
        match x.2 with
        | none => s
        | some v => { s with rc := x.1, held := gain s.held r.owned, raws := s.raws.eraseIdx i, vecs := s.vecs ++ [(1, v)] }
  | .wrap i ok =>
    match s.raws[i]? with
    | none => some s
    | some r =>
      match wrap r.items ok with
      | none => some s
      | some v => some { s with raws := s.raws.eraseIdx i, vecs := s.vecs ++ [(1, v)] }
  | .vectorEmpty ok =>
    (vector s.rc [] ok).map fun x =>
      match x.2 with
      | none => s
      | some v => { s with rc := x.1, vecs := s.vecs ++ [(1, v)] }
  | .table i ok =>
    match s.raws[i]? with
    | none => some s
    | some r =>
      (table s.rc (some (r.items.map fun a => (a, none))) ok).map fun x =>
        { s with rc := x.1, held := gain s.held r.owned, raws := s.raws.eraseIdx i
                 tabs := s.tabs ++ (x.2.map fun e => (1, e)).toList }
  | .tableOf raw ok =>
    (table s.rc raw ok).map fun x => { s with rc := x.1, tabs := s.tabs ++ (x.2.map fun e => (1, e)).toList }
  | .retain a => (retain s.rc a).map fun rc => { s with rc, held := gain s.held [a] }
  | .release a => (release s.rc a).map fun rc => { s with rc, held := lose s.held [a] }
  | .add i a ok =>
    match s.vecs[i]? with
    | none => some s
    | some v => (add s.rc v.2 a ok).map fun x => { s with rc := x.1, vecs := s.vecs.set i (v.1, x.2.1) }
  | .push i a ok =>
    match s.vecs[i]? with
    | none => some s
    | some v =>
      (push s.rc v.2 a ok).map fun x =>
        { s with rc := x.1, held := lose s.held [a], vecs := s.vecs.set i (v.1, x.2.1) }
  | .retainVec i =>
    match s.vecs[i]? with
    | none => some s
    | some v => some { s with vecs := s.vecs.set i (v.1 + 1, v.2) }
  | .releaseVec i elements =>
    match s.vecs[i]? with
    | none => some s
    | some v =>
      if v.1 ≠ 1 then some { s with vecs := s.vecs.set i (v.1 - 1, v.2) }
      else if elements then (releaseAll s.rc v.2).map fun rc => { s with rc, vecs := s.vecs.eraseIdx i }
      else some { s with held := gain s.held v.2, vecs := s.vecs.eraseIdx i }
  | .retainTab i =>
    match s.tabs[i]? with
    | none => some s
    | some t => some { s with tabs := s.tabs.set i (t.1 + 1, t.2) }
  | .releaseTab i elements =>
    match s.tabs[i]? with
    | none => some s
    | some t =>
      if t.1 ≠ 1 then some { s with tabs := s.tabs.set i (t.1 - 1, t.2) }
      else if elements then (releaseEntries s.rc t.2).map fun rc => { s with rc, tabs := s.tabs.eraseIdx i }
      else some { s with held := gain s.held (objects t.2), tabs := s.tabs.eraseIdx i }

/-- Any number of operations. -/
def St.run : St → List Op → Option St
  | s, [] => some s
  | s, o :: l => (s.step eq o).bind fun s => St.run s l

end

end Cowl.Coll
