import Verif.Heap
/-!
# Interned objects when memory is lacking

The constructors of `Verif/Heap.lean` once more, with allocations that may fail. A failing
`uhash_put` is taken to leave the table as it is, and `uhash_delete` of a key that has just been
put to restore it. Addresses of new objects are arguments as before; whether there is memory for
them is told by `Mem`. The pointer returned may be NULL (`none` inside); `none` outside is
undefined behaviour.
-/
namespace Cowl.Heap

/-- Outcomes of the allocations of a call: the buffer for a concatenation; growth of the table of
strings when a string is created, and when the namespace is interned; two strings, text and
object; growth of the table of the object that is created; and the object itself. For
`cowl_anon_ind_from_string` there is also the text of the copy of the string, `dup`. -/
structure Mem where
  buf : Bool
  put1 : Bool
  str1 : Bool
  str2 : Bool
  dup : Bool
  putNs : Bool
  put : Bool
  obj : Bool

/-- No lack of memory. -/
def Mem.full : Mem := ⟨true, true, true, true, true, true, true, true⟩

/-- `cowl_release` of a pointer that may be NULL, `cowl_object.c:172`. -/
def releaseOpt (s : St) : Option Nat → Option St
  | none => some s
  | some a => release s a

/-- `cowl_string_opt(s, COWL_SO_COPY)`, `cowl_string.c:157-185`, with `cowl_string_get`, `24-37`;
also `cowl_string`, `151-155`. If there is no memory for the object the text is freed. -/
def mNewString (ok : Bool) (s : St) (a : Nat) (c : Str) : Option (St × Option Nat) :=
  if c = [] then (retain s s.empty).map fun s => (s, some s.empty)
  else if !ok then some (s, none)
  else some (s.alloc a (.str c false), some a)

/-- `cowl_string_opt(s, COWL_SO_INTERN)`, with `cowl_string_get_intern`, `cowl_string.c:39-63`. -/
def mNewIntern (put ok : Bool) (s : St) (a : Nat) (c : Str) : Option (St × Option Nat) :=
  if c = [] then (retain s s.empty).map fun s => (s, some s.empty)
  else if !put then some (s, none)
  else match s.strT.find? fun b => s.content b == some c with
    | some b => (retain s b).map fun s => (s, some b)
    | none => if !ok then some (s, none)
      else some ({ s.alloc a (.str c true) with strT := a :: s.strT }, some a)

/-- `cowl_string_intern`, `cowl_string.c:90-107`. -/
def mIntern (put : Bool) (s : St) (a : Nat) : Option (St × Option Nat) :=
  match s.cellOf a with
  | some (.str c i) =>
    if i then some (s, some a)
    else if c.length = 0 then some (s, some s.empty)
    else if !put then some (s, none)
    else match s.strT.find? fun b => s.content b == some c with
      | some b => some (s, some b)
      | none => some ({ s.setBit a c with strT := a :: s.strT }, some a)
  | _ => none

/-- `cowl_iri_unvalidated`, `cowl_iri.c:67-89`, with `cowl_iri_alloc`, `47-58`. -/
def mIriUnvalidated (m : Mem) (s : St) (a ns rem : Nat) : Option (St × Option Nat) :=
  match mIntern m.putNs s ns with
  | none => none
  | some (s, none) => some (s, none)
  | some (s, some n) =>
    match s.content rem with
    | none => none
    | some r =>
      if !m.put then some (s, none)
      else match s.iriT.find? (s.iriIs n (some r)) with
        | some b => (retain s b).map fun s => (s, some b)
        | none =>
          if !m.obj then some (s, none)
          else match s.cellOf n with
            | none => none
            | some _ =>
              some ({ ((s.incr n).incr rem).alloc a (.iri n rem) with iriT := a :: s.iriT }, some a)

/-- End of `cowl_iri`, `cowl_iri.c:135-144`, and of `cowl_iri_from_string`, `152-157`, with
`cowl_string.c:136-148`. -/
def mFinish (m : Mem) (s : St) (a : Nat) (x y : Option Nat) : Option (St × Option Nat) :=
  (match x, y with
    | some x, some y => mIriUnvalidated m s a x y
    | _, _ => some (s, none)).bind fun (s, r) =>
    (releaseOpt s x).bind fun s => (releaseOpt s y).map fun s => (s, r)

/-- `cowl_iri`, `cowl_iri.c:91-145`. -/
def mIri (m : Mem) (s : St) (a1 a2 a3 pre suf : Nat) : Option (St × Option Nat) :=
  match s.content pre, s.content suf with
  | some p, some q =>
    let sNs := nsLength q
    if sNs > 0 then
      if !m.buf then some (s, none)
      else
        (mNewString m.str1 s a1 (p ++ q.take sNs)).bind fun (s, x) =>
          (mNewString m.str2 s a2 (q.drop sNs)).bind fun (s, y) => mFinish m s a3 x y
    else
      let pNs := nsLength p
      if pNs < p.length then
        if !m.buf then some (s, none)
        else
          (mNewIntern m.put1 m.str1 s a1 (p.take pNs)).bind fun (s, x) =>
            (mNewString m.str2 s a2 (p.drop pNs ++ q)).bind fun (s, y) => mFinish m s a3 x y
      else
        (retain s pre).bind fun s => (retain s suf).bind fun s => mFinish m s a3 (some pre) (some suf)
  | _, _ => none

/-- `cowl_iri_from_string`, `cowl_iri.c:147-158`, with `cowl_string_get_ns_rem`,
`cowl_string.c:120-149`. -/
def mIriFromStr (m : Mem) (s : St) (a1 a2 a3 : Nat) (c : Str) : Option (St × Option Nat) :=
  if c = [] then some (s, none)
  else
    let n := nsLength c
    (if n < c.length then mNewString m.str1 s a1 (c.drop n) else mNewString m.str1 s a1 []).bind fun (s, y) =>
      (mNewIntern m.put1 m.str2 s a2 (c.take n)).bind fun (s, x) => mFinish m s a3 x y

/-- `cowl_entity_get_impl`, `cowl_entity.c:85-106`, with `cowl_entity_alloc`, `59-77`. -/
def mEntity (m : Mem) (s : St) (a : Nat) (k : EntKind) (i : Nat) : Option (St × Option Nat) :=
  match s.cellOf i with
  | some (.iri _ _) =>
    if !m.put then some (s, none)
    else match s.entT.find? (s.entIs k i) with
      | some b => (retain s b).map fun s => (s, some b)
      | none =>
        if !m.obj then some (s, none)
        else some ({ (s.incr i).alloc a (.ent k i) with entT := a :: s.entT }, some a)
  | _ => none

/-- `cowl_anon_ind` with an id, `cowl_anon_ind.c:127-129`, with `anon_ind`, `63-89`. -/
def mAnonInd (m : Mem) (s : St) (a id : Nat) : Option (St × Option Nat) :=
  match s.content id with
  | none => none
  | some c =>
    if !m.put then some (s, none)
    else match s.anonT.find? (s.anonIs (some c)) with
      | some b => (retain s b).map fun s => (s, some b)
      | none =>
        if !m.obj then some (s, none)
        else some ({ (s.incr id).alloc a (.anon id) with anonT := a :: s.anonT }, some a)

/-- `cowl_anon_ind_from_string`, `cowl_anon_ind.c:131-134`, with `anon_ind`, `63-89`, and
`cowl_string_copy`, `cowl_string.c:109-118`. A copy that cannot be made is NULL, and is retained
all the same if there is memory for the individual. A copy whose text cannot be made has a null
text, which counts as empty here. -/
def mAnonFromString (m : Mem) (s : St) (a1 a : Nat) (c : Str) : Option (St × Option Nat) :=
  if !m.put then some (s, none)
  else match s.anonT.find? (s.anonIs (some c)) with
    | some b => (retain s b).map fun s => (s, some b)
    | none =>
      if !m.str1 then if m.obj then none else some (s, none)
      else
        let s := s.alloc a1 (.str (if m.dup then c else []) false)
        if !m.obj then (release s a1).map fun s => (s, none)
        else
          let s := { (s.incr a1).alloc a (.anon a1) with anonT := a :: s.anonT }
          (release s a1).map fun s => (s, some a)

/-- Loop of `anon_ind_generate`, `cowl_anon_ind.c:91-110`: the first id that is not in use.
`ids` are the results of `generate_id`, `43-45`, each with the outcome of `uhash_put`; at the end
of the list there is no memory. -/
def pickId (s : St) : List (Str × Bool) → Option Str
  | [] => none
  | (c, put) :: ids =>
    if !put then none
    else match s.anonT.find? (s.anonIs (some c)) with
      | some _ => pickId s ids
      | none => some c

/-- `anon_ind_generate`, `cowl_anon_ind.c:91-125`. -/
def mGenerate (m : Mem) (s : St) (a1 a : Nat) (ids : List (Str × Bool)) : Option (St × Option Nat) :=
  match pickId s ids with
  | none => some (s, none)
  | some c =>
    (mNewString m.str1 s a1 c).bind fun (s, x) =>
      match x with
      | none => some (s, none)
      | some x =>
        if !m.obj then (release s x).map fun s => (s, none)
        else
          let s := { (s.incr x).alloc a (.anon x) with anonT := a :: s.anonT }
          (release s x).map fun s => (s, some a)

/-! ## Histories -/

/-- The calls of a client, with the outcomes of their allocations. -/
inductive MOp where
  | call (m : Mem) (op : Op)
  | generate (m : Mem) (a1 a : Nat) (ids : List (Str × Bool))

/-- One call. -/
def mStep (s : St) : MOp → Option (St × Option Nat)
  | .call m (.newString a c) => mNewString m.str1 s a c
  | .call m (.newIntern a c) => mNewIntern m.put1 m.str1 s a c
  | .call m (.intern x) => mIntern m.putNs s x
  | .call m (.iriUnvalidated a n r) => mIriUnvalidated m s a n r
  | .call m (.iri a1 a2 a3 p q) => mIri m s a1 a2 a3 p q
  | .call m (.iriFromStr a1 a2 a3 c) => mIriFromStr m s a1 a2 a3 c
  | .call m (.entity a k i) => mEntity m s a k i
  | .call m (.anonInd a id) => mAnonInd m s a id
  | .call m (.anonFromString a1 a c) => mAnonFromString m s a1 a c
  | .call _ (.retain x) => (retain s x).map fun s => (s, some x)
  | .call _ (.release x) => (release s x).map fun s => (s, some x)
  | .generate m a1 a ids => mGenerate m s a1 a ids

end Cowl.Heap
