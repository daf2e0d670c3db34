import Verif.Obj
/-!
# Interned objects

Models the instance tables of `src/cowl_string.c`, `src/cowl_iri.c`,
`src/cowl_entity.c` and `src/cowl_anon_ind.c` over a heap of reference-counted
objects. Memory addresses are numbers; the address of a new object is chosen by the
environment (any address that is not in use, so also one that was freed before).

`none` stands for undefined behaviour (an access to a freed object or to one of
the wrong type). Reference counts are unbounded (their overflow is C01); allocation
failure is not modelled; `COWL_ENTITY_IDS` is off.

`ext` is a ghost: the number of references the client (or a C function that is
running) owns per object. No function reads it.
-/
namespace Cowl.Heap

/-- What an address holds. Fields are addresses. -/
inductive Cell where
  | str (content : Str) (interned : Bool)
  | iri (ns rem : Nat)
  | ent (k : EntKind) (iri : Nat)
  | anon (id : Nat)
  deriving DecidableEq

/-- The references a cell owns. -/
def Cell.fields : Cell → List Nat
  | .str _ _ => []
  | .iri n r => [n, r]
  | .ent _ i => [i]
  | .anon i => [i]

/-- Heap, counters, the four instance tables, the shared empty string. -/
structure St where
  cells : List (Nat × Cell)
  rc : Nat → Nat
  ext : Nat → Nat
  strT : List Nat
  iriT : List Nat
  entT : List Nat
  anonT : List Nat
  empty : Nat

/-- Function update (no C counterpart). -/
def upd (f : Nat → Nat) (a v : Nat) : Nat → Nat := fun b => if b = a then v else f b

/-- Reading memory. -/
def St.cellOf (s : St) (a : Nat) : Option Cell := s.cells.lookup a

/-- Text of a string object. -/
def St.content (s : St) (a : Nat) : Option Str :=
  match s.cellOf a with
  | some (.str c _) => some c
  | _ => none

/-- `cowl_string_api_init`, `cowl_string.c:65-69`, and the other three
(`cowl_iri.c:38-41`, `cowl_entity.c:41-47`, `cowl_anon_ind.c:34-37`). -/
def init (e : Nat) : St :=
  { cells := [(e, .str [] false)], rc := upd (fun _ => 0) e 1, ext := fun _ => 0,
    strT := [], iriT := [], entT := [], anonT := [], empty := e }

/-! ## Retain, allocate -/

/-- Increment of the counter, `cowl_object_private.h:43-45`. -/
def St.incr (s : St) (a : Nat) : St := { s with rc := upd s.rc a (s.rc a + 1) }

/-- `cowl_retain`, `cowl_object.c:157-160`; the caller owns the new reference. -/
def retain (s : St) (a : Nat) : Option St :=
  match s.cellOf a with
  | none => none
  | some _ => some { s.incr a with ext := upd s.ext a (s.ext a + 1) }

/-- `ulib_alloc` and initialisation with one reference, owned by the caller. -/
def St.alloc (s : St) (a : Nat) (c : Cell) : St :=
  { s with cells := (a, c) :: s.cells, rc := upd s.rc a 1, ext := upd s.ext a (s.ext a + 1) }

/-! ## Release -/

/-- `ulib_free`. -/
def St.drop (s : St) (a : Nat) : St := { s with cells := s.cells.filter fun p => p.1 != a }

/-- `cowl_decr_ref`, `cowl_object_private.h:48-51`: the caller gives up a reference. -/
def St.decr (s : St) (a : Nat) : St :=
  { s with rc := upd s.rc a (s.rc a - 1), ext := upd s.ext a (s.ext a - 1) }

/-- The running destructor takes over a reference of the object it destroys (ghost). -/
def St.own (s : St) (a : Nat) : St := { s with ext := upd s.ext a (s.ext a + 1) }

/-- `cowl_release` on a string, with `cowl_string_free`, `cowl_string.c:187-192`. -/
def releaseStr (s : St) (a : Nat) : Option St :=
  match s.cellOf a with
  | some (.str c i) =>
    let s := s.decr a
    if s.rc a ≠ 0 then some s else
    let s := if i then { s with strT := s.strT.eraseP fun b => s.content b == some c } else s
    some (s.drop a)
  | _ => none

/-- The equality of the table of IRIs, `inst_tbl_eq`, `cowl_iri.c:33-36`: same
namespace object, equal remainder. -/
def St.iriIs (s : St) (n : Nat) (rem : Option Str) (b : Nat) : Bool :=
  match s.cellOf b with
  | some (.iri n' r') => n' == n && s.content r' == rem
  | _ => false

/-- `cowl_release` on an IRI, with `cowl_iri_free`, `cowl_iri.c:60-65`. The memory
is given back here before the fields are released, in C after; nothing reads it in
between. -/
def releaseIri (s : St) (a : Nat) : Option St :=
  match s.cellOf a with
  | some (.iri n r) =>
    let s := s.decr a
    if s.rc a ≠ 0 then some s else
    let s := { s with iriT := s.iriT.eraseP (s.iriIs n (s.content r)) }
    let s := ((s.drop a).own n).own r
    (releaseStr s n).bind fun s => releaseStr s r
  | _ => none

/-- `inst_tbl_eq`, `cowl_entity.c:36-39`. -/
def St.entIs (s : St) (k : EntKind) (i b : Nat) : Bool :=
  match s.cellOf b with
  | some (.ent k' i') => i' == i && k' == k
  | _ => false

/-- `inst_tbl_eq`, `cowl_anon_ind.c:30-32`. -/
def St.anonIs (s : St) (id : Option Str) (b : Nat) : Bool :=
  match s.cellOf b with
  | some (.anon i') => s.content i' == id
  | _ => false

/-- `cowl_release`, `cowl_object.c:171-194`, with `cowl_entity_free`,
`cowl_entity.c:79-83`, and `cowl_anon_ind_free`, `cowl_anon_ind.c:57-61`. -/
def release (s : St) (a : Nat) : Option St :=
  match s.cellOf a with
  | none => none
  | some (.str _ _) => releaseStr s a
  | some (.iri _ _) => releaseIri s a
  | some (.ent k i) =>
    let s := s.decr a
    if s.rc a ≠ 0 then some s else
    let s := { s with entT := s.entT.eraseP (s.entIs k i) }
    releaseIri ((s.drop a).own i) i
  | some (.anon id) =>
    let s := s.decr a
    if s.rc a ≠ 0 then some s else
    let s := { s with anonT := s.anonT.eraseP (s.anonIs (s.content id)) }
    releaseStr ((s.drop a).own id) id

/-! ## Constructors

Each takes the address `a` that a new object would get, and returns the object. -/

/-- `cowl_string_opt(s, COWL_SO_COPY)`, `cowl_string.c:157-185`: empty strings are
the shared one. Also `cowl_string`, `cowl_string.c:151-155`. -/
def newString (s : St) (a : Nat) (c : Str) : Option (St × Nat) :=
  if c = [] then (retain s s.empty).map fun s => (s, s.empty)
  else some (s.alloc a (.str c false), a)

/-- `cowl_string_opt(s, COWL_SO_INTERN)`, `cowl_string.c:157-185`, with
`cowl_string_get_intern`, `39-63`. -/
def newIntern (s : St) (a : Nat) (c : Str) : Option (St × Nat) :=
  if c = [] then (retain s s.empty).map fun s => (s, s.empty)
  else match s.strT.find? fun b => s.content b == some c with
    | some b => (retain s b).map fun s => (s, b)
    | none => some ({ s.alloc a (.str c true) with strT := a :: s.strT }, a)

/-- `cowl_set_bit` on a string. -/
def St.setBit (s : St) (a : Nat) (c : Str) : St :=
  { s with cells := s.cells.map fun p => if p.1 = a then (a, .str c true) else p }

/-- `cowl_string_intern`, `cowl_string.c:90-107`: the result is not retained. -/
def intern (s : St) (a : Nat) : Option (St × Nat) :=
  match s.cellOf a with
  | some (.str c i) =>
    if i then some (s, a)
    else if c.length = 0 then some (s, s.empty)
    else match s.strT.find? fun b => s.content b == some c with
      | some b => some (s, b)
      | none => some ({ s.setBit a c with strT := a :: s.strT }, a)
  | _ => none

/-- `cowl_iri_unvalidated`, `cowl_iri.c:67-89`, with `cowl_iri_alloc`, `47-58`. -/
def iriUnvalidated (s : St) (a ns rem : Nat) : Option (St × Nat) :=
  (intern s ns).bind fun (s, n) =>
    match s.content rem with
    | none => none
    | some r =>
      match s.iriT.find? (s.iriIs n (some r)) with
      | some b => (retain s b).map fun s => (s, b)
      | none =>
        match s.cellOf n with
        | none => none
        | some _ => some ({ ((s.incr n).incr rem).alloc a (.iri n rem) with iriT := a :: s.iriT }, a)

/-- `cowl_entity_get_impl`, `cowl_entity.c:85-106`, with `cowl_entity_alloc`, `59-77`. -/
def entity (s : St) (a : Nat) (k : EntKind) (i : Nat) : Option (St × Nat) :=
  match s.cellOf i with
  | some (.iri _ _) =>
    match s.entT.find? (s.entIs k i) with
    | some b => (retain s b).map fun s => (s, b)
    | none => some ({ (s.incr i).alloc a (.ent k i) with entT := a :: s.entT }, a)
  | _ => none

/-- `cowl_anon_ind`, `cowl_anon_ind.c:127-129`, with `anon_ind`, `63-89`, and
`anon_ind_alloc`, `47-55`, for a given id. -/
def anonInd (s : St) (a id : Nat) : Option (St × Nat) :=
  match s.content id with
  | none => none
  | some c =>
    match s.anonT.find? (s.anonIs (some c)) with
    | some b => (retain s b).map fun s => (s, b)
    | none => some ({ (s.incr id).alloc a (.anon id) with anonT := a :: s.anonT }, a)

/-- `cowl_anon_ind_from_string`, `cowl_anon_ind.c:131-134`, with `anon_ind`, `63-89`:
`a1` is the address for the copy of the id, made also for an empty id
(`cowl_string_copy`, `cowl_string.c:109-118`). -/
def anonFromString (s : St) (a1 a : Nat) (c : Str) : Option (St × Nat) :=
  match s.anonT.find? (s.anonIs (some c)) with
  | some b => (retain s b).map fun s => (s, b)
  | none =>
    let s := s.alloc a1 (.str c false)
    let s := { (s.incr a1).alloc a (.anon a1) with anonT := a :: s.anonT }
    (release s a1).map fun s => (s, a)

/-- `cowl_iri`, `cowl_iri.c:91-145`; `a1`, `a2`, `a3` are addresses for new objects. -/
def iri (s : St) (a1 a2 a3 pre suf : Nat) : Option (St × Nat) :=
  match s.content pre, s.content suf with
  | some p, some q =>
    let sNs := nsLength q
    let args : Option (St × Nat × Nat) :=
      if sNs > 0 then
        (newString s a1 (p ++ q.take sNs)).bind fun (s, x) =>
          (newString s a2 (q.drop sNs)).map fun (s, y) => (s, x, y)
      else
        let pNs := nsLength p
        if pNs < p.length then
          (newIntern s a1 (p.take pNs)).bind fun (s, x) =>
            (newString s a2 (p.drop pNs ++ q)).map fun (s, y) => (s, x, y)
        else
          (retain s pre).bind fun s => (retain s suf).map fun s => (s, pre, suf)
    args.bind fun (s, x, y) =>
      (iriUnvalidated s a3 x y).bind fun (s, r) =>
        (release s x).bind fun s => (release s y).map fun s => (s, r)
  | _, _ => none

/-- `cowl_iri_from_string`, `cowl_iri.c:147-158`, with `cowl_string_get_ns_rem`,
`cowl_string.c:120-149`; for a non-empty string. -/
def iriFromStr (s : St) (a1 a2 a3 : Nat) (c : Str) : Option (St × Nat) :=
  let n := nsLength c
  (if n < c.length then newString s a1 (c.drop n) else newString s a1 []).bind fun (s, y) =>
    (newIntern s a2 (c.take n)).bind fun (s, x) =>
      (iriUnvalidated s a3 x y).bind fun (s, r) =>
        (release s x).bind fun s => (release s y).map fun s => (s, r)

/-- `cowl_entity_get_iri`, `cowl_entity.c:131-133`. -/
def entityGetIri (s : St) (a : Nat) : Option Nat :=
  match s.cellOf a with
  | some (.ent _ i) => some i
  | _ => none

/-! ## Histories -/

/-- The operations of a client. -/
inductive Op where
  | newString (a : Nat) (c : Str)
  | newIntern (a : Nat) (c : Str)
  | intern (x : Nat)
  | iriUnvalidated (a ns rem : Nat)
  | iri (a1 a2 a3 pre suf : Nat)
  | iriFromStr (a1 a2 a3 : Nat) (c : Str)
  | entity (a : Nat) (k : EntKind) (i : Nat)
  | anonInd (a id : Nat)
  | anonFromString (a1 a : Nat) (c : Str)
  | retain (x : Nat)
  | release (x : Nat)

/-- One operation. -/
def step (s : St) : Op → Option (St × Nat)
  | .newString a c => newString s a c
  | .newIntern a c => newIntern s a c
  | .intern x => intern s x
  | .iriUnvalidated a n r => iriUnvalidated s a n r
  | .iri a1 a2 a3 p q => iri s a1 a2 a3 p q
  | .iriFromStr a1 a2 a3 c => iriFromStr s a1 a2 a3 c
  | .entity a k i => entity s a k i
  | .anonInd a id => anonInd s a id
  | .anonFromString a1 a c => anonFromString s a1 a c
  | .retain x => (retain s x).map fun s => (s, x)
  | .release x => (release s x).map fun s => (s, x)

end Cowl.Heap
