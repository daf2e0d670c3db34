import Verif.Xml
/-!
# Strings and the memory of their texts

`cowl_string.c` with the buffers of raw strings and with allocations that may fail. In
`Verif/Heap.lean` a string simply has a text; here it has a raw string, whose buffer is memory of
its own that is passed from and to the client. `none` outside is undefined behaviour: use of an
object or buffer that is not there, or freeing it twice.

Simplifications: memory is a partial map from addresses, and addresses of new objects and buffers
are arguments; reference counts do not overflow; a table compares the key with all its elements,
which reads more memory than a hash table does. The hash `h` of texts is arbitrary.
-/
namespace Cowl.SBuf

/-- `f` with another value at `a`. -/
def set {α : Type} (f : Nat → α) (a : Nat) (v : α) : Nat → α := fun b => if b = a then v else f b

/-- A `UString`: `ustring_null`; one that owns no memory, as literals, views and strings that are
short enough to be stored in place; or one that owns the buffer `b`. Contract of ulib. -/
inductive UStr where
  | null
  | inl (c : Str)
  | buf (b : Nat)
deriving DecidableEq

/-- `struct CowlString`, `cowl_string_private.h:20-24`: count and bit of the object, hash and raw
string. -/
structure Cell where
  rc : Nat
  bit : Bool
  hash : Nat
  raw : UStr

/-- The memory, with `inst_tbl` and `empty`, `cowl_string.c:21-22`. -/
structure St where
  cells : Nat → Option Cell
  bufs : Nat → Option Str
  tbl : List Nat
  empty : Nat

/-- Text of a raw string; that of `ustring_null` has no characters. Contract of ulib. -/
def St.txt (s : St) : UStr → Option Str
  | .null => some []
  | .inl c => some c
  | .buf b => s.bufs b

/-- Outcome of the allocation of a text: failure, in place, or a buffer. -/
inductive Where where
  | no
  | inl
  | at' (b : Nat)
deriving DecidableEq

/-- A new raw string with the text `c`. Contract of `ustring_dup`, `ustring_concat` and
`ustring_with_format_list`. -/
def St.fresh (s : St) (w : Where) (c : Str) : St × UStr :=
  match w with
  | .no => (s, .null)
  | .inl => (s, .inl c)
  | .at' b => ({ s with bufs := set s.bufs b (some c) }, .buf b)

/-- `ustring_dup`. Contract of ulib. -/
def dup (w : Where) (s : St) (u : UStr) : Option (St × UStr) := (s.txt u).map (s.fresh w)

/-- `ustring_deinit`. Contract of ulib. -/
def deinit (s : St) : UStr → Option St
  | .buf b => (s.bufs b).map fun _ => { s with bufs := set s.bufs b none }
  | _ => some s

/-- Lookup in the table, with `cowl_string_equals`, `cowl_string.c:227-229`: hashes are compared
first, then texts. -/
def St.find (s : St) (hs : Nat) (c : Str) : List Nat → Option (Option Nat)
  | [] => some none
  | b :: bs =>
    match s.cells b with
    | none => none
    | some k =>
      if k.hash = hs then
        match s.txt k.raw with
        | none => none
        | some d => if d = c then some (some b) else s.find hs c bs
      else s.find hs c bs

/-- `cowl_string_init`, `cowl_string.c:82-88`. -/
def initCell (h : Str → Nat) (u : UStr) (c : Str) : Cell :=
  ⟨1, false, if u = .null then 0 else h c, u⟩

/-- `cowl_string_get`, `cowl_string.c:24-37`. The new object would be at `a`, if there is memory
(`ok`). -/
def get (h : Str → Nat) (w : Where) (ok : Bool) (s : St) (a : Nat) (u : UStr) (copy : Bool) :
    Option (St × Option Nat) :=
  (if copy then dup w s u else some (s, u)).bind fun (s, u) =>
    if copy ∧ u = .null then some (s, none)
    else if ok then
      (s.txt u).map fun c => ({ s with cells := set s.cells a (some (initCell h u c)) }, some a)
    else (deinit s u).map fun s => (s, none)

/-- `cowl_retain`, `cowl_object.c:157-160`. -/
def retain (s : St) (a : Nat) : Option St :=
  (s.cells a).map fun k => { s with cells := set s.cells a (some { k with rc := k.rc + 1 }) }

/-- `cowl_string_get_intern`, `cowl_string.c:39-63`. -/
def getIntern (h : Str → Nat) (w : Where) (put ok : Bool) (s : St) (a : Nat) (u : UStr) (copy : Bool) :
    Option (St × Option Nat) :=
  (s.txt u).bind fun c =>
    if !put then (if copy then some s else deinit s u).map fun s => (s, none)
    else
      (s.find (initCell h u c).hash c s.tbl).bind fun r =>
        match r with
        | some b =>
          (retain s b).bind fun s => (if copy then some s else deinit s u).map fun s => (s, some b)
        | none =>
          (get h w ok s a u copy).bind fun (s, r) =>
            match r with
            | none => some (s, none)
            | some x =>
              (s.cells x).map fun k =>
                ({ s with cells := set s.cells x (some { k with bit := true }), tbl := x :: s.tbl }, some x)

/-- `cowl_string_empty`, `cowl_string.c:183-185`. -/
def emptyStr (s : St) : Option (St × Option Nat) := (retain s s.empty).map fun s => (s, some s.empty)

/-- `cowl_string`, `cowl_string.c:151-155`. -/
def string (h : Str → Nat) (ok : Bool) (s : St) (a : Nat) (u : UStr) : Option (St × Option Nat) :=
  if u = .null then some (s, none)
  else (s.txt u).bind fun c =>
    if c = [] then emptyStr s
    else get h .no ok s a u false

/-- `cowl_string_opt`, `cowl_string.c:157-181`. -/
def opt (h : Str → Nat) (w : Where) (put ok : Bool) (s : St) (a : Nat) (u : UStr) (copy int : Bool) :
    Option (St × Option Nat) :=
  if u = .null then (if copy then some s else deinit s u).map fun s => (s, none)
  else (s.txt u).bind fun c =>
    if c = [] then
      (emptyStr s).bind fun (s, r) => (if copy then some s else deinit s u).map fun s => (s, r)
    else if int then getIntern h w put ok s a u copy
    else get h w ok s a u copy

/-- `cowl_string_intern`, `cowl_string.c:90-107`, for an object. -/
def intern (put : Bool) (s : St) (a : Nat) : Option (St × Option Nat) :=
  (s.cells a).bind fun k =>
    if k.bit then some (s, some a)
    else (s.txt k.raw).bind fun c =>
      if c.length = 0 then some (s, some s.empty)
      else if !put then some (s, none)
      else (s.find k.hash c s.tbl).map fun r =>
        match r with
        | some b => (s, some b)
        | none => ({ s with cells := set s.cells a (some { k with bit := true }), tbl := a :: s.tbl }, some a)

/-- `uhset_remove` of a string: the element that is equal to it is taken out. Contract of ulib. -/
def remove (s : St) (a : Nat) : Option St :=
  (s.cells a).bind fun k => (s.txt k.raw).bind fun c =>
    (s.find k.hash c s.tbl).map fun r =>
      match r with
      | some b => { s with tbl := s.tbl.erase b }
      | none => s

/-- `cowl_string_free`, `cowl_string.c:187-192`. -/
def free (s : St) (a : Nat) : Option St :=
  (s.cells a).bind fun k =>
    (if k.bit then remove s a else some s).bind fun s =>
      (deinit s k.raw).map fun s => { s with cells := set s.cells a none }

/-- `cowl_decr_ref`, `cowl_object_private.h:47-51`. -/
def decr (s : St) (a : Nat) : Option (St × Nat) :=
  (s.cells a).bind fun k =>
    if k.rc = 0 then none
    else some ({ s with cells := set s.cells a (some { k with rc := k.rc - 1 }) }, k.rc - 1)

/-- `cowl_release` of a string, `cowl_object.c:171-176`. -/
def release (s : St) (a : Nat) : Option St :=
  (decr s a).bind fun (s, n) => if n ≠ 0 then some s else free s a

/-- `cowl_string_release_copying_raw`, `cowl_string.c:199-213`, for an object. -/
def releaseRaw (w : Where) (s : St) (a : Nat) : Option (St × UStr) :=
  (decr s a).bind fun (s, n) =>
    (s.cells a).bind fun k =>
      if n ≠ 0 then dup w s k.raw
      else
        (free { s with cells := set s.cells a (some { k with raw := .null }) } a).map fun s => (s, k.raw)

/-- `cowl_string_concat`, `cowl_string.c:243-247`. -/
def concat (h : Str → Nat) (w : Where) (ok : Bool) (s : St) (a x y : Nat) : Option (St × Option Nat) :=
  (s.cells x).bind fun k => (s.cells y).bind fun l =>
    (s.txt k.raw).bind fun c => (s.txt l.raw).bind fun d =>
      let (s, u) := s.fresh w (c ++ d)
      string h ok s a u

/-- `cowl_string_with_format`, `cowl_string.c:235-241`; `c` is the formatted text. -/
def withFormat (h : Str → Nat) (w : Where) (ok : Bool) (s : St) (a : Nat) (c : Str) :
    Option (St × Option Nat) :=
  let (s, u) := s.fresh w c
  string h ok s a u

/-- `cowl_string_api_init`, `cowl_string.c:65-74`, if there is memory: the empty string at `e`. -/
def apiInit (h : Str → Nat) (e : Nat) : St :=
  { cells := set (fun _ => none) e (some (initCell h (.inl []) [])), bufs := fun _ => none, tbl := [], empty := e }

/-- `cowl_string_api_deinit`, `cowl_string.c:76-80`. -/
def apiDeinit (s : St) : Option St := (release s s.empty).map fun s => { s with tbl := [] }

/-! ## Histories -/

/-- The calls of a client, and what it does with raw strings of its own. -/
inductive Op where
  /-- the client creates a raw string with a buffer -/
  | make (b : Nat) (c : Str)
  /-- the client frees the buffer of a raw string -/
  | drop (b : Nat)
  | opt (w : Where) (put ok : Bool) (a : Nat) (u : UStr) (copy int : Bool)
  | string (ok : Bool) (a : Nat) (u : UStr)
  | empty
  | intern (put : Bool) (x : Nat)
  | concat (w : Where) (ok : Bool) (a x y : Nat)
  | withFormat (w : Where) (ok : Bool) (a : Nat) (c : Str)
  | retain (x : Nat)
  | release (x : Nat)
  | releaseRaw (w : Where) (x : Nat)

/-- What a call returns: nothing, a pointer that may be NULL, or a raw string. -/
inductive Res where
  | unit
  | ptr (r : Option Nat)
  | raw (u : UStr)

/-- One call. -/
def step (h : Str → Nat) (s : St) : Op → Option (St × Res)
  | .make b c => some ({ s with bufs := set s.bufs b (some c) }, .unit)
  | .drop b => (deinit s (.buf b)).map fun s => (s, .unit)
  | .opt w put ok a u copy int => (opt h w put ok s a u copy int).map fun (s, r) => (s, .ptr r)
  | .string ok a u => (string h ok s a u).map fun (s, r) => (s, .ptr r)
  | .empty => (emptyStr s).map fun (s, r) => (s, .ptr r)
  | .intern put x => (intern put s x).map fun (s, r) => (s, .ptr r)
  | .concat w ok a x y => (concat h w ok s a x y).map fun (s, r) => (s, .ptr r)
  | .withFormat w ok a c => (withFormat h w ok s a c).map fun (s, r) => (s, .ptr r)
  | .retain x => (retain s x).map fun s => (s, .ptr (some x))
  | .release x => (release s x).map fun s => (s, .unit)
  | .releaseRaw w x => (releaseRaw w s x).map fun (s, u) => (s, .raw u)

end Cowl.SBuf
