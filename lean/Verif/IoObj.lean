import Verif.Iter
/-!
# Readers and writers as objects

Models the constructors of readers and writers, `src/cowl_reader.c`, `src/cowl_writer.c`,
`src/formats`, and how they are released, `src/cowl_object.c`. What they read and write is
modelled elsewhere. Blocks of memory are numbered in the order of allocation.
-/
namespace Cowl.IoObj

/-- Readers and writers that the library offers, and those made by the caller with
`cowl_reader` or `cowl_writer`, whose context belongs to the caller. -/
inductive Kind where
  | readFunc | readPrt | writeFunc | writePrt | custom
  deriving DecidableEq

/-- `CowlReader`, `cowl_reader_private.h`, or `CowlWriter`, `cowl_writer_private.h`: the block
it is in, its context (`none` for NULL) and the reference count. -/
structure Handle where
  kind : Kind
  addr : Nat
  ctx : Option Nat
  refs : Nat
  deriving DecidableEq

/-- Allocated blocks, the number of the next one, readers and writers. -/
structure St where
  live : List Nat
  next : Nat
  objs : List Handle

/-- At the start. -/
def St.start : St := ⟨[], 0, []⟩

/-- `ulib_alloc`; `ok` says whether there is memory. -/
def St.alloc (s : St) (ok : Bool) : Option Nat × St :=
  if ok then (some s.next, { s with live := s.next :: s.live, next := s.next + 1 }) else (none, s)

/-- `ulib_free` of a block; `none` is undefined behaviour. -/
def St.free (s : St) (a : Nat) : Option St := if a ∈ s.live then some { s with live := s.live.erase a } else none

/-- `cowl_reader`, `cowl_reader.c:29-39`, and `cowl_writer`, `cowl_writer.c:40-50`. If there
is no memory, NULL is returned and the context is left as it is. -/
def St.wrap (s : St) (k : Kind) (ctx : Option Nat) (ok : Bool) : St :=
  match s.alloc ok with
  | (none, s) => s
  | (some a, s) => { s with objs := ⟨k, a, ctx, 1⟩ :: s.objs }

/-- `cowl_reader_functional`, `cowl_func_reader.c:54-66`; `cowl_reader_protocowl`,
`cowl_prt_decoder.c:1305-1317`; `cowl_writer_functional`, `cowl_func_writer.c:470-483`;
`cowl_writer_protocowl`, `cowl_prt_encoder.c:897-909`, which goes on without a context. The
tables of the index in the context of the last, `44-50`, count as a part of it. -/
def St.create (s : St) (k : Kind) (ok1 ok2 : Bool) : St :=
  match k with
  | .custom => s.wrap k none ok2
  | .writePrt => let r := s.alloc ok1; r.2.wrap k r.1 ok2
  | _ =>
    match s.alloc ok1 with
    | (none, s) => s
    | (some c, s) => s.wrap k (some c) ok2

/-- `free_error`, `cowl_func_reader.c:49-52` and `cowl_prt_decoder.c:1300-1303`; `func_free`,
`cowl_func_writer.c:465-468`; `free_ctx`, `cowl_prt_encoder.c:892-895`: all of them
dereference the context and free it. -/
def St.freeCtx (s : St) (h : Handle) : Option St :=
  if h.kind = .custom then some s else
  match h.ctx with
  | none => none
  | some c => s.free c

/-- `cowl_retain`, `cowl_object.c:157-160`. -/
def St.retain (s : St) (a : Nat) : Option St :=
  match s.objs.find? fun h => h.addr = a with
  | none => none
  | some _ => some { s with objs := s.objs.map fun h => if h.addr = a then { h with refs := h.refs + 1 } else h }

/-- `cowl_release`, `cowl_object.c:171-194`, with `cowl_reader_free`, `cowl_reader.c:49-52`,
and `cowl_writer_free`, `cowl_writer.c:52-55`. -/
def St.release (s : St) (a : Nat) : Option St :=
  match s.objs.find? fun h => h.addr = a with
  | none => none
  | some h =>
    if h.refs = 1 then
      (s.freeCtx h).bind fun s => (s.free a).map fun s => { s with objs := s.objs.filter fun h => h.addr ≠ a }
    else some { s with objs := s.objs.map fun h => if h.addr = a then { h with refs := h.refs - 1 } else h }

/-- What a caller does: `create` with the results of the two allocations (the first is not
made for `custom`), `retain`, `release`. -/
inductive Op where
  | create (k : Kind) (ok1 ok2 : Bool)
  | retain (a : Nat)
  | release (a : Nat)

/-- One operation; `none` is undefined behaviour. -/
def St.step (s : St) : Op → Option St
  | .create k ok1 ok2 => some (s.create k ok1 ok2)
  | .retain a => s.retain a
  | .release a => s.release a

/-- Several operations. -/
def St.run (s : St) : List Op → Option St
  | [] => some s
  | op :: ops => (s.step op).bind fun s => s.run ops

/-- Operations on existing readers and writers only. -/
def Legal (s : St) : List Op → Prop
  | [] => True
  | op :: ops =>
    (match op with
      | .create .. => True
      | .retain a | .release a => ∃ h ∈ s.objs, h.addr = a) ∧
    ∀ s', s.step op = some s' → Legal s' ops

end Cowl.IoObj
