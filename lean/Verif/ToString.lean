import Verif.FuncWrite
import Verif.LastErr
/-!
# Objects as text

`cowl_to_string` and its relatives in `src/cowl_object.c`, `src/cowl_iri.c`, `src/cowl_error.c` and
`src/cowl_writer.c`. A function that writes is modelled by the pieces it writes, in order.

Contract of ulib: a stream into a string buffer appends; if there is no memory it notes an error,
appends nothing and does not write any more. There is memory for `cap` bytes. That the buffer is
given back is not modelled.
-/
namespace Cowl.Show

/-- A stream into a string buffer: what is in the buffer, and whether there was no error. -/
structure Out where
  txt : Str
  ok : Bool
deriving DecidableEq

/-- `uostream_write_all` on such a stream. Contract of ulib. -/
def Out.put (cap : Nat) (o : Out) (b : Str) : Out :=
  if o.ok && decide (o.txt.length + b.length ≤ cap) then ⟨o.txt ++ b, true⟩ else ⟨o.txt, false⟩

/-- The pieces are written. -/
def run (cap : Nat) (ws : List Str) : Out := ws.foldl (Out.put cap) ⟨[], true⟩

/-- `cowl_to_string_impl`, `cowl_object.c:280-292`; `buf` tells whether `uostream_to_strbuf`
succeeds. `none` is `ustring_null`. -/
def toStringImpl (buf : Bool) (cap : Nat) (ws : List Str) : Option Str :=
  if !buf then none
  else
    let o := run cap ws
    if o.ok then some o.txt else none

/-- `write_iri`, `cowl_iri.c:172-174`, with `cowl_write_iri`, `cowl_writer.c:181-185`. -/
def iriPieces (i : Iri) : List Str := [i.ns, i.rem]

/-- `cowl_iri_to_string`, `cowl_iri.c:176-178`. -/
def iriToString (buf : Bool) (cap : Nat) (i : Iri) : Option Str := toStringImpl buf cap (iriPieces i)

/-- `cowl_write_object_type`, `cowl_writer.c:192-203`, for a number. -/
def typePieces (n : Nat) : List Str :=
  typeToString n :: if n < OType.all.length then [] else [[40], uintToStr (UInt32.ofNat n), [41]]

/-- `cowl_write_debug`, `cowl_writer.c:169-175`, for an object of type `n` with `rc` references;
`addr` is how `printf` writes its address. -/
def debugPieces (n : Nat) (addr : Str) (rc : UInt32) : List Str :=
  typePieces n ++ [40 :: addr ++ ascii ", rc: ", uintToStr rc, [41]]

/-- `cowl_to_debug_string`, `cowl_object.c:298-300`. -/
def toDebugString (buf : Bool) (cap : Nat) (n : Nat) (addr : Str) (rc : UInt32) : Option Str :=
  toStringImpl buf cap (debugPieces n addr rc)

/-- `cowl_error_to_string`, `cowl_error.c:33-35`; the text of the error in one piece. -/
def errorToString (buf : Bool) (cap : Nat) (name : Ret → Str) (e : LastErr.Err) : Option Str :=
  toStringImpl buf cap [LastErr.writeError name e]

/-- The default writer, `cowl_get_writer`: what it writes for an object, if it can write objects at
all; `none` inside is undefined behaviour. -/
structure Dflt where
  write : Option (Obj → Option (List Str))

/-- `cowl_write`, `cowl_writer.c:163-167`. -/
def cowlWrite (w : Option Dflt) (o : Obj) (addr : Str) (rc : UInt32) : Option (List Str) :=
  match w.bind Dflt.write with
  | some f => f o
  | none => some (debugPieces o.otype.code addr rc)

/-- `cowl_to_string`, `cowl_object.c:294-296`; `none` outside is undefined behaviour. -/
def objToString (buf : Bool) (cap : Nat) (w : Option Dflt) (o : Obj) (addr : Str) (rc : UInt32) : Option (Option Str) :=
  (cowlWrite w o addr rc).map (toStringImpl buf cap)

/-- A default writer for functional syntax, which may write in any pieces (`func_write`,
`cowl_func_writer.c:431-437`). -/
def Functional (gp : Str → Option Str) (d : Dflt) : Prop :=
  ∃ f, d.write = some f ∧ ∀ o, (f o).map List.flatten = Func.funcWrite gp o

end Cowl.Show
