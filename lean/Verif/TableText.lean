import Verif.FuncWrite
import Verif.Vector
/-!
# Writer of the functional syntax: tables

Models `write_table` of `src/formats/functional/writer/cowl_func_writer.c`, which is what `cowl_to_string` and `cowl_write` give for
sets and maps, for example the table of a prefix map.
-/
namespace Cowl.Func

/-- The loop of `write_table`, `cowl_func_writer.c:152-159`; `cur` is `current`, an unsigned 32-bit number. -/
def writeTableLoop (gp : Str → Option Str) (last : Nat) : Nat → List (Ref × Option Ref) → Str
  | _, [] => []
  | cur, e :: es =>
    writeObj gp e.1.obj ++ ((match e.2 with
      | some v => 58 :: writeObj gp v.obj
      | none => []) ++ ((if cur < last then [32] else []) ++ writeTableLoop gp last ((cur + 1) % 4294967296) es))

/-- `write_table`, `cowl_func_writer.c:146-160`; `none` is NULL. The subtraction in `149` is of unsigned 32-bit numbers. -/
def writeTable (gp : Str → Option Str) : Option Table → Str
  | none => []
  | some t => writeTableLoop gp ((t.entries.length + 4294967295) % 4294967296) 0 t.entries

end Cowl.Func
