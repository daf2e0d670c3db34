import Verif.FuncDoc
/-!
# The reader interface

Models `src/cowl_reader.c`. An implementation of a reader is a function from the state of
the handler to the new state and a code.
-/
namespace Cowl.Reader
open Cowl.Change Cowl.Func

/-- `read_deinit`, `cowl_reader.c:58-62`; `cret` is the code of the reader, `uret` that of
closing the stream. -/
def readDeinit (cret uret : Ret) : Ret := if cret.isErr then cret else uret

/-- `cowl_reader_read_path`, `cowl_reader.c:64-68`; `oret` is the code of opening the
stream. The reader is called unless that is an error (`ulib_is_ok`, taken to be the negation
of `ulib_is_err` as for the codes of Cowl, `include/cowl_ret.h:93-97`). -/
def readPath {σ : Type} (read : σ → σ × Ret) (oret uret : Ret) (s : σ) : σ × Ret :=
  if oret.isErr then (s, oret)
  else let r := read s; (r.1, readDeinit r.2 uret)

/-- `cowl_reader_read_ontology`, `cowl_reader.c:70-86`, and
`cowl_reader_read_ontology_from_path`, `88-104`, which differ in the function that is
called; `onto` is the result of `cowl_ontology`. The ontology is released if it is not
returned. -/
def readOntology {σ : Type} (read : σ → σ × Ret) (onto : Option σ) : Option σ × Ret :=
  match onto with
  | none => (none, .errMem)
  | some s =>
    let r := read s
    if r.2.isErr then (none, r.2) else (some r.1, r.2)

/-- Code of `func_read`, `cowl_func_reader.c:28-43`. Text that is rejected is a syntax
error; the one exception, `COWL_ERR_MEM` for `<>` as an IRI (`cowl_functional.y:279`), is
not distinguished. -/
def code : Outcome → Ret
  | .ok => .ok
  | .refused r => r
  | .rejected => .errSyntax

/-- `func_read` as the implementation of a reader. -/
def funcReader {σ : Type} (h : Callback σ Item) (m : Prefix.PMap) (addr : Nat) (text : Str) (s : σ) : σ × Ret :=
  let r := funcRead h m addr text s
  (r.1, code r.2)

end Cowl.Reader
