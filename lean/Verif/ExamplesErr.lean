import Verif.FuncFault
import Verif.FuncIo
import Verif.Change
/-! # The example programs that print an ontology

`examples/src/00_base.c` and `examples/src/01_errors.c` read `example_pizza.owl` and write it to the standard
output; the first handles no errors but one, the second all. The document is a parameter, in functional syntax,
which is also the format of the default reader and writer. Prefix maps and addresses are those of a fresh start.

Simplifications: memory may be lacking for the library, the reader and the ontology; while the document is read there
is enough. The standard error stream does not fail. What the programs leave to the system at their end is not
modelled. -/
namespace Cowl.Examples
open Change Func Prefix

/-- What a program meets: the codes of `cowl_init`, of opening and of closing the file; whether there is memory for a
reader and for an ontology; the results of reading the file; `strerror(errno)` after that, unless `errno` is 0; the number
of bytes that the standard output takes before it fails, if it does. -/
structure World where
  init : Ret := .ok
  reader : Bool := true
  onto : Bool := true
  opened : Ret := .ok
  reads : List (Option Str)
  closed : Ret := .ok
  errno : Option Str := none
  cap : Option Nat := none

/-- What a program does: its output, its error output and whether it ends with success. -/
structure Shown where
  out : Str
  err : Str
  success : Bool
deriving DecidableEq

/-- The bytes of a text that the standard output takes, and whether it fails. -/
def World.print (w : World) (t : Str) : Str × Bool :=
  match w.cap with
  | none => (t, true)
  | some n => (t.take n, decide (t.length ≤ n))

/-- `cowl_reader_read_ontology_from_path`, `cowl_reader.c:64-104`, with `func_read`, `cowl_func_reader.c:28-43`, for a
reader that has not been used before: the ontology, or the code and what `cowl_reader_last_error` gives then. `none` is
undefined behaviour. -/
def load (w : World) (dflt : Fwd) : Option (OntoSt ⊕ Ret × LastErr.Err) :=
  if !w.onto then some (.inr (.errMem, ⟨.ok, 0, 0, 0, []⟩))
  else if w.opened.isErr then some (.inr (w.opened, ⟨.ok, 0, 0, 0, []⟩))
  else
    let m := create [0, 1, 2, 3] dflt
    let text := FuncIo.input w.reads
    match run (St.init m 20) (lex text), docError m 20 text with
    | .ub, _ => none
    | _, some e => some (.inr (e.code, e))
    | _, none =>
      if w.closed.isErr then some (.inr (w.closed, ⟨.ok, 0, 0, 0, []⟩))
      else some (.inl (funcRead ontoHandler m 20 text (OntoSt.new [0, 1, 2, 3] dflt, 100)).1.1)

/-- `log_error`, `examples/src/01_errors.c:20-22`, as the end of `main`. -/
def logError (out msg : Str) : Shown := ⟨out, ascii "Error: " ++ msg ++ [10], false⟩

/-- The report of a document that was not read, `examples/src/01_errors.c:57-70`, with `log_cowl_error`, `24-32`. `name` is
`ulib_ret_to_string`. -/
def report (name : Ret → Str) (w : World) (r : Ret) (e : LastErr.Err) : Shown :=
  if r = .errIo then logError [] (w.errno.getD (ascii "unknown I/O error"))
  else if r = .errSyntax then logError [] (LastErr.writeError name e)
  else logError [] (ascii "ontology read failure")

/-- What follows the reading, `examples/src/01_errors.c:57-82`. -/
def afterLoad (name : Ret → Str) (w : World) : OntoSt ⊕ Ret × LastErr.Err → Option Shown
  | .inr (r, e) => some (report name w r e)
  | .inl o => (writeDoc o).map fun t =>
    if (w.print t).2 then ⟨(w.print t).1, [], true⟩ else logError (w.print t).1 (ascii "ontology write failure")

/-- `main`, `examples/src/01_errors.c:34-82`. -/
def errorsMain (name : Ret → Str) (w : World) (dflt : Fwd) : Option Shown :=
  if w.init.isErr then some (logError [] (ascii "API initialization failure"))
  else if !w.reader then some (logError [] (ascii "allocation failure"))
  else (load w dflt).bind (afterLoad name w)

/-- What follows the reading, `examples/src/00_base.c:27-40`. -/
def afterBase (w : World) : OntoSt ⊕ Ret × LastErr.Err → Option Shown
  | .inr _ => some ⟨[], ascii "Failed to load ontology example_pizza.owl\n", false⟩
  | .inl o => (writeDoc o).map fun t => ⟨(w.print t).1, [], true⟩

/-- `main`, `examples/src/00_base.c:20-41`, if `cowl_init` succeeds. -/
def baseMain (w : World) (dflt : Fwd) : Option Shown := (load w dflt).bind (afterBase w)

end Cowl.Examples
