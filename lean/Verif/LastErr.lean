import Verif.Reader
import Verif.UintText
/-!
# Errors of readers

Models `src/cowl_error.c`, `cowl_write_error` of `src/cowl_writer.c`, and how the readers keep
the error of their last read. A missing message is empty (`cowl_error_has_message` does not
tell them apart).
-/
namespace Cowl.LastErr
open Change Func

/-- `CowlError`, `include/cowl_error.h:22-39`. -/
structure Err where
  code : Ret
  byte : UInt32
  line : UInt32
  col : UInt32
  msg : Str
  deriving DecidableEq

/-- `cowl_error`, `cowl_error.c:16-27`; the message is already formatted. -/
def Err.mk' (code : Ret) (msg : Str) : Err := ⟨code, 0, 0, 0, msg⟩

/-! ## ProtocOWL -/

/-- What the ProtocOWL decoder does while it reads, as far as errors are concerned: a call of
`decoder_handle_error` with a code (any code, also that of an accepted change) and a
message; or the stream gets a state. -/
inductive Act where
  | report (r : Ret) (msg : Str)
  | stream (r : Ret)

/-- `decoder_handle_error`, `cowl_prt_decoder.c:63-69`, with `decoder_set_error`, `58-61`. -/
def Err.handle (e : Err) (r : Ret) (msg : Str) : Err := if e.code.isErr then e else .mk' r msg

/-- What the decoder does, in order; the error and the state of the stream. -/
def acts : List Act → Err × Ret → Err × Ret
  | [], s => s
  | .report r msg :: as, s => acts as (s.1.handle r msg, s.2)
  | .stream r :: as, s => acts as (s.1, r)

/-- `decoder_state`, `cowl_prt_decoder.c:54-56`. -/
def state (e : Err) (stream : Ret) : Ret := if stream.isErr then stream else e.code

/-- `read_ontology`, `cowl_prt_decoder.c:1280-1294`, with `decoder_init`, `34-42`: `e` is the
error that the reader holds, `init` the code of `cowl_prt_index_init`, `pos` the number
of bytes read. The stream has no error before. -/
def prtRead (e : Err) (init : Ret) (as : List Act) (pos : Nat) : Err × Ret :=
  let e := { e with code := init }
  let s := if init ≠ .ok then (e, .ok) else acts as (e, .ok)
  let r := state s.1 s.2
  (if r.isErr then { s.1 with byte := UInt32.ofNat pos } else s.1, r)

/-! ## Functional syntax -/

/-- The handler, with the code that `state->error` has: `COWL_ERROR` sets it for prefix
declarations, `cowl_functional.y:330`, with `102-118`; `if (r) YYERROR` does not, `344`, `351`,
`364`, `369`, `378`. -/
def watch {σ : Type} (h : Callback σ Item) : Callback (σ × Ret) Item := fun s i =>
  let r := h s.1 i
  ((r.1, match i with | .prefixDecl _ _ => if r.2.isErr then r.2 else s.2 | _ => s.2), r.2)

/-- `func_read`, `cowl_func_reader.c:28-43`, with the code of the error afterwards:
`cowl_func_state_init`, `cowl_functional.y:62-74`, sets it to OK; `cowl_func_yyerror`, `90-100`,
and `COWL_SYNTAX_ERROR`, `120-124`, to a syntax error. Allocation does not fail. For line and
message see `docError`. -/
def funcReadErr {σ : Type} (h : Callback σ Item) (m : Prefix.PMap) (addr : Nat) (text : Str) (s : σ) : σ × Ret × Ret :=
  let r := Reader.funcReader (watch h) m addr text (s, .ok)
  let o := funcRead (watch h) m addr text (s, .ok)
  (r.1.1, r.2, if o.2 = .rejected then .errSyntax else r.1.2)

/-! ## Text -/

/-- Loop of `cowl_write_error`, `cowl_writer.c:231-237`; the first argument is `write_comma`. -/
def writeLocs : Bool → List (UInt32 × Str) → Str
  | _, [] => []
  | comma, (v, n) :: l =>
    if v = 0 then writeLocs comma l
    else (if comma then ascii ", " else []) ++ n ++ uintToStr v ++ writeLocs true l

/-- `cowl_write_error`, `cowl_writer.c:205-243`; `name` is `ulib_ret_to_string`, which
`cowl_ret_to_string`, `cowl_ret.c:12-15`, calls for codes of ulib. The stream does not fail. -/
def writeError (name : Ret → Str) (e : Err) : Str :=
  if e.code.isErr then
    (if e.code = .errSyntax then ascii "syntax error" else name e.code) ++
    (if e.msg ≠ [] then ascii ": " ++ e.msg else []) ++
    (if e.line ≠ 0 ∨ e.col ≠ 0 ∨ e.byte ≠ 0 then
      ascii " (" ++ writeLocs false [(e.line, ascii "line "), (e.col, ascii "col "), (e.byte, ascii "byte ")] ++ ascii ")"
    else [])
  else []

end Cowl.LastErr
