import Verif.Reader
/-!
# The functional reader when its input fails or memory runs out

`func_read` with its scanner, `src/formats/functional/reader/cowl_func_reader.c` and
`cowl_functional.l`, on a stream whose reads may fail and with a string buffer that may not grow.
-/
namespace Cowl.FuncIo
open Cowl.Change Cowl.Func Cowl.Reader

/-- What the scanner gets of a stream, given the results of its reads: `YY_INPUT`,
`cowl_functional.l:37-41`. A read that fails gives no characters, as does the end of the stream, and
flex asks for no more then. -/
def input : List (Option Str) → Str
  | [] => []
  | none :: _ => []
  | some [] :: _ => []
  | some (c :: s) :: l => c :: s ++ input l

/-- Result of scanning a quoted string, as `QRes`, or that the buffer could not grow. -/
inductive QMem where
  | ok (r : QRes) (mem : List Bool)
  | fail
  deriving DecidableEq, Repr

/-- Whether the buffer can grow, and what is known about later requests; it can if nothing is known. -/
def grows : List Bool → Bool × List Bool
  | [] => (true, [])
  | b :: l => (b, l)

/-- Start condition `QSTRING`, `cowl_functional.l:193-215`, as `lexQ`. There is one request for each
sequence of plain characters and one for each escaped character; `run` tells whether the last
character was plain. If a request fails, `HANDLE_ERROR`, `29-35`, ends the input. -/
def lexQMem (mem : List Bool) (run : Bool) : Str → Str → QMem
  | [], _ => .ok .eof mem
  | c :: s, acc =>
    if c = 34 then .ok (.done acc s) mem
    else if c = 92 then
      match s with
      | d :: s' =>
        if d = 34 ∨ d = 92 then
          if (grows mem).1 then lexQMem (grows mem).2 false s' (acc ++ [d]) else .fail
        else .ok (.bad c) mem
      | [] => .ok (.bad c) mem
    else if run then lexQMem mem true s (acc ++ [c])
    else if (grows mem).1 then lexQMem (grows mem).2 true s (acc ++ [c]) else .fail

/-- The tokens of a text, as `lexN`. If a string cannot be stored, `yyterminate` makes the parser see
the end of the text. -/
def lexMemN : Nat → List Bool → Str → List Tok
  | 0, _, _ => []
  | _ + 1, _, [] => []
  | n + 1, mem, c :: s =>
    let b := best (c :: s)
    match b.1 with
    | .ws | .comment => lexMemN n mem ((c :: s).drop b.2)
    | .qmark =>
      match lexQMem mem false ((c :: s).drop b.2) [] with
      | .ok (.done v rest) mem => .qstr v :: lexMemN n mem rest
      | .ok (.bad c) _ => [.char c]
      | .ok .eof _ => []
      | .fail => []
    | .any => if endsInput c then [] else .char c :: lexMemN n mem s
    | r => r.tok ((c :: s).take b.2) :: lexMemN n mem ((c :: s).drop b.2)

/-- What `func_read` meets: whether the prefix map and the scanner can be allocated, the results of the
reads, and whether the buffer for strings can grow. -/
structure Env where
  map : Bool := true
  scanner : Bool := true
  reads : List (Option Str)
  mem : List Bool := []

/-- The parser on the tokens of a text, as in `funcRead`; `k` is at least their number. -/
def readToks {σ : Type} (h : Callback σ Item) (m : Prefix.PMap) (addr : Nat) (k : Nat) (ts : List Tok) (s : σ) : σ × Outcome :=
  match readPrefixes h addr s m ts with
  | .stop s r => (s, r)
  | .go s m ts => Func.readOntology h k s m ts

/-- `func_read`, `cowl_func_reader.c:28-43`, with `cowl_func_state_init`, `cowl_functional.y:62-74`. If
there is no scanner, `ret` still has the value it got when the prefix map was made. Memory for the
objects that are read and for the stacks of parser and scanner does not run out here. -/
def read {σ : Type} (e : Env) (h : Callback σ Item) (m : Prefix.PMap) (addr : Nat) (s : σ) : σ × Ret :=
  if !e.map then (s, .errMem)
  else if !e.scanner then (s, .ok)
  else
    let t := input e.reads
    let r := readToks h m addr t.length (lexMemN t.length e.mem t) s
    (r.1, code r.2)

end Cowl.FuncIo
