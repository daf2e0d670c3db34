import Verif.FuncRules
import Verif.Iter
/-!
# References held by the functional reader

The parser of `src/formats/functional/reader/cowl_functional.y` as a stack of symbols with their
values. A step shifts a token, or runs the action of a rule on the values of its right-hand side.
Any order of such steps is allowed, so the tables of Bison do not matter. The memory is that of
`Verif/Own.lean`; what can be allocated is chosen from outside.
-/
namespace Cowl.YOwn
open Cowl.Own

/-- Value of a symbol, `cowl_functional.y:138`, `%define api.value.type union`. The texts of most
tokens point into the buffer of the scanner (`text`); that of a quoted string is a buffer of its own
(`buf`), `cowl_functional.l:193-203`. Numbers are not followed. -/
inductive Val where
  | unit | text | buf | num
  | ptr (p : Option Nat)
  deriving DecidableEq

/-- The value the scanner gives to a token, `cowl_functional.l:83-203`. -/
def Term.val : Term → Val
  | .nat => .num
  | .qstr => .buf
  | .blank | .pnameNs | .pnameLn | .lang | .iriRef => .text
  | _ => .unit

/-- What a function that returns a string, an IRI, an entity or an anonymous individual finds or
creates: nothing, a new object, or one that exists already and is retained
(`cowl_iri.c:67-89`, `cowl_entity.c:85-106`, `cowl_string.c:39-63`). -/
inductive Leaf where
  | null
  | fresh (m : Nat) (o : Obj)
  | shared (a : Nat)

/-- What a change handler, or the prefix map, does with references of its own. -/
inductive HOp where
  | retain (a : Nat)
  | release (a : Nat)

/-- What a statement meets: the blocks it can allocate, the objects found, whether the buffer of a
vector can be resized, the text and tag of a literal if they are not those given
(`cowl_literal.c:31-73`), whether a plain literal has no tag behind its last `@` (`38`), and what the
handler does and returns. -/
structure Choice where
  m₁ : Option Nat := none
  m₂ : Option Nat := none
  m₃ : Option Nat := none
  leaf : Leaf := .null
  value : Option Leaf := none
  tag : Option Leaf := none
  isLang : Bool := false
  bare : Bool := false
  ok : Bool := false
  ops : List HOp := []
  ret : Ret := .ok

/-- State while an action runs. `others` counts the references that belong neither to the parser nor
to objects: those of the client, of the handler, and of the library itself. `rets` are the values
handlers returned, `bufs` the buffers of tokens of the right-hand side that are not taken yet. -/
structure Frame where
  st : St
  others : Nat → Nat
  res : Val := .unit
  rets : List Ret := []
  bufs : Nat := 0

/-- Outcome of a statement or an action: undefined behaviour, completion, or failure with what
`yyparse` returns. -/
inductive Out where
  | ub
  | go (f : Frame)
  | fail (code : Nat) (f : Frame)

/-- `$i` as a pointer; reading another value as one is undefined. -/
def ptrAt (args : List Val) (i : Nat) : Option (Option Nat) :=
  match args[i - 1]? with
  | some (.ptr p) => some p
  | _ => none

/-- `$i` for several positions, none of which is NULL. -/
def ptrsAt (args : List Val) : List Nat → Option (List Nat)
  | [] => some []
  | i :: l =>
    match ptrAt args i with
    | some (some a) => (ptrsAt args l).map (a :: ·)
    | _ => none

/-- `$i`, or NULL if no position is given. -/
def optAt (args : List Val) : Option Nat → Option (Option Nat)
  | none => some none
  | some i => ptrAt args i

/-- See `Leaf`. -/
def getLeaf (s : St) : Leaf → Res
  | .null => some (s, none)
  | .fresh m o => s.step (.leaf m o)
  | .shared a =>
    match s.cell a with
    | some (.leaf _) => s.step (.retain a)
    | _ => none

/-- `$$` is assigned the result of a call. -/
def Frame.assign (f : Frame) : Res → Out
  | none => .ub
  | some (s, r) => .go { f with st := s, res := .ptr r }

/-- The text of a literal: the one given, or a part of it, `cowl_literal.c:31-57`. -/
def litText (s : St) (c : Choice) (v : Nat) : Res :=
  match c.value with
  | none => s.step (.retain v)
  | some l => getLeaf s l

/-- Its tag or datatype, `cowl_literal.c:59-73, 117-124`. -/
def litTag (s : St) (c : Choice) (t : Option Nat) : Res :=
  match c.tag, t with
  | some l, _ => getLeaf s l
  | none, some t => s.step (.retain t)
  | none, none => none

/-- `cowl_literal`, `cowl_literal.c:117-124`, and what it calls, `31-109`. `value` and `tag` are
objects made on the way, and released in the end: the text before the `@` of a plain literal and the
tag behind it, or the tag in lower case. The datatype `xsd:string` is taken as one of these as well,
which makes no difference. A plain literal without a tag sets a bit of NULL. -/
def litRun (s : St) (c : Choice) (v : Nat) (t : Option Nat) : Res :=
  if c.bare then none else
  match litText s c v with
  | none => none
  | some (s, none) => some (s, none)
  | some (s, some v') =>
    match litTag s c t with
    | none => none
    | some (s, none) => (s.release v').map fun s => (s, none)
    | some (s, some t') =>
      match s.step (.literal c.m₁ v' t' c.isLang) with
      | none => none
      | some (s, r) =>
        match s.release v' with
        | none => none
        | some s => (s.release t').map fun s => (s, r)

/-- What the handler does. It may use what it has been given. -/
def hopsRun (s : St) (others : Nat → Nat) : List HOp → Option (St × (Nat → Nat))
  | [] => some (s, others)
  | .retain a :: l =>
    match s.step (.retain a) with
    | none => none
    | some (s, _) => hopsRun s (fun b => if b = a then others b + 1 else others b) l
  | .release a :: l =>
    match s.step (.release a) with
    | none => none
    | some (s, _) => hopsRun s (fun b => if b = a then others b - 1 else others b) l

/-- One statement of an action; see `Stmt`. The macros are in `cowl_functional.y:110-135`. -/
def Stmt.run (args : List Val) (c : Choice) (f : Frame) : Stmt → Out
  | .alias i =>
    match args[i - 1]? with
    | none => .ub
    | some v => .go { f with res := v }
  | .null => .go { f with res := .ptr none }
  | .leaf l =>
    match ptrsAt args l with
    | none => .ub
    | some xs => if xs.all f.st.live then f.assign (getLeaf f.st c.leaf) else .ub
  | .str i =>
    if args[i - 1]? = some .buf then { f with bufs := f.bufs - 1 }.assign (getLeaf f.st c.leaf) else .ub
  | .make k l o =>
    match ptrsAt args l, optAt args o with
    | some xs, some p => f.assign (f.st.step (.make c.m₁ k xs p 0))
    | _, _ => .ub
  | .chain i j k =>
    match ptrsAt args [i, j], ptrAt args k with
    | some [x, y], some p => f.assign (f.st.step (.chain c.m₁ x y p))
    | _, _ => .ub
  | .hasKey i j k n =>
    match ptrsAt args [i], ptrAt args j, ptrAt args k, ptrAt args n with
    | some [x], some o, some d, some p => f.assign (f.st.step (.hasKey c.m₁ c.m₂ c.m₃ x o d p))
    | _, _, _, _ => .ub
  | .lit i j =>
    match ptrsAt args [i], optAt args j with
    | some [x], some t => f.assign (litRun f.st c x t)
    | _, _ => .ub
  | .empty => f.assign (f.st.step (.vector true c.m₁ []))
  | .reuse i =>
    match ptrAt args i with
    | none => .ub
    | some (some a) => .go { f with res := .ptr (some a) }
    | some none =>
      match f.st.step (.vector true c.m₁ []) with
      | none => .ub
      | some (s, none) => .fail 2 { f with st := s, res := .ptr none }
      | some (s, some a) => .go { f with st := s, res := .ptr (some a) }
  | .push i =>
    match f.res, ptrsAt args [i] with
    | .ptr (some v), some [x] =>
      match f.st.step (.add c.ok v x) with
      | none => .ub
      | some (s, _) =>
        match s.step (.release x) with
        | none => .ub
        | some (s, _) => if c.ok then .go { f with st := s } else .fail 2 { f with st := s }
    | _, _ => .ub
  | .release i =>
    match ptrAt args i with
    | none => .ub
    | some p =>
      match f.st.releaseOpt p with
      | none => .ub
      | some s => .go { f with st := s }
  | .finalize i =>
    match ptrAt args i with
    | none => .ub
    | some none => .go f
    | some (some a) =>
      match f.st.release a with
      | none => .ub
      | some s =>
        if !s.live a then .ub
        else if c.ok then .go { f with st := s } else .fail 2 { f with st := s }
  | .check =>
    match f.res with
    | .ptr none => .fail 2 f
    | .ptr (some _) => .go f
    | _ => .ub
  | .checkSyntax =>
    match f.res with
    | .ptr none => .fail 1 f
    | .ptr (some _) => .go f
    | _ => .ub
  | .handle l =>
    match ptrsAt args l with
    | none => .ub
    | some xs =>
      if !xs.all f.st.live then .ub
      else
        match hopsRun f.st f.others c.ops with
        | none => .ub
        | some (s, others) => .go { f with st := s, others := others, rets := f.rets ++ [c.ret] }
  | .failAny => if f.rets.any (· ≠ .ok) then .fail 1 f else .go f
  | .failErr =>
    match f.rets.find? Ret.isErr with
    | none => .go f
    | some r => .fail (if r = .errMem then 2 else 1) f

/-- The statements of an action, with what each of them meets; nothing can be allocated once the
list is over. -/
def runAct (args : List Val) : List Stmt → List Choice → Frame → Out
  | [], _, f => .go f
  | s :: ss, cs, f =>
    match s.run args (cs.headD {}) f with
    | .ub => .ub
    | .fail n f => .fail n f
    | .go f => runAct args ss cs.tail f

/-- State of the parser between steps. The top of the stack comes first. `lost` counts the buffers of
tokens that nothing refers to any more. -/
structure M where
  st : St
  others : Nat → Nat
  stack : List (Sym × Val) := []
  lost : Nat := 0

/-- Result of some steps: undefined behaviour, a step that the stack does not allow, the state of the
parser, or that in which `yyparse` returns a value. -/
inductive Res' where
  | ub
  | stuck
  | go (m : M)
  | stop (code : Nat) (m : M)

/-- Whether values of the symbol are released when it is discarded, `cowl_functional.y:246-265`. -/
def Sym.destructed : Sym → Bool
  | .t _ => false
  | .n x => match x.ctype with | none => false | some ty => decide (ty ∈ destructors)

/-- `yydestruct` on each symbol of the stack. -/
def unwind (s : St) : List (Sym × Val) → Option St
  | [] => some s
  | (x, v) :: l =>
    if x.destructed then
      match v with
      | .ptr p => match s.releaseOpt p with | none => none | some s => unwind s l
      | _ => none
    else unwind s l

/-- Buffers among values. -/
def bufs (l : List Val) : Nat := l.count .buf

/-- The buffer of the token that has been read but not shifted. -/
def lookBufs : Option Term → Nat
  | none => 0
  | some t => bufs [t.val]

/-- A step. A failing action may find a token read in advance. -/
inductive Step where
  | shift (t : Term)
  | reduce (r : Rule) (choices : List Choice) (look : Option Term)

/-- Everything on the stack is discarded, and `yyparse` returns. -/
def M.leave (m : M) (code : Nat) (look : Option Term) : Res' :=
  match unwind m.st m.stack with
  | none => .ub
  | some s =>
    .stop code { m with st := s, stack := [], lost := m.lost + bufs (m.stack.map (·.2)) + lookBufs look }

/-- One step of the parser Bison generates. If the action of a rule fails, the values of its
right-hand side and `$$` are dropped as they are, and the rest of the stack is discarded. -/
def M.step (m : M) : Step → Res'
  | .shift t => .go { m with stack := (.t t, t.val) :: m.stack }
  | .reduce r cs look =>
    let top := m.stack.take r.rhs.length
    let rest := m.stack.drop r.rhs.length
    if top.map (·.1) = r.rhs.reverse then
      let args := (top.map (·.2)).reverse
      match runAct args r.act cs { st := m.st, others := m.others, bufs := bufs args } with
      | .ub => .ub
      | .go f => .go { st := f.st, others := f.others, stack := (.n r.lhs, f.res) :: rest, lost := m.lost + f.bufs }
      | .fail code f =>
        M.leave { st := f.st, others := f.others, stack := rest, lost := m.lost + f.bufs } code look
    else .stuck

/-- Several steps. -/
def M.steps (m : M) : List Step → Res'
  | [] => .go m
  | x :: l =>
    match m.step x with
    | .go m => M.steps m l
    | r => r

/-- How `yyparse` ends otherwise: the document is complete, or a token fits nowhere. -/
inductive End where
  | accept
  | error (look : Option Term)

/-- The end of `yyparse`. When the document has been read the start symbol is all there is. -/
def M.finish (m : M) : End → Res'
  | .accept =>
    if m.stack.map (·.1) = [.n .ontologyDocument] then m.leave 0 none else .stuck
  | .error look => m.leave 1 look

end Cowl.YOwn
