import Verif.FuncParse
import Verif.FuncWrite
import Verif.Change
/-!
# Documents in functional syntax

Models the document part of `src/formats/functional/writer/cowl_func_writer.c` and of
`src/formats/functional/reader/cowl_functional.y`, `write_ontology_stream` of
`src/cowl_writer.c`, and `src/formats/functional/reader/cowl_func_reader.c`.
Streams do not fail, and allocation does not fail.
-/
namespace Cowl.Func
open Prefix Change

/-! ## Writer -/

/-- `write_prefix`, `cowl_func_writer.c:338-346`, with the newline of `353`. -/
def writePrefix (p n : Str) : Str :=
  Kw.text .prefix_ ++ 40 :: (p ++ 58 :: 61 :: 60 :: (n ++ [62, 41, 10]))

/-- `write_prefixes`, `cowl_func_writer.c:348-355`. -/
def writePrefixes (m : PMap) : Str :=
  (m.fwd.map fun e => if isReservedPrefix e.1.txt then [] else writePrefix e.1.txt e.2).flatten

/-- `write_onto_iri_version`, `cowl_func_writer.c:330-336`. -/
def writeId : Option Iri → Option Iri → Str
  | none, none => []
  | some i, none => writeFullIri i
  | none, some v => writeFullIri v
  | some i, some v => writeFullIri i ++ 32 :: writeFullIri v

/-- `write_import`, `cowl_func_writer.c:323-328`, with the newline of `369`; imports are
IRIs (anything else is undefined behaviour, written as nothing here). -/
def writeImport : Obj → Str
  | .prim (.iri i) => Kw.text .import_ ++ 40 :: (writeFullIri i ++ [41, 10])
  | _ => []

/-- An object and a newline, `cowl_func_writer.c:375-376`, `452-453`. -/
def writeLine (gp : Str → Option Str) (o : Obj) : Str := writeObj gp o ++ [10]

/-- Axioms in the order of `cowl_ontology_iterate_axioms`, `cowl_ontology.c:255-263`. -/
def collectAxioms (o : Onto) : List Ref := (o.iterAxioms (fun l a => (l ++ [a], Ret.ok)) []).1

/-- `write_ontology_stream`, `cowl_writer.c:92-121`, with `write_header`,
`cowl_func_writer.c:357-379`, `func_write_axiom`, `448-455` and `write_footer`,
`381-384`. The map is that of the ontology; it is updated lazily, which does not change
what it answers (`getPrefix_stable`). -/
def writeDocText (o : OntoSt) : Str :=
  let gp := lookup o.pm
  writePrefixes o.pm ++ (Kw.text .ontology ++ 40 :: (writeId o.iri o.version ++ 10 ::
    (((o.onto.imports.getD []).map fun x => writeImport x.obj).flatten ++
    (((o.onto.annot.getD []).map fun x => writeLine gp x.obj).flatten ++
    (((collectAxioms o.onto).map fun x => writeLine gp x.obj).flatten ++ [41, 10])))))

/-- As `writeDocText`; `none` is undefined behaviour in one of the objects. -/
def writeDoc (o : OntoSt) : Option Str :=
  if ((o.onto.annot.getD []) ++ collectAxioms o.onto).all (fun x => writeDefined x.obj) then
    some (writeDocText o)
  else none

/-! ## Reader -/

/-- What the reader hands to the change handler, as additions: `cowl_part` with the
contents of the value, `include/cowl_change.h:33-64`. -/
inductive Item where
  | prefixDecl (p n : Str)
  | iri (i : Iri)
  | version (i : Iri)
  | «import» (i : Iri)
  | annot (o : Obj)
  | ax (o : Obj)

/-- Result of `func_read`: accepted; stopped because of a code of the handler, with the
code that `func_read` returns; rejected because of the text (`COWL_ERR_SYNTAX` or
`COWL_ERR_MEM`, not distinguished). -/
inductive Outcome where
  | ok
  | refused (r : Ret)
  | rejected
  deriving DecidableEq, Repr

/-- `if (r) YYERROR`, `cowl_functional.y:344`, `351`, `364`, `369`, `378`, with
`yyparse_to_cowl_ret`, `cowl_func_reader.c:19-26`. -/
def stopCode (_ : Ret) : Ret := .errSyntax

/-- `COWL_ERROR`, `cowl_functional.y:111-118`, `330`. -/
def prefixCode (r : Ret) : Ret := if r = .errMem then .errMem else .errSyntax

/-- State of the parser: the context of the handler, the prefix map and the tokens that
are left; or the end. -/
inductive Step (σ : Type) where
  | go (s : σ) (m : PMap) (ts : List Tok)
  | stop (s : σ) (r : Outcome)

/-- A handler call whose result must be OK. -/
def emit {σ : Type} (h : Callback σ Item) (s : σ) (m : PMap) (i : Item) (ts : List Tok) : Step σ :=
  let r := h s i
  if r.2 = .ok then .go r.1 m ts else .stop r.1 (.refused (stopCode r.2))

/-- `prefix_declarations`, `cowl_functional.y:304-333`; `addr` is the address of the
next string object. -/
def readPrefixes {σ : Type} (h : Callback σ Item) (addr : Nat) (s : σ) (m : PMap) : List Tok → Step σ
  | .kw .prefix_ :: .lpar :: .pnameNs p :: .equals :: .iriRef n :: .rpar :: ts =>
    let r := h s (.prefixDecl p n)
    if r.2.isErr then .stop r.1 (.refused (prefixCode r.2))
    else readPrefixes h (addr + 1) r.1 (m.add ⟨addr, p⟩ n false).1 ts
  | .kw .prefix_ :: _ => .stop s .rejected
  | ts => .go s m ts

/-- The token can begin `iri`, `cowl_functional.y:276-293`. -/
def Tok.beginsIri : Tok → Bool
  | .iriRef _ | .pnameLn _ => true
  | _ => false

/-- `ontology_id`, `cowl_functional.y:339-353`: with two IRIs both calls are made. -/
def readId {σ : Type} (h : Callback σ Item) (s : σ) (m : PMap) : List Tok → Step σ
  | [] => .go s m []
  | t :: ts =>
    if !t.beginsIri then .go s m (t :: ts)
    else match readIri m t with
      | none => .stop s .rejected
      | some i =>
        match ts with
        | [] => emit h s m (.iri i) []
        | u :: us =>
          if !u.beginsIri then emit h s m (.iri i) (u :: us)
          else match readIri m u with
            | none => .stop s .rejected
            | some v =>
              let r1 := h s (.iri i)
              let r2 := h r1.1 (.version v)
              if r1.2 ≠ .ok then .stop r2.1 (.refused (stopCode r1.2))
              else if r2.2 ≠ .ok then .stop r2.1 (.refused (stopCode r2.2))
              else .go r2.1 m us

/-- `import`, `cowl_functional.y:355-357`, after the keyword. -/
def readImport (m : PMap) : List Tok → Option (Iri × List Tok)
  | .lpar :: t :: .rpar :: ts => (readIri m t).map fun i => (i, ts)
  | _ => none

/-- `imports_and_annotations`, `cowl_functional.y:359-371`; the first number bounds the
nesting of annotations, the second one the number of imports and annotations. -/
def readHeader {σ : Type} (h : Callback σ Item) (k : Nat) : Nat → σ → PMap → List Tok → Step σ
  | 0, s, _, _ => .stop s .rejected
  | n + 1, s, m, ts =>
    match ts with
    | .kw .import_ :: ts =>
      match readImport m ts with
      | none => .stop s .rejected
      | some (i, ts) =>
        match emit h s m (.import i) ts with
        | .go s m ts => readHeader h k n s m ts
        | .stop s r => .stop s r
    | .kw .annotation :: ts =>
      match parseCat m k .annotation (.kw .annotation :: ts) with
      | none => .stop s .rejected
      | some (o, ts) =>
        match emit h s m (.annot o) ts with
        | .go s m ts => readHeader h k n s m ts
        | .stop s r => .stop s r
    | ts => .go s m ts

/-- `axioms R_PAREN` and the end of the input, `cowl_functional.y:336`, `373-380`; the
numbers are as for `readHeader`. -/
def readAxioms {σ : Type} (h : Callback σ Item) (k : Nat) : Nat → σ → PMap → List Tok → σ × Outcome
  | 0, s, _, _ => (s, .rejected)
  | n + 1, s, m, ts =>
    match ts with
    | .rpar :: ts => (s, if ts = [] then .ok else .rejected)
    | ts =>
      match parseCat m k .ax ts with
      | none => (s, .rejected)
      | some (o, ts) =>
        match emit h s m (.ax o) ts with
        | .go s m ts => readAxioms h k n s m ts
        | .stop s r => (s, r)

/-- `ontology`, `cowl_functional.y:335-337`, after the prefix declarations. -/
def readOntology {σ : Type} (h : Callback σ Item) (k : Nat) (s : σ) (m : PMap) : List Tok → σ × Outcome
  | .kw .ontology :: .lpar :: ts =>
    match readId h s m ts with
    | .stop s r => (s, r)
    | .go s m ts =>
      match readHeader h k (k + 1) s m ts with
      | .stop s r => (s, r)
      | .go s m ts => readAxioms h k (k + 1) s m ts
  | _ => (s, .rejected)

/-- `func_read`, `cowl_func_reader.c:28-43`, with `cowl_func_state_init`,
`cowl_functional.y:62-74`, and `ontology_document`, `297-302`: the parser has a prefix
map `m` of its own, a new one. The text has at least as many characters as tokens. -/
def funcRead {σ : Type} (h : Callback σ Item) (m : PMap) (addr : Nat) (text : Str) (s : σ) : σ × Outcome :=
  match readPrefixes h addr s m (lex text) with
  | .stop s r => (s, r)
  | .go s m ts => readOntology h text.length s m ts

/-! ## Reading an ontology -/

/-- `cowl_change_handler_to_ontology`, `cowl_change_handler.c:61-70`, for additions; the
objects that the reader creates are new, so each has an address of its own: the second
component is the next one. -/
def ontoHandler : Callback (OntoSt × Nat) Item := fun s i =>
  let p : Part := match i with
    | .prefixDecl p n => .prefixDecl ⟨s.2, p⟩ n
    | .iri i => .iri i
    | .version i => .version i
    | .import i => .import ⟨s.2, .prim (.iri i)⟩
    | .annot o => .annot ⟨s.2, o⟩
    | .ax o => .ax ⟨s.2, o⟩
  let r := addPart s.1 p
  ((r.1, s.2 + 1), r.2)

end Cowl.Func
