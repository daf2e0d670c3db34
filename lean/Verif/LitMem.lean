import Verif.StrBuf
import Verif.Literal
/-!
# Literals and their strings in memory

`src/cowl_literal.c` with the strings of `Verif/StrBuf.lean` and with allocations that may fail. In
`Verif/Literal.lean` a literal has a text and a tag; here it has pointers to strings and datatypes,
and references to these are counted. `none` outside is undefined behaviour.

Simplifications: the literals are a list of cells with their addresses; a datatype is told by its
IRI (one object per IRI, by C04) and only its count is kept; the contents of a buffer that is filled
after its allocation are those it is filled with.
-/
namespace Cowl.LitM
open SBuf

/-- What the second field of a literal points to, `cowl_literal.c:80-84`. -/
inductive Ptr where
  | str (a : Nat)
  | dt (i : Iri)
deriving DecidableEq

/-- A literal, `cowl_literal.c:80-84`: count and bit of the object, and its two fields. -/
structure LCell where
  rc : Nat
  bit : Bool
  value : Nat
  arg : Ptr

/-- The memory: strings, literals, and counts of the datatypes. -/
structure Mem where
  str : St
  lits : List (Nat × LCell)
  dts : Iri → Nat

/-- Outcomes of the allocations of a call: copy of the text of the value and its string at `va`;
text of the tag, place in the table, and its string at `ta`; the literal at `a`. -/
structure Alloc where
  vw : Where
  vok : Bool
  va : Nat
  tw : Where
  tput : Bool
  tok : Bool
  ta : Nat
  ok : Bool
  a : Nat

/-- `cowl_string_get_raw`: the text of a string in memory. -/
def textOf (s : St) (a : Nat) : Option Str := (s.cells a).bind fun k => s.txt k.raw

/-- The end of `parse_lang` with an error, `cowl_literal.c:54-56`. -/
def parseErr (s : St) (v : Nat) : Option (St × Option (Nat × Option Nat)) :=
  (release s v).map fun s => (s, none)

/-- `parse_lang`, `cowl_literal.c:31-57`: the value, and the tag unless there is none. -/
def parseLang (h : Str → Nat) (m : Alloc) (s : St) (v : Nat) : Option (St × Option (Nat × Option Nat)) :=
  (textOf s v).bind fun c =>
    let i := indexOfLast c 64 + 1
    if i ≥ c.length then (retain s v).map fun s => (s, some (v, none))
    else
      (opt h m.vw true m.vok s m.va (.inl (c.take (i - 1))) true false).bind fun (s, r) =>
        match r with
        | none => some (s, none)
        | some v =>
          let (s, u) := s.fresh m.tw (lower (c.drop i))
          if u = .null then parseErr s v
          else
            (opt h .no m.tput m.tok s m.ta u false true).bind fun (s, r) =>
              match r with
              | none => parseErr s v
              | some l => some (s, some (v, some l))

/-- `internalize_lang`, `cowl_literal.c:59-73`. Contract of `ustring_is_lower`: `ustring_to_lower`
would change nothing. -/
def internalizeLang (h : Str → Nat) (m : Alloc) (s : St) (l : Nat) : Option (St × Option Nat) :=
  (textOf s l).bind fun c =>
    if lower c = c then
      (intern m.tput s l).bind fun (s, r) =>
        match r with
        | none => some (s, none)
        | some l => (retain s l).map fun s => (s, some l)
    else
      let (s, u) := s.fresh m.tw (lower c)
      if u = .null then some (s, none)
      else opt h .no m.tput m.tok s m.ta u false true

/-- `cowl_retain`, `cowl_object.c:157-160`, of a string or a datatype. -/
def retainPtr (s : Mem) : Ptr → Option Mem
  | .str a => (retain s.str a).map fun t => { s with str := t }
  | .dt i => if s.dts i = 0 then none else some { s with dts := fun j => if j = i then s.dts j + 1 else s.dts j }

/-- `cowl_release`, `cowl_object.c:171-194`, of a string or a datatype. -/
def releasePtr (s : Mem) : Ptr → Option Mem
  | .str a => (release s.str a).map fun t => { s with str := t }
  | .dt i => if s.dts i = 0 then none else some { s with dts := fun j => if j = i then s.dts j - 1 else s.dts j }

/-- `cowl_literal_alloc`, `cowl_literal.c:80-84`, with `cowl_get_impl`, `cowl_object.c:422-433`. NULL
cannot be retained, and has no bit to be set. -/
def literalAlloc (m : Alloc) (s : Mem) (v : Nat) (p : Option Ptr) (isLang : Bool) : Option (Mem × Option Nat) :=
  if !m.ok then (if isLang then none else some (s, none))
  else
    match p with
    | none => none
    | some p =>
      (retainPtr s (.str v)).bind fun s =>
        (retainPtr s p).map fun s => ({ s with lits := (m.a, ⟨1, isLang, v, p⟩) :: s.lits }, some m.a)

/-- `cowl_literal_string_alloc`, `cowl_literal.c:86-88`. -/
def stringAlloc (m : Alloc) (s : Mem) (v : Nat) : Option (Mem × Option Nat) :=
  literalAlloc m s v (some (.dt xsdString)) false

/-- `cowl_literal_lang_alloc`, `cowl_literal.c:90-96`. -/
def langAlloc (h : Str → Nat) (m : Alloc) (s : Mem) (v l : Nat) : Option (Mem × Option Nat) :=
  (textOf s.str l).bind fun c =>
    if c.length = 0 then stringAlloc m s v
    else
      (internalizeLang h m s.str l).bind fun (t, r) =>
        match r with
        | none => some ({ s with str := t }, none)
        | some l =>
          (literalAlloc m { s with str := t } v (some (.str l)) true).bind fun (s, r) =>
            (releasePtr s (.str l)).map fun s => (s, r)

/-- `cowl_literal_parse_lang_alloc`, `cowl_literal.c:98-105`. -/
def parseLangAlloc (h : Str → Nat) (m : Alloc) (s : Mem) (v : Nat) : Option (Mem × Option Nat) :=
  (parseLang h m s.str v).bind fun (t, r) =>
    match r with
    | none => some ({ s with str := t }, none)
    | some (v, l) =>
      (literalAlloc m { s with str := t } v (l.map .str) true).bind fun (s, r) =>
        (releasePtr s (.str v)).bind fun s =>
          match l with
          | none => some (s, r)
          | some l => (releasePtr s (.str l)).map fun s => (s, r)

/-- `cowl_literal_typed_alloc`, `cowl_literal.c:107-109`. -/
def typedAlloc (m : Alloc) (s : Mem) (v : Nat) (i : Iri) : Option (Mem × Option Nat) :=
  literalAlloc m s v (some (.dt i)) false

/-- `cowl_literal`, `cowl_literal.c:117-124`. -/
def literal (h : Str → Nat) (m : Alloc) (s : Mem) (v : Option Nat) (p : Option Ptr) : Option (Mem × Option Nat) :=
  match v, p with
  | none, _ => some (s, none)
  | some v, none => stringAlloc m s v
  | some v, some (.str l) => langAlloc h m s v l
  | some v, some (.dt i) => if isLangDatatype i then parseLangAlloc h m s v else typedAlloc m s v i

/-- The copy of the value, `cowl_literal.c:127-128, 135-136, 147-148`, what is done with it, and its
release, `130, 138, 155`. -/
def withValue (h : Str → Nat) (m : Alloc) (s : Mem) (u : UStr) (f : Mem → Nat → Option (Mem × Option Nat)) :
    Option (Mem × Option Nat) :=
  (opt h m.vw true m.vok s.str m.va u true false).bind fun (t, r) =>
    match r with
    | none => some ({ s with str := t }, none)
    | some v => (f { s with str := t } v).bind fun (s, r) => (releasePtr s (.str v)).map fun s => (s, r)

/-- `cowl_literal_plain`, `cowl_literal.c:126-132`. -/
def literalPlain (h : Str → Nat) (m : Alloc) (s : Mem) (u : UStr) : Option (Mem × Option Nat) :=
  withValue h m s u (stringAlloc m)

/-- `cowl_literal_typed`, `cowl_literal.c:134-140`. -/
def literalTyped (h : Str → Nat) (m : Alloc) (s : Mem) (u : UStr) (i : Iri) : Option (Mem × Option Nat) :=
  withValue h m s u fun s v => typedAlloc m s v i

/-- `cowl_literal_lang`, `cowl_literal.c:142-158`; `m'` is for the allocations in
`cowl_literal_lang_alloc`. The order of the two releases at the end is changed. -/
def literalLang (h : Str → Nat) (m m' : Alloc) (s : Mem) (u l : UStr) : Option (Mem × Option Nat) :=
  withValue h m s u fun s v =>
    (opt h m.tw m.tput m.tok s.str m.ta l true true).bind fun (t, r) =>
      match r with
      | none => some ({ s with str := t }, none)
      | some l =>
        (langAlloc h m' { s with str := t } v l).bind fun (s, r) =>
          (releasePtr s (.str l)).map fun s => (s, r)

/-- The literal at an address. -/
def Mem.lit (s : Mem) (a : Nat) : Option LCell := s.lits.lookup a

/-- The literals with another cell at `a`. -/
def putLit (l : List (Nat × LCell)) (a : Nat) (k : LCell) : List (Nat × LCell) :=
  l.map fun p => if p.1 = a then (a, k) else p

/-- `cowl_retain`, `cowl_object.c:157-160`, of a literal. -/
def retainLit (s : Mem) (a : Nat) : Option Mem :=
  (s.lit a).map fun k => { s with lits := putLit s.lits a { k with rc := k.rc + 1 } }

/-- `cowl_release`, `cowl_object.c:171-181`, of a literal, with `cowl_literal_free`,
`cowl_literal.c:111-115`. -/
def releaseLit (s : Mem) (a : Nat) : Option Mem :=
  (s.lit a).bind fun k =>
    if k.rc = 0 then none
    else if k.rc - 1 ≠ 0 then some { s with lits := putLit s.lits a { k with rc := k.rc - 1 } }
    else
      (releasePtr s (.str k.value)).bind fun s =>
        (releasePtr s k.arg).map fun s => { s with lits := s.lits.filter fun p => p.1 ≠ a }

/-- `cowl_string_equals`, `cowl_string.c:227-229`. -/
def strEquals (s : St) (a b : Nat) : Option Bool :=
  (s.cells a).bind fun k => (s.cells b).bind fun l =>
    (s.txt k.raw).bind fun c => (s.txt l.raw).map fun d => k.hash = l.hash && c = d

/-- `cowl_literal_equals`, `cowl_literal.c:174-177`: the second fields are compared by address. -/
def litEquals (s : Mem) (a b : Nat) : Option Bool :=
  (s.lit a).bind fun k => (s.lit b).bind fun l =>
    if k.arg = l.arg then strEquals s.str k.value l.value else some false

/-- `cowl_literal_get_value`, `cowl_literal.c:165-167`, and its text. -/
def getValue (s : Mem) (a : Nat) : Option Str := (s.lit a).bind fun k => textOf s.str k.value

/-- `cowl_literal_get_lang`, `cowl_literal.c:169-172`, and its text; the outer `none` is undefined
behaviour, which includes that the tag is not a string. -/
def getLang (s : Mem) (a : Nat) : Option (Option Str) :=
  (s.lit a).bind fun k =>
    if k.bit then
      match k.arg with
      | .str l => (textOf s.str l).map some
      | .dt _ => none
    else some none

/-- `cowl_literal_get_datatype`, `cowl_literal.c:160-163`, likewise. -/
def getDatatype (s : Mem) (a : Nat) : Option Iri :=
  (s.lit a).bind fun k =>
    if k.bit then some rdfLangString
    else
      match k.arg with
      | .str _ => none
      | .dt i => some i

/-! ## Histories -/

/-- The calls of a client. -/
inductive Op where
  /-- calls on strings -/
  | str (o : SBuf.Op)
  | literal (m : Alloc) (v : Option Nat) (p : Option Ptr)
  | plain (m : Alloc) (u : UStr)
  | typed (m : Alloc) (u : UStr) (i : Iri)
  | lang (m m' : Alloc) (u l : UStr)
  | retain (x : Nat)
  | release (x : Nat)
  /-- the client gets or releases a datatype -/
  | holdDt (i : Iri)
  | dropDt (i : Iri)

/-- What a call returns. -/
inductive Res where
  | str (r : SBuf.Res)
  | ptr (r : Option Nat)
  | unit

/-- One call. -/
def step (h : Str → Nat) (s : Mem) : Op → Option (Mem × Res)
  | .str o => (SBuf.step h s.str o).map fun (t, r) => ({ s with str := t }, .str r)
  | .literal m v p => (literal h m s v p).map fun (s, r) => (s, .ptr r)
  | .plain m u => (literalPlain h m s u).map fun (s, r) => (s, .ptr r)
  | .typed m u i => (literalTyped h m s u i).map fun (s, r) => (s, .ptr r)
  | .lang m m' u l => (literalLang h m m' s u l).map fun (s, r) => (s, .ptr r)
  | .retain x => (retainLit s x).map fun s => (s, .unit)
  | .release x => (releaseLit s x).map fun s => (s, .unit)
  | .holdDt i => some ({ s with dts := fun j => if j = i then s.dts j + 1 else s.dts j }, .unit)
  | .dropDt i => (releasePtr s (.dt i)).map fun s => (s, .unit)

/-- The memory after the initialisation of the library: the vocabularies hold three datatypes,
`cowl_xsd_vocab.c`, `cowl_rdf_vocab.c`. The others are left out. -/
def init (h : Str → Nat) (e : Nat) : Mem :=
  ⟨apiInit h e, [], fun i => if i = xsdString ∨ i = rdfLangString ∨ i = rdfPlainLiteral then 1 else 0⟩

end Cowl.LitM
