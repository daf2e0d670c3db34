import Verif.LitMem
import Verif.StrBufSpec
/-! # Who owns literals, and what they mean

What the client owns is kept beside the memory, as in `Verif/StrBufSpec.lean`. -/
namespace Cowl.LitM
open SBuf

/-- The memory; references of the client to strings, buffers of the client; references of the
client to literals and to datatypes. -/
structure World where
  mem : Mem
  ext : Nat → Nat
  cli : Nat → Bool
  lext : Nat → Nat
  dref : Iri → Nat

/-- References from a literal to a string. -/
def usesOf (k : LCell) (a : Nat) : Nat := (if k.value = a then 1 else 0) + if k.arg = .str a then 1 else 0

/-- References from literals to a string. -/
def uses (l : List (Nat × LCell)) (a : Nat) : Nat := (l.map fun p => usesOf p.2 a).sum

/-- References from literals to a datatype. -/
def dtUses (l : List (Nat × LCell)) (i : Iri) : Nat := (l.map fun p => if p.2.arg = .dt i then 1 else 0).sum

/-- References from the library itself. -/
def voc (i : Iri) : Nat := if i = xsdString ∨ i = rdfLangString ∨ i = rdfPlainLiteral then 1 else 0

/-- Value and tag of the literal at an address. -/
def content (s : Mem) (a : Nat) : Option (Str × LitTag) :=
  match s.lit a with
  | none => none
  | some k =>
    match s.str.text k.value, k.arg with
    | some c, .dt i => some (c, .dt i)
    | some c, .str l => (s.str.text l).map fun d => (c, .lang d)
    | none, _ => none

/-- Allocations give memory that is not in use. -/
structure Fair (s : Mem) (m : Alloc) : Prop where
  va : s.str.cells m.va = none
  ta : s.str.cells m.ta = none
  vta : m.va ≠ m.ta
  vw : Unused s.str m.vw
  tw : Unused s.str m.tw
  vtw : ∀ b, m.vw = .at' b → m.tw ≠ .at' b
  a : s.lit m.a = none

/-- The allocations of `m'` come after those of `m`. -/
structure Apart (m m' : Alloc) : Prop where
  va : m'.ta ≠ m.va
  ta : m'.ta ≠ m.ta
  vw : ∀ b, m.vw = .at' b → m'.tw ≠ .at' b
  tw : ∀ b, m.tw = .at' b → m'.tw ≠ .at' b

/-- A string or datatype that may be given as an argument. -/
def Live (s : Mem) : Ptr → Prop
  | .str a => s.str.cells a ≠ none
  | .dt i => 0 < s.dts i

/-- What a client may do. -/
def Legal (w : World) : Op → Prop
  | .str o => SBuf.Legal ⟨w.mem.str, w.ext, w.cli⟩ o
  | .literal m v p => Fair w.mem m ∧ (∀ a, v = some a → w.mem.str.cells a ≠ none) ∧ ∀ q, p = some q → Live w.mem q
  | .plain m u => Fair w.mem m ∧ ∃ c, w.mem.str.txt u = some c
  | .typed m u i => Fair w.mem m ∧ (∃ c, w.mem.str.txt u = some c) ∧ 0 < w.mem.dts i
  | .lang m m' u l => Fair w.mem m ∧ Fair w.mem m' ∧ Apart m m' ∧ (∃ c, w.mem.str.txt u = some c) ∧
      ∃ c, w.mem.str.txt l = some c
  | .retain x => w.mem.lit x ≠ none
  | .release x => 0 < w.lext x
  | .holdDt _ => True
  | .dropDt i => 0 < w.dref i

/-- A text with something behind its last `@`. -/
def HasTag (c : Str) : Prop := ∃ v l, c = v ++ 64 :: l ∧ l ≠ [] ∧ ∀ x ∈ l, x ≠ (64 : UInt8)

/-- Calls that do not run into the two errors of the code (`C103_fails`): there is memory for a
literal with a language tag, and a literal of type rdf:PlainLiteral or rdf:langString has one. -/
def Calm (s : Mem) : Op → Prop
  | .literal m (some _) (some (.str l)) => s.str.text l ≠ some [] → m.ok = true
  | .literal m (some v) (some (.dt i)) =>
    i = rdfLangString ∨ i = rdfPlainLiteral → m.ok = true ∧ ∃ c, s.str.text v = some c ∧ HasTag c
  | .lang _ m' _ l => s.str.txt l ≠ some [] → m'.ok = true
  | _ => True

/-- References to strings that the client owns after a call. -/
def extAfter (ext : Nat → Nat) : Op → Res → Nat → Nat
  | .str o, .str r => SBuf.extAfter ext o r
  | _, _ => ext

/-- Buffers that the client owns after a call. -/
def cliAfter (cli : Nat → Bool) : Op → Res → Nat → Bool
  | .str o, .str r => SBuf.cliAfter cli o r
  | _, _ => cli

/-- References to literals that the client owns after a call. -/
def lextAfter (lext : Nat → Nat) : Op → Res → Nat → Nat
  | .retain x, _ => set lext x (lext x + 1)
  | .release x, _ => set lext x (lext x - 1)
  | _, .ptr (some x) => set lext x (lext x + 1)
  | _, _ => lext

/-- References to datatypes that the client owns after a call. -/
def drefAfter (dref : Iri → Nat) : Op → Iri → Nat
  | .holdDt i => fun j => if j = i then dref j + 1 else dref j
  | .dropDt i => fun j => if j = i then dref j - 1 else dref j
  | _ => dref

/-- The world after a call. -/
def World.after (w : World) (op : Op) (s : Mem) (r : Res) : World :=
  ⟨s, extAfter w.ext op r, cliAfter w.cli op r, lextAfter w.lext op r, drefAfter w.dref op⟩

/-- What can be reached from the initialisation of the library by calls that do not run into the
errors. -/
inductive Reachable (h : Str → Nat) : World → Prop
  | init (e : Nat) : Reachable h ⟨init h e, fun _ => 0, fun _ => false, fun _ => 0, fun _ => 0⟩
  | step {w : World} {op : Op} {s : Mem} {r : Res} (hw : Reachable h w) (hl : Legal w op) (hc : Calm w.mem op)
      (hs : step h w.mem op = some (s, r)) : Reachable h (w.after op s r)

/-- What a call asks for, as in C25. -/
inductive Asks (s : Mem) : Op → LitRes → Prop
  | string {m : Alloc} {v : Nat} {c : Str} (hc : s.str.text v = some c) :
      Asks s (.literal m (some v) none) (Cowl.literal c .none)
  | lang {m : Alloc} {v l : Nat} {c d : Str} (hc : s.str.text v = some c) (hd : s.str.text l = some d) :
      Asks s (.literal m (some v) (some (.str l))) (Cowl.literal c (.lang d))
  | dt {m : Alloc} {v : Nat} {i : Iri} {c : Str} (hc : s.str.text v = some c) :
      Asks s (.literal m (some v) (some (.dt i))) (Cowl.literal c (.dt i))
  | plainFrom {m : Alloc} {u : UStr} {c : Str} (hc : s.str.txt u = some c) :
      Asks s (.plain m u) (Cowl.literalPlain c)
  | typedFrom {m : Alloc} {u : UStr} {i : Iri} {c : Str} (hc : s.str.txt u = some c) :
      Asks s (.typed m u i) (Cowl.literalTyped c i)
  | langFrom {m m' : Alloc} {u l : UStr} {c d : Str} (hc : s.str.txt u = some c) (hd : s.str.txt l = some d) :
      Asks s (.lang m m' u l) (Cowl.literal c (.lang d))

end Cowl.LitM
