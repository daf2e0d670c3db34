import Verif.PrimMem
import Verif.StrBufSpec
/-! # Who owns IRIs and anonymous individuals, and what they mean

What the client owns is kept beside the memory, as in `Verif/StrBufSpec.lean`. -/
namespace Cowl.PrimM
open SBuf

/-- The memory; references of the client to strings, buffers of the client; references of the
client to IRIs and individuals. -/
structure World where
  mem : Mem
  ext : Nat → Nat
  cli : Nat → Bool
  pext : Nat → Nat

/-- References from an object to a string. -/
def usesOf (k : PCell) (a : Nat) : Nat := (if k.ns = some a then 1 else 0) + if k.rem = a then 1 else 0

/-- References from objects to a string. -/
def uses (l : List (Nat × PCell)) (a : Nat) : Nat := (l.map fun p => usesOf p.2 a).sum

/-- Two allocations of texts do not give the same buffer. -/
def Differ (w w' : Where) : Prop := ∀ b, w = .at' b → w' ≠ .at' b

/-- Allocations give memory that is not in use. -/
structure Fair (s : Mem) (m : Alloc) : Prop where
  na : s.str.cells m.na = none
  ma : s.str.cells m.ma = none
  nma : m.na ≠ m.ma
  bw : Unused s.str m.bw
  nw : Unused s.str m.nw
  mw : Unused s.str m.mw
  bn : Differ m.bw m.nw
  bm : Differ m.bw m.mw
  nm : Differ m.mw m.nw
  a : s.prim m.a = none

/-- What a client may do. Ids that are generated are not empty. -/
def Legal (w : World) : Op → Prop
  | .str o => SBuf.Legal ⟨w.mem.str, w.ext, w.cli⟩ o
  | .unval m ns rem => Fair w.mem m ∧ (∀ a, ns = some a → w.mem.str.cells a ≠ none) ∧ w.mem.str.cells rem ≠ none
  | .iri m p q => Fair w.mem m ∧ (∀ a, p = some a → w.mem.str.cells a ≠ none) ∧ ∀ a, q = some a → w.mem.str.cells a ≠ none
  | .iriOf m u => Fair w.mem m ∧ ∃ c, w.mem.str.txt u = some c
  | .anon m id ids => Fair w.mem m ∧ (∀ a, id = some a → w.mem.str.cells a ≠ none) ∧
      ∀ p ∈ ids, Unused w.mem.str p.1 ∧ p.2 ≠ []
  | .anonOf m u => Fair w.mem m ∧ ∃ c, w.mem.str.txt u = some c
  | .retain x => w.mem.prim x ≠ none
  | .release x => 0 < w.pext x

/-- Calls that do not run into the error of the code (`C105_fails`): there is memory for the copy of
an id. Left out as well: the id that is copied is empty. -/
def Calm (s : Mem) : Op → Prop
  | .anonOf m u => m.mok = true ∧ m.mw ≠ .no ∧ s.str.txt u ≠ some []
  | _ => True

/-- References to strings that the client owns after a call. -/
def extAfter (ext : Nat → Nat) : Op → Res → Nat → Nat
  | .str o, .str r => SBuf.extAfter ext o r
  | _, _ => ext

/-- Buffers that the client owns after a call. -/
def cliAfter (cli : Nat → Bool) : Op → Res → Nat → Bool
  | .str o, .str r => SBuf.cliAfter cli o r
  | _, _ => cli

/-- References to IRIs and individuals that the client owns after a call. -/
def pextAfter (pext : Nat → Nat) : Op → Res → Nat → Nat
  | .retain x, _ => set pext x (pext x + 1)
  | .release x, _ => set pext x (pext x - 1)
  | _, .ptr (some x) => set pext x (pext x + 1)
  | _, _ => pext

/-- The world after a call. -/
def World.after (w : World) (op : Op) (s : Mem) (r : Res) : World :=
  ⟨s, extAfter w.ext op r, cliAfter w.cli op r, pextAfter w.pext op r⟩

/-- What can be reached from the initialisation of the library by calls that do not run into the
error. -/
inductive Reachable (h : Str → Nat) : World → Prop
  | init (e : Nat) : Reachable h ⟨init h e, fun _ => 0, fun _ => false, fun _ => 0⟩
  | step {w : World} {op : Op} {s : Mem} {r : Res} (hw : Reachable h w) (hl : Legal w op) (hc : Calm w.mem op)
      (hs : step h w.mem op = some (s, r)) : Reachable h (w.after op s r)

/-- What a call asks for: namespace and remainder as in C03, or an id. -/
inductive Asks (s : Mem) : Op → Option Str × Str → Prop
  | unval {m : Alloc} {n r : Nat} {c d : Str} (hc : s.str.text n = some c) (hd : s.str.text r = some d) :
      Asks s (.unval m (some n) r) (some c, d)
  | iri {m : Alloc} {p q : Nat} {c d : Str} (hc : s.str.text p = some c) (hd : s.str.text q = some d) :
      Asks s (.iri m (some p) (some q)) (some (iriOfParts c d).1, (iriOfParts c d).2)
  | iriOf {m : Alloc} {u : UStr} {c : Str} {x : Str × Str} (hc : s.str.txt u = some c) (hx : iriFromString c = some x) :
      Asks s (.iriOf m u) (some x.1, x.2)
  | anon {m : Alloc} {id : Nat} {ids : List (Where × Str)} {c : Str} (hc : s.str.text id = some c) :
      Asks s (.anon m (some id) ids) (none, c)
  | anonOf {m : Alloc} {u : UStr} {c : Str} (hc : s.str.txt u = some c) : Asks s (.anonOf m u) (none, c)

end Cowl.PrimM
