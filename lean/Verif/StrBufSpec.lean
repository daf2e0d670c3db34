import Verif.StrBuf
/-! # Who owns strings and buffers

What the client owns is kept beside the memory; the code does not know of it. -/
namespace Cowl.SBuf

/-- The memory, the number of references to each string that the client owns, and the buffers it
owns. -/
structure World where
  st : St
  ext : Nat → Nat
  cli : Nat → Bool

/-- Text of a string. -/
def St.text (s : St) (a : Nat) : Option Str := (s.cells a).bind fun k => s.txt k.raw

/-- An allocation gives memory that is not in use. -/
def Unused (s : St) : Where → Prop
  | .at' b => s.bufs b = none
  | _ => True

/-- A raw string that the client may give away. -/
def Mine (cli : Nat → Bool) : UStr → Prop
  | .buf b => cli b = true
  | _ => True

/-- What a client may do. It is documented that raw strings that are not copied are given away
(`cowl_string.h:41-43`, `55-58`). Empty raw strings given to `cowl_string` own no memory. -/
def Legal (w : World) : Op → Prop
  | .make b _ => w.st.bufs b = none
  | .drop b => w.cli b = true
  | .opt m _ _ a u copy _ => w.st.cells a = none ∧ Unused w.st m ∧
      (copy = true → ∃ c, w.st.txt u = some c) ∧ (copy = false → Mine w.cli u)
  | .string _ a u => w.st.cells a = none ∧ Mine w.cli u ∧ ∀ b, u = .buf b → w.st.bufs b ≠ some []
  | .empty => True
  | .intern _ x => w.st.cells x ≠ none
  | .concat m _ a x y => w.st.cells a = none ∧ Unused w.st m ∧ w.st.cells x ≠ none ∧ w.st.cells y ≠ none ∧
      (w.st.text x = some [] → w.st.text y = some [] → ∀ b, m ≠ .at' b)
  | .withFormat m _ a c => w.st.cells a = none ∧ Unused w.st m ∧ (c = [] → ∀ b, m ≠ .at' b)
  | .retain x => w.st.cells x ≠ none
  | .release x => 0 < w.ext x
  | .releaseRaw m x => 0 < w.ext x ∧ Unused w.st m

/-- References the client owns after a call: one more to a string that is returned, but for
`cowl_string_intern`; one less to a string that is released. -/
def extAfter (ext : Nat → Nat) : Op → Res → Nat → Nat
  | .intern _ _, _ => ext
  | .release x, _ => set ext x (ext x - 1)
  | .releaseRaw _ x, _ => set ext x (ext x - 1)
  | _, .ptr (some r) => set ext r (ext r + 1)
  | _, _ => ext

/-- Ownership of a raw string is given away. -/
def disown (cli : Nat → Bool) : UStr → Nat → Bool
  | .buf b => set cli b false
  | _ => cli

/-- Ownership of a raw string is received. -/
def own (cli : Nat → Bool) : UStr → Nat → Bool
  | .buf b => set cli b true
  | _ => cli

/-- Buffers the client owns after a call: those it had, without those it has given away, and with
those it has received. -/
def cliAfter (cli : Nat → Bool) : Op → Res → Nat → Bool
  | .make b _, _ => own cli (.buf b)
  | .drop b, _ => disown cli (.buf b)
  | .opt _ _ _ _ u false _, _ => disown cli u
  | .string _ _ u, _ => disown cli u
  | .releaseRaw _ _, .raw u => own cli u
  | _, _ => cli

/-- What can be reached from the initialisation of the library. -/
inductive Reachable (h : Str → Nat) : World → Prop
  | init (e : Nat) : Reachable h ⟨apiInit h e, fun _ => 0, fun _ => false⟩
  | step {w : World} {op : Op} {s : St} {r : Res} (hw : Reachable h w) (hl : Legal w op)
      (hs : step h w.st op = some (s, r)) : Reachable h ⟨s, extAfter w.ext op r, cliAfter w.cli op r⟩

end Cowl.SBuf
