import Verif.PrtIoLemmas
import Verif.PrtCutProps
import Verif.PrtSafeProps
/-!
# C86: failures of the stream while a ProtocOWL document is read

The full statement: if the stream fails before a ProtocOWL document has been read, an error is returned,
nothing is undefined, and all that the handler was told is in the document. It fails, see `C86_fails`.
-/
namespace Cowl
open Prt Func Change

/-- C86, the part that holds without the missing checks: if the reader accepts what it got from a stream
that then fails, or returns a code of the handler, then it does the same whatever follows. So a document
is never accepted in part. -/
theorem C86_partial {σ : Type} {E : Env} (hu : E.u.Lawful) (hl : E.u.Local) (h : Callback σ (Bool × Item)) (p : Str) (c c' : σ)
    (e : End) (hr : prtReadIo E h p c = (c', e)) (h1 : e ≠ .rejected) (h2 : e ≠ .ub) (q : Str) :
    prtRead E h (p ++ q) c = (c', e) := by
  unfold prtReadIo at hr
  unfold prtRead
  cases p with
  | nil => cases hr; exact absurd rfl h1
  | cons b r =>
    dsimp only [List.cons_append] at hr ⊢
    split at hr
    · rename_i hb
      rw [if_pos hb]
      exact framesIo_ext hl hu q _ _ ⟨c, ⟨r, {}, 0⟩, false, .ok⟩ c' e (Nat.lt_succ_self _) (Nat.lt_succ_self _) hr h1 h2
    · cases hr; exact absurd rfl h1

/-- C86: a stream that fails has the effect of one that ends there, but for the result, which is an
error if the input could have ended there. -/
theorem C86_ends {σ : Type} (E : Env) (h : Callback σ (Bool × Item)) (p : Str) (c : σ) :
    (prtReadIo E h p c).1 = (prtRead E h p c).1 ∧
    ((prtReadIo E h p c).2 = (prtRead E h p c).2 ∨ (prtReadIo E h p c).2 = .rejected ∧ (prtRead E h p c).2 ≠ .ub) := by
  unfold prtReadIo prtRead
  cases p with
  | nil => exact ⟨rfl, .inl rfl⟩
  | cons b r =>
    dsimp only
    split
    · exact framesIo_frames _ _
    · exact ⟨rfl, .inl rfl⟩

/-- C86: with the checks that the program lacks, nothing is undefined. -/
theorem C86_defined {σ : Type} (E : Env) (h : Callback σ (Bool × Item)) (p : Str) (c : σ) :
    (prtReadIo E.check h p c).2 ≠ .ub := by
  rcases (C86_ends E.check h p c).2 with e | e
  · rw [e]
    exact (C39_partial E h p c).1
  · rw [e.1]
    exact nofun

/-- C86: what is told before a failure is told of the whole input, but for one sub-property axiom before
an error. -/
theorem C86_told {E : Env} (hu : E.u.Lawful) (hl : E.u.Local) (p q : Str) :
    Begins E (prtReadIo E noteAll p []) (prtChanges E (p ++ q)).1 := by
  have h1 := C86_ends E noteAll p []
  rcases C56_partial hu hl p q with k | k
  · left
    rw [h1.1]
    exact k
  · right
    refine ⟨k.1, ?_, ?_⟩
    · rcases h1.2 with e | e
      · rw [e]
        exact k.2.1
      · exact e.1
    · rw [h1.1]
      exact k.2.2

/-- C86: a handler that accepts everything is told the whole document if the result is no error. -/
theorem C86_whole {E : Env} (hu : E.u.Lawful) (hl : E.u.Local) (p q : Str) (hr : (prtReadIo E noteAll p []).2 = .done) :
    (prtReadIo E noteAll p []).1 = (prtChanges E (p ++ q)).1 ∧ (prtChanges E (p ++ q)).2 = .done := by
  have k : prtReadIo E noteAll p [] = ((prtReadIo E noteAll p []).1, .done) := Prod.ext rfl hr
  unfold prtChanges
  rw [C86_partial hu hl noteAll p [] _ _ k (fun h => nomatch h) (fun h => nomatch h) q]
  exact ⟨rfl, rfl⟩

/-- How reading ends if the stream fails after some bytes of the document, with an end frame, and how many
changes it tells. -/
def streamFails (n : Nat) : End × Nat :=
  let r := prtReadIo lebEnv noteAll ((docOf declNoted ++ [3]).take n) []
  (r.2, r.1.length)

/-- The stream fails after the end frame, before it, after the first axiom, and before the header. -/
example : streamFails 54 = (.done, 2) ∧ streamFails 53 = (.rejected, 2) ∧ streamFails 45 = (.rejected, 1) ∧ streamFails 0 = (.rejected, 0) := by
  refine ⟨?_, ?_, ?_, ?_⟩ <;> decide +kernel

/-- C86 is false as stated.

* If the stream fails after the header of a sub-property axiom, the result is undefined.
* If it fails within its annotations, the handler is told an axiom that is not in the document. -/
theorem C86_fails :
    streamFails 46 = (.ub, 1) ∧ streamFails 48 = (.rejected, 2) ∧
    (prtReadIo lebEnv noteAll ((docOf declNoted ++ [3]).take 48) []).1.map (fun c => match c.2 with
      | .ax (.comp t _ fs _) => some (t, fs.length)
      | _ => none) = [some (.aDecl, 1), some (.aSubObjProp, 2)] ∧
    (prtChanges lebEnv (docOf declNoted ++ [3])).1.map (fun c => match c.2 with
      | .ax (.comp t _ fs _) => some (t, fs.length)
      | _ => none) = [some (.aDecl, 1), some (.aSubObjProp, 3)] := by
  refine ⟨?_, ?_, ?_, ?_⟩ <;> decide +kernel

end Cowl
