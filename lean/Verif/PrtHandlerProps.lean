import Verif.PrtHandlerLemmas
import Verif.PrtSafeProps
/-!
# C57: the ProtocOWL reader tells the same to every handler
-/
namespace Cowl
open Prt

/-- C57, except for `COWL_NO` and for the result in one case: for any input and any handler,
the handler is called on the changes that are in the input, in order, up to the first one for
which it returns an error. That error is the result; if there is none, the result does not
depend on the handler, unless its last code is `COWL_NO`. Missing: `COWL_NO` does not end the
reading; the code, if the input is bad too. See `C57_fails`. -/
theorem C57_partial {σ : Type} (E : Env) (k : Callback σ (Bool × Func.Item)) (text : Str) (c : σ) :
    Seen k c (prtChanges E text) (prtRead E k text c) := by
  have h0 : Seen k c (([], .rejected) : List (Bool × Func.Item) × End) (c, .rejected) :=
    ⟨rfl, fun _ => .inl rfl, fun h => by cases h⟩
  unfold prtChanges prtRead
  split
  · exact h0
  · split
    · exact frames_seen E _ _ _ ⟨rfl, rfl, rfl, .ok, rfl, rfl, .inl rfl⟩
    · exact h0

/-- C57 for input that is good up to its end and handlers that do not return `COWL_NO` in the
end: the result is as it should be. -/
theorem C57_good {σ : Type} (E : Env) (k : Callback σ (Bool × Func.Item)) (text : Str) (c : σ)
    (h : (prtChanges E text).2 = .done) :
    (prtRead E k text c).1 = (feed k c (prtChanges E text).1).1 ∧
    ((prtRead E k text c).2 = ended (feed k c (prtChanges E text).1).2 ∨
      (feed k c (prtChanges E text).1).2 = .no ∧ (prtRead E k text c).2 = .done) := by
  obtain ⟨h1, h2, h3⟩ := C57_partial E k text c
  refine ⟨h1, ?_⟩
  rw [h] at h2 h3
  cases hf : (feed k c (prtChanges E text).1).2 with
  | ok => exact .inl ((h2 (by rw [hf]; rfl)).resolve_right fun h' => by rw [hf] at h'; cases h'.2.1)
  | no =>
    rcases h2 (by rw [hf]; rfl) with h2 | h2
    · exact .inr ⟨rfl, h2⟩
    · exact .inl h2.2.2
  | _ =>
    rw [hf] at h3
    exact .inl ((h3 rfl).resolve_right fun h' => by cases h'.2)

/-- Counts, and has no memory for the second item. -/
def full : Callback Nat (Bool × Func.Item) := fun n _ => (n + 1, if n = 0 then .ok else .errMem)

/-- Counts, and asks to stop at the second item. -/
def stops : Callback Nat (Bool × Func.Item) := fun n _ => (n + 1, if n = 1 then .no else .ok)

/-- An input with three changes: the second one is refused. -/
example : (prtChanges lebEnv (prtStart ++ [6, 0, 7, 2, 0, 0])).2 = .done ∧
    (prtChanges lebEnv (prtStart ++ [6, 0, 7, 2, 0, 0])).1.length = 3 ∧
    prtRead lebEnv full (prtStart ++ [6, 0, 7, 2, 0, 0]) 0 = (2, .refused .errMem) := by
  refine ⟨?_, ?_, ?_⟩ <;> decide +kernel

/-- C57 is false as stated.
1. An axiom that was only read in part is told to the handler, whose code is dropped.
2. `COWL_STOP`, that is `COWL_NO`, does not end the reading: the handler is called again, and
   the result is OK. -/
theorem C57_fails :
    ((prtChanges lebEnv (prtStart ++ [6, 0, 83, 1, 1, 7])).1.length = 2 ∧
      (feed full 0 (prtChanges lebEnv (prtStart ++ [6, 0, 83, 1, 1, 7])).1).2 = .errMem ∧
      prtRead lebEnv full (prtStart ++ [6, 0, 83, 1, 1, 7]) 0 = (2, .rejected)) ∧
    ((prtChanges lebEnv (prtStart ++ [6, 0, 7, 2, 0, 0])).1.length = 3 ∧
      prtRead lebEnv stops (prtStart ++ [6, 0, 7, 2, 0, 0]) 0 = (3, .done)) := by
  refine ⟨⟨?_, ?_, ?_⟩, ?_, ?_⟩ <;> decide +kernel

end Cowl
