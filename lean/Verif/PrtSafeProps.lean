import Verif.PrtFrameLemmas
import Verif.PrtConstrProps
/-!
# C39: any input of the ProtocOWL reader
-/
namespace Cowl
open Prt
open Func (Item)

section
variable {σ : Type} (E : Env) (h : Callback σ (Bool × Item))

/-- C39, termination: reading any input ends. The bound on the number of frames is not
reached, and neither is the one on the nesting of constructs: larger ones make no
difference. -/
theorem C39_terminates (hu : E.u.Lawful) (s : FSt σ) :
    (∀ n, s.dec.inp.length < n → frames E h n s = frames E h (s.dec.inp.length + 1) s) ∧
    (∀ n c, s.dec.inp.length < n → decAxiom E n c s.dec = decAxiom E (s.dec.inp.length + 1) c s.dec) ∧
    ∀ n, s.dec.inp.length < n → decAnnot E n s.dec = decAnnot E (s.dec.inp.length + 1) s.dec := by
  refine ⟨fun n hn => frames_fuel hu _ _ hn _ (Nat.lt_succ_self _), fun n c hn => ?_, fun n hn => ?_⟩
  · exact ((le_decAxiom hu (Nat.lt_succ_self _) hn c) s.dec (Nat.le_refl _)).1.symm
  · exact ((le_decAnnot hu _ _ (Nat.lt_succ_self _) _ hn) s.dec (Nat.le_refl _)).1.symm

/-- C39 for the program except for three missing checks. With them no input is undefined.
Without them, input that is not rejected has the same effect, and input that is rejected
with them is rejected or undefined (an axiom may have been delivered to the handler before
that). Missing: the checks, see `C39_fails`. -/
theorem C39_partial (text : Str) (s : σ) :
    (prtRead E.check h text s).2 ≠ .ub ∧
    ((prtRead E.check h text s).2 ≠ .rejected → prtRead E h text s = prtRead E.check h text s) ∧
    ((prtRead E.check h text s).2 = .rejected → (prtRead E h text s).2 = .rejected ∨ (prtRead E h text s).2 = .ub) := by
  have key : (prtRead E.check h text s).2 ≠ .ub ∧ (prtRead E h text s = prtRead E.check h text s ∨
      ((prtRead E.check h text s).2 = .rejected ∧
        ((prtRead E h text s).2 = .rejected ∨ (prtRead E h text s).2 = .ub))) := by
    unfold prtRead
    cases text with
    | nil => exact ⟨nofun, .inl rfl⟩
    | cons c r =>
      dsimp only
      split
      · exact sim_frames _ _
      · exact ⟨nofun, .inl rfl⟩
  refine ⟨key.1, fun hr => ?_, fun hr => ?_⟩
  · rcases key.2 with e | e
    · exact e
    · exact absurd e.1 hr
  · rcases key.2 with e | e
    · exact .inl (by rw [e]; exact hr)
    · exact e.2

/-- The first byte must be the version of the format. -/
theorem C39_version (c : UInt8) (r : Str) (s : σ) (hc : c ≠ 1) : prtRead E h (c :: r) s = (s, .rejected) := by
  unfold prtRead
  exact if_neg hc

end

/-! ## Counterexamples -/

/-- A handler that counts. -/
def counter : Callback Nat (Bool × Item) := fun n _ => (n + 1, .ok)

/-- The version, and `rdf:p` declared with index 0. -/
def prtStart : Str := [1, 69, 1, 0, 1, 112]

/-- C39 is false as stated. Undefined:
* a data property assertion whose literal has type 3 (NULL without an error);
* a sub-property axiom frame at the end of the input: the operands are NULL;
* a literal with the datatype `rdf:langString` and no `@`.
Moreover, a sub-property axiom whose annotations cannot be read is delivered to the handler
before the input is rejected. With the missing checks all of these are rejected, and
nothing is delivered. -/
theorem C39_fails :
    prtRead lebEnv counter (prtStart ++ [45, 0, 0, 3, 0]) 0 = (0, .ub) ∧
    prtRead lebEnv counter [1, 19] 0 = (0, .ub) ∧
    prtRead lebEnv counter ([1, 69, 1, 0, 10] ++ ascii "langString" ++ [45, 0, 0, 2, 1, 97, 0]) 0 = (0, .ub) ∧
    prtRead lebEnv counter (prtStart ++ [83, 1, 1, 7]) 0 = (1, .rejected) ∧
    prtRead lebEnv.check counter (prtStart ++ [45, 0, 0, 3, 0]) 0 = (0, .rejected) ∧
    prtRead lebEnv.check counter [1, 19] 0 = (0, .rejected) ∧
    prtRead lebEnv.check counter ([1, 69, 1, 0, 10] ++ ascii "langString" ++ [45, 0, 0, 2, 1, 97, 0]) 0 =
      (0, .rejected) ∧
    prtRead lebEnv.check counter (prtStart ++ [83, 1, 1, 7]) 0 = (0, .rejected) := by
  refine ⟨?_, ?_, ?_, ?_, ?_, ?_, ?_, ?_⟩ <;> decide +kernel

/-! ## Non-vacuity -/

/-- Input that is accepted: one sub-property axiom. -/
example : prtRead lebEnv counter (prtStart ++ [19, 1, 1]) 0 = (1, .done) ∧
    prtRead lebEnv.check counter (prtStart ++ [19, 1, 1]) 0 = (1, .done) ∧ lebEnv.u.Lawful := by
  refine ⟨by decide +kernel, by decide +kernel, leb_lawful⟩

end Cowl
