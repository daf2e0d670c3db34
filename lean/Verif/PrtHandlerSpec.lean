import Verif.PrtDoc
/-! # Specification: change handlers of the ProtocOWL reader -/
namespace Cowl
open Prt

/-- The items go to a handler one by one, up to the first one for which it returns an error:
its state and the code of the last call. -/
def feedFrom {σ ι : Type} (k : Callback σ ι) : Ret → σ → List ι → σ × Ret
  | x, c, [] => (c, x)
  | _, c, i :: is => if (k c i).2.isErr then k c i else feedFrom k (k c i).2 (k c i).1 is

/-- The same from the beginning; the code is OK if there was no call. -/
def feed {σ ι : Type} (k : Callback σ ι) (c : σ) (is : List ι) : σ × Ret := feedFrom k .ok c is

/-- A handler that accepts everything and notes it. -/
def noteAll {ι : Type} : Callback (List ι) ι := fun s i => (s ++ [i], .ok)

/-- The changes that are in an input, and how reading it ends for a handler that accepts
everything. -/
def prtChanges (E : Env) (text : Str) : List (Bool × Func.Item) × End := prtRead E noteAll text []

/-- What reading does with a handler that may refuse, given the changes in the input: its
state and the result. An error of the handler is the result, or the input is bad anyway. If
its last code is NO that may be the result. -/
def Seen {σ : Type} (k : Callback σ (Bool × Func.Item)) (c : σ) (r : List (Bool × Func.Item) × End) (r' : σ × End) : Prop :=
  r'.1 = (feed k c r.1).1 ∧
    ((feed k c r.1).2.isErr = false →
      r'.2 = r.2 ∨ r.2 = .done ∧ (feed k c r.1).2 = .no ∧ r'.2 = .refused .no) ∧
    ((feed k c r.1).2.isErr = true → r'.2 = .refused (feed k c r.1).2 ∨ r'.2 = .rejected ∧ r.2 = .rejected)

end Cowl
