import Verif.Writer
import Verif.ChangeSpec
/-! # Specification: writing an ontology piece by piece -/
namespace Cowl.Writer
open Change

/-- Calls of a writer. -/
inductive Call where
  | header (h : Header)
  | ax (x : Ref)
  | footer

/-- The three functions as one. -/
def serve {σ : Type} (h : Callback σ Header) (a : Callback σ Ref) (f : σ → σ × Ret) : Callback σ Call := fun s c =>
  match c with
  | .header x => h s x
  | .ax x => a s x
  | .footer => f s

/-- Calls are made up to the first one with a code other than OK, which is the result. -/
def obey {σ : Type} (k : Callback σ Call) : List Call → σ → σ × Ret
  | [], s => (s, .ok)
  | c :: cs, s => if (k s c).2 = .ok then obey k cs (k s c).1 else k s c

end Cowl.Writer
