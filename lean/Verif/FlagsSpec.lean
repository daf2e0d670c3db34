import Verif.Flags
/-!
# Specification of object lifetime

An owner count that starts at one. Independent of the flags word.
-/
namespace Cowl.Flags

/-- Outcome of a history of retain/release calls, by counting owners only. -/
inductive Life where
  | alive (owners : Nat)
  | dead
  | misuse
deriving DecidableEq, Repr

/-- One call. -/
def Life.step : Life → Op → Life
  | .alive n, .retain => .alive (n + 1)
  | .alive n, .release => if n = 1 then .dead else .alive (n - 1)
  | .dead, _ => .misuse
  | .misuse, _ => .misuse

/-- A history, starting from the creator's reference. -/
def Life.run (ops : List Op) : Life := ops.foldl Life.step (.alive 1)

/-- The owner count never reaches the capacity `cap` along the history. -/
def Life.Within (cap : Nat) (l : Life) : List Op → Prop
  | [] => ∀ n, l = .alive n → n < cap
  | op :: ops => (∀ n, l = .alive n → n < cap) ∧ Life.Within cap (l.step op) ops

end Cowl.Flags
