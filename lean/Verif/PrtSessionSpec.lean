import Verif.PrtStreamSpec
import Verif.PrtHandlerSpec
/-! # Specification of ProtocOWL update streams -/
namespace Cowl
open Prt

/-- The axioms that operations write. -/
def axiomsWritten : List SOp → List Ref
  | [] => []
  | .ax x :: ops => x :: axiomsWritten ops
  | _ :: ops => axiomsWritten ops

/-- The same with what they are for: after a remove frame axioms are removals (true), up to
the next add frame. -/
def changes : Bool → List SOp → List (Bool × Ref)
  | _, [] => []
  | rm, .ax x :: ops => (rm, x) :: changes rm ops
  | _, .addFrame :: ops => changes false ops
  | _, .removeFrame :: ops => changes true ops
  | rm, .resetFrame _ :: ops => changes rm ops

/-- Changes in another order: neighbours of the same kind, but of different axiom types, have
changed places. -/
inductive Reordered : List (Bool × Ref) → List (Bool × Ref) → Prop
  | refl (l) : Reordered l l
  | swap (l) (r : Bool) (x y : Ref) (m) (h : axType x.obj ≠ axType y.obj) :
      Reordered (l ++ (r, x) :: (r, y) :: m) (l ++ (r, y) :: (r, x) :: m)
  | trans {l m n} : Reordered l m → Reordered m n → Reordered l n

/-- What an update stream tells: the items of its header, as additions, then the changes. -/
def PrtSessionTells (h : Prt.Header) (ops : List SOp) (items : List (Bool × Func.Item)) : Prop :=
  ∃ (hs : List Func.Item) (cs : List (Bool × Ref)), PrtStreamTells h [] hs ∧ Reordered cs (changes false ops) ∧
    items = hs.map (fun i => (false, i)) ++ cs.map fun c => (c.1, .ax c.2.obj)

end Cowl
