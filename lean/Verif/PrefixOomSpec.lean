import Verif.PrefixOom
import Verif.PrefixMapSpec
/-! # Specification: prefix maps when memory runs out -/
namespace Cowl.PrefixOom
open Cowl.Prefix Cowl.PrefixSpec

/-- A prefix map and its meaning after any history of calls, each of which may fail. After a removal
or a merge that fails the meaning is taken to be what `get_ns` tells, see C81. With `calm`, the history
changes no prefix that is registered with another namespace, and no removal fails. -/
inductive Reaches (calm : Prop) : OMap → Abs → Prop
  | create {m} (mem : List Bool) (ks : List Nat) (dflt : Fwd) : ks.length = 4 → Distinct dflt →
      PrefixOom.create mem ks dflt = some m → Reaches calm m (initial dflt)
  | add {m a} (mem : List Bool) (p : SRef) (n : Str) (ow : Bool) : Reaches calm m a → (m.add mem p n ow).2.1 ≠ .errMem →
      (calm → ow = true → ∀ n', a p.txt = some n' → n' = std p.txt n) →
      Reaches calm (m.add mem p n ow).1 (a.add p.txt n ow)
  | addFails {m a} (mem : List Bool) (p : SRef) (n : Str) (ow : Bool) : Reaches calm m a →
      (m.add mem p n ow).2.1 = .errMem → Reaches calm (m.add mem p n ow).1 a
  | removePrefix {m a} (mem : List Bool) (p : Str) : Reaches calm m a → (m.removePrefix mem p).2 ≠ .errMem →
      Reaches calm (m.removePrefix mem p).1 (a.removePrefix p)
  | removePrefixFails {m a} (mem : List Bool) (p : Str) : Reaches calm m a → ¬ calm → (m.removePrefix mem p).2 = .errMem →
      Reaches calm (m.removePrefix mem p).1 (m.removePrefix mem p).1.map.getNs
  | removeNs {m a} (mem : List Bool) (n : Str) : Reaches calm m a → (m.removeNs mem n).2 ≠ .errMem →
      Reaches calm (m.removeNs mem n).1 (a.removeNs n)
  | removeNsFails {m a} (mem : List Bool) (n : Str) : Reaches calm m a → ¬ calm → (m.removeNs mem n).2 = .errMem →
      Reaches calm (m.removeNs mem n).1 (m.removeNs mem n).1.map.getNs
  | merge {m a} (mem : List Bool) (src : Fwd) (ow : Bool) : Reaches calm m a → Distinct src →
      (m.merge mem src ow).2 ≠ .errMem →
      (calm → ow = true → ∀ p n n', Registers src p n → a p = some n' → n' = std p n) →
      Reaches calm (m.merge mem src ow).1 (a.merge src ow)
  | mergeFails {m a} (mem : List Bool) (src : Fwd) (ow : Bool) : Reaches calm m a → Distinct src →
      (m.merge mem src ow).2 = .errMem →
      (calm → ow = true → ∀ p n n', Registers src p n → a p = some n' → n' = std p n) →
      Reaches calm (m.merge mem src ow).1 (m.merge mem src ow).1.map.getNs
  | getPrefix {m a} (mem : List Bool) (n : Str) : Reaches calm m a → Reaches calm (m.getPrefix mem n).1 a
  | reorder {m a} (f : Fwd) : Reaches calm m a → f.Perm m.map.fwd →
      Reaches calm { m with map := { m.map with fwd := f } } a

end Cowl.PrefixOom
