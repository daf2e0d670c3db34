import Verif.PrefixMap
/-! # Specification of prefix maps: functions from prefixes to namespaces -/
namespace Cowl.PrefixSpec
open Prefix

/-- What a prefix map means: a partial function from prefixes to namespaces. -/
abbrev Abs := Str → Option Str

/-- The namespace a registration gives to a prefix: the four standard prefixes keep
their standard namespaces. -/
def std (p n : Str) : Str :=
  if p = ascii "owl" then ascii "http://www.w3.org/2002/07/owl#"
  else if p = ascii "rdf" then ascii "http://www.w3.org/1999/02/22-rdf-syntax-ns#"
  else if p = ascii "rdfs" then ascii "http://www.w3.org/2000/01/rdf-schema#"
  else if p = ascii "xsd" then ascii "http://www.w3.org/2001/XMLSchema#"
  else n

/-- Registration of one prefix. -/
def Abs.add (a : Abs) (p n : Str) (overwrite : Bool) : Abs := fun q =>
  if q = p ∧ (overwrite = true ∨ a p = none) then some (std p n) else a q

/-- Removal of a prefix. -/
def Abs.removePrefix (a : Abs) (p : Str) : Abs := fun q => if q = p then none else a q

/-- Removal of a namespace. -/
def Abs.removeNs (a : Abs) (n : Str) : Abs := fun q => if a q = some n then none else a q

/-- The prefix has this namespace in the table. -/
def Registers (src : Fwd) (p n : Str) : Prop := ∃ e ∈ src, e.1.txt = p ∧ e.2 = n

/-- No prefix occurs twice. -/
def Distinct (f : Fwd) : Prop := f.Pairwise fun x y => x.1.txt ≠ y.1.txt

/-- Meaning of a table without repeated prefixes. -/
def meaning : Fwd → Abs
  | [], _ => none
  | e :: f, q => if e.1.txt = q then some e.2 else meaning f q

/-- Merging. -/
def Abs.merge (a : Abs) (src : Fwd) (overwrite : Bool) : Abs := fun q =>
  match meaning src q with
  | none => a q
  | some n => if overwrite = true ∨ a q = none then some (std q n) else a q

/-- The meaning of a new map: the standard prefixes, then those of the default map. -/
def initial (dflt : Fwd) : Abs := fun q =>
  if q = ascii "owl" ∨ q = ascii "rdf" ∨ q = ascii "rdfs" ∨ q = ascii "xsd" then some (std q [])
  else meaning dflt q

/-- A prefix map of the program and its meaning, after any history of calls; the
iteration order of the table may change at any time. With `calm`, the history
changes no prefix that is registered with another namespace. -/
inductive Reaches (calm : Prop) : PMap → Abs → Prop
  | create (ks : List Nat) (dflt : Fwd) : ks.length = 4 → Distinct dflt →
      Reaches calm (Prefix.create ks dflt) (initial dflt)
  | add {m a} (p : SRef) (n : Str) (ow : Bool) : Reaches calm m a →
      (calm → ow = true → ∀ n', a p.txt = some n' → n' = std p.txt n) →
      Reaches calm (m.add p n ow).1 (a.add p.txt n ow)
  | removePrefix {m a} (p : Str) : Reaches calm m a →
      Reaches calm (m.removePrefix p).1 (a.removePrefix p)
  | removeNs {m a} (n : Str) : Reaches calm m a → Reaches calm (m.removeNs n).1 (a.removeNs n)
  | merge {m a} (src : Fwd) (ow : Bool) : Reaches calm m a → Distinct src →
      (calm → ow = true → ∀ p n n', Registers src p n → a p = some n' → n' = std p n) →
      Reaches calm (m.merge src ow).1 (a.merge src ow)
  | getPrefix {m a} (n : Str) : Reaches calm m a → Reaches calm (m.getPrefix n).1 a
  | reorder {m a} (f : Fwd) : Reaches calm m a → f.Perm m.fwd →
      Reaches calm { m with fwd := f } a

end Cowl.PrefixSpec
