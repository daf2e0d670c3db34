import Verif.Lib
/-! # Specification: initialisation of the library -/
namespace Cowl.Lib

/-- References that the program holds, by address. -/
abbrev Own := Nat → Nat

/-- Those after an operation. -/
def Own.after (n : Own) : Op → Own
  | .new a => fun b => if b = a then 1 else n b
  | .keep a => fun b => if b = a then n b + 1 else n b
  | .drop a => fun b => if b = a then n b - 1 else n b
  | _ => n

/-- After several operations. -/
def Own.afterAll (n : Own) (ops : List Op) : Own := ops.foldl Own.after n

/-- Memory is free, there is enough of it, and new objects are distinct. -/
def Fresh (l : St) (al : Slot → Option Nat) : Prop :=
  (∀ s, ∃ a, al s = some a ∧ l.refs a = 0) ∧ ∀ s t, al s = al t → s = t

/-- A program that keeps the rules: it initialises the library before it sets defaults, which it
owns; memory that is allocated was free, and does not run out in `cowl_init`. -/
def Allowed (l : St) (n : Own) : Op → Prop
  | .init al => l.inited = false → Fresh l al
  | .deinit => True
  | .setReader x => l.inited = true ∧ ∃ a, x = some a ∧ 0 < n a
  | .setWriter x => l.inited = true ∧ ∃ a, x = some a ∧ 0 < n a
  | .new a => l.refs a = 0
  | .keep a => 0 < n a
  | .drop a => 0 < n a

/-- All operations are allowed, as long as there is no undefined behaviour. -/
def Calm : St → Own → List Op → Prop
  | _, _, [] => True
  | l, n, op :: ops => Allowed l n op ∧ ∀ l', l.op op = some l' → Calm l' (n.after op) ops

/-- All variables. -/
def slots : List Slot := [.empty, .owl, .rdf, .rdfs, .xml, .xsd, .reader, .writer, .pmap]

/-- How many variables point to an object. -/
def St.pointers (l : St) (a : Nat) : Nat := (slots.map fun s => if l.ptr s = some a then 1 else 0).sum

end Cowl.Lib
