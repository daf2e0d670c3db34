import Verif.Coll
/-!
# Specification of the ownership of collections

Who holds references, and what a client may do.
-/
namespace Cowl.Coll

/-- The references to an object: those of the client and those of its collections. A raw collection
holds references to what was collected with `retain`; vectors hold one for each time the object is
listed, tables one for each time it is a key or value. -/
def St.owners (s : St) (a : Nat) : Nat :=
  s.held a + (s.raws.map fun r => if r.keep then r.items.count a else 0).sum
    + (s.vecs.map fun v => v.2.count a).sum + (s.tabs.map fun t => (t.2.map fun e => (if e.1 = a then 1 else 0) + if e.2 = some a then 1 else 0).sum).sum

/-- An object that someone holds. -/
def St.alive (s : St) (a : Nat) : Prop := 0 < s.owners a

/-- What the documentation asks of clients: objects that are passed exist, references that are given
away are held, `cowl_vector` is called with vectors, `cowl_table` with sets, and `cowl_vector_wrap`,
which does not retain the elements, only with vectors that own them. -/
def Legal (s : St) : Op → Prop
  | .collect _ objs _ => ∀ a ∈ objs, s.alive a
  | .vector i _ => ∀ r ∈ s.raws[i]?, r.set = false ∧ ∀ a ∈ r.items, s.alive a
  | .wrap i _ => ∀ r ∈ s.raws[i]?, r.set = false ∧ r.keep = true
  | .table i _ => ∀ r ∈ s.raws[i]?, r.set = true ∧ ∀ a ∈ r.items, s.alive a
  | .tableOf raw _ => ∀ e ∈ raw, ∀ x ∈ e, s.alive x.1 ∧ ∀ a ∈ x.2, s.alive a
  | .retain a => s.alive a
  | .release a => 0 < s.held a
  | .add _ a _ => s.alive a
  | .push _ a _ => 0 < s.held a
  | _ => True

instance (s : St) (o : Op) : Decidable (Legal s o) := by
  cases o <;> unfold Legal <;> unfold St.alive <;> infer_instance

/-- A history in which every operation is legal. -/
def LegalRun (eq : Nat → Nat → Bool) : St → List Op → Prop
  | _, [] => True
  | s, o :: l => Legal s o ∧ ∀ t ∈ s.step eq o, LegalRun eq t l

instance decLegalRun (eq : Nat → Nat → Bool) : (s : St) → (l : List Op) → Decidable (LegalRun eq s l)
  | _, [] => inferInstanceAs (Decidable True)
  | s, o :: l =>
    have : ∀ t, Decidable (LegalRun eq t l) := fun t => decLegalRun eq t l
    inferInstanceAs (Decidable (Legal s o ∧ ∀ t ∈ s.step eq o, LegalRun eq t l))

/-- The operation is not a `cowl_table_empty` for which there is no memory. -/
def Covered (o : Op) : Prop := o ≠ .tableOf none false

/-- Every count is the number of references that someone holds. -/
def Balanced (s : St) : Prop := ∀ a, s.rc a = s.owners a

/-- A client that has no collections yet. -/
def start (held : Nat → Nat) : St := { rc := held, held }

end Cowl.Coll
