import Verif.PrtOwn
import Verif.FuncOwnSpec
/-!
# Specification of the references held by the ProtocOWL reader

Which objects and blocks the decoder may meet, what a change handler may do, and what it means that
nothing is leaked.
-/
namespace Cowl.DOwn
open Cowl.Own
open Cowl.YOwn (Leaf HopsFair)

/-- What may be met. Blocks are not in use, each is given once. Objects that are found rather than
created are in memory. A literal without datatype gets one. The handler does only what it is allowed
to do. -/
structure Entry.Fair (e : Entry) : Prop where
  blocks : Blocks e.st [e.pick.m₁, e.pick.m₂, e.pick.m₃, e.pick.leaf.block, e.pick.value.bind Leaf.block,
    e.pick.tag.bind Leaf.block]
  leaf : e.pick.leaf.Fair e.st
  value : ∀ l ∈ e.pick.value, l.Fair e.st
  tag : ∀ l ∈ e.pick.tag, l.Fair e.st
  lit : e.site = .lit none → e.pick.tag ≠ none
  hops : ∀ g, e.site = .handle g → HopsFair g e.st e.others e.pick.ops

/-- What goes well although the decoder does not check it: the type of a literal is known; there is
memory for the datatype of a literal, for the place of an anonymous individual in the index, and for a
literal with a language tag; a plain literal has a tag behind its last `@`; and the operands of a
sub-property axiom could be decoded. -/
def Entry.Sturdy (e : Entry) : Prop :=
  match e.site with
  | .header => ∀ h, e.pick.num = some h → h % 4 ≠ 3
  | .datatype => e.pick.leaf ≠ .null
  | .anonIndex => e.pick.ok = true
  | .lit _ => e.pick.bare = false ∧ (e.pick.isLang = true → e.pick.m₁ ≠ none)
  | .sub chain xs => none ∉ xs ∨ chain = false ∧ e.pick.m₁ = none
  | _ => True

/-- A decoder before anything has been read, after any history of calls. The first argument lists the
references of the library to the namespaces that are always there. -/
def Starts (std : List Nat) (d : D) : Prop :=
  Own.Reaches Own.Sturdy d.st ∧ (∀ a, d.st.ext a = d.others a + std.count a) ∧ d.ids = [] ∧ d.nss = [] ∧
    d.err = false

/-- Nothing belongs to the decoder any more: every reference belongs to an object, to the outside, or
to the vocabulary, and exactly those objects are in memory that can be reached from there. -/
def Returned (std : List Nat) (d : D) : Prop :=
  (∀ a, d.st.ext a = d.others a + std.count a) ∧
    ∀ a, d.st.live a = true ↔ ∃ r, (0 < d.others r ∨ r ∈ std) ∧ Path d.st r a

end Cowl.DOwn
