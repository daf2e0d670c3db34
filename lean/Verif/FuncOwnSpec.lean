import Verif.FuncOwn
import Verif.OwnSpec
/-!
# Specification of the references held by the functional reader

Which objects and blocks the library may come up with, what a change handler may do, and what it
means that nothing is leaked.
-/
namespace Cowl.YOwn
open Cowl.Own

/-- The pointer in a value. -/
def Val.ptrs : Val → List Nat
  | .ptr (some a) => [a]
  | _ => []

/-- The references the parser holds, one for each pointer on its stack. -/
def owned (l : List (Sym × Val)) : List Nat := l.flatMap fun e => e.2.ptrs

/-- The quoted strings on the stack whose text nothing has taken yet. -/
def strings (l : List (Sym × Val)) : Nat := (l.map (·.1)).count (.t .qstr)

/-- The quoted string that has been read in advance. -/
def lookStrings : Option Term → Nat
  | some .qstr => 1
  | _ => 0

/-- The block a new object takes. -/
def Leaf.block : Leaf → Option Nat
  | .fresh m _ => some m
  | _ => none

/-- An object that is found rather than created is in memory, and is a string, an IRI, an entity or an
anonymous individual. -/
def Leaf.Fair (s : St) : Leaf → Prop
  | .shared a => ∃ o, s.cell a = some (.leaf o)
  | _ => True

/-- The handler retains only what it has been given or what it can reach from objects that are
referenced from outside the parser, and releases only references of its own. -/
def HopsFair (given : List Nat) : St → (Nat → Nat) → List HOp → Prop
  | _, _, [] => True
  | s, others, .retain a :: l =>
    (∃ r, (0 < others r ∨ r ∈ given) ∧ Path s r a) ∧
      ∀ s' r, s.step (.retain a) = some (s', r) →
        HopsFair given s' (fun b => if b = a then others b + 1 else others b) l
  | s, others, .release a :: l =>
    0 < others a ∧
      ∀ s' r, s.step (.release a) = some (s', r) →
        HopsFair given s' (fun b => if b = a then others b - 1 else others b) l

/-- What a statement may meet. Blocks are not in use, each is given once. A literal without datatype
gets one. A plain literal has a tag behind its last `@`; without, `cowl_literal` goes wrong, see
`C25_fails` and `C78_fails_plain`. -/
structure Meets (args : List Val) (x : Stmt) (c : Choice) (f : Frame) : Prop where
  blocks : Blocks f.st [c.m₁, c.m₂, c.m₃, c.leaf.block, c.value.bind Leaf.block, c.tag.bind Leaf.block]
  leaf : c.leaf.Fair f.st
  value : ∀ l ∈ c.value, l.Fair f.st
  tag : ∀ l ∈ c.tag, l.Fair f.st
  lit : ∀ i, x = .lit i none → c.tag ≠ none
  plain : c.bare = false
  hops : ∀ l, x = .handle l → ∀ xs, ptrsAt args l = some xs → HopsFair xs f.st f.others c.ops

/-- There is memory for composites and vectors. Strings, IRIs, entities and anonymous individuals may
still fail to be created. -/
def Calm (c : Choice) : Prop := c.m₁.isSome ∧ c.m₂.isSome ∧ c.m₃.isSome ∧ c.ok = true

/-- The condition on what the statements of an action meet, one after the other. -/
def ActMeets (P : Choice → Prop) (args : List Val) : List Stmt → List Choice → Frame → Prop
  | [], _, _ => True
  | x :: xs, cs, f =>
    P (cs.headD {}) ∧ Meets args x (cs.headD {}) f ∧
      ∀ f', x.run args (cs.headD {}) f = .go f' → ActMeets P args xs cs.tail f'

/-- The values on the right-hand side of a rule, the first one first. -/
def argsOf (m : M) (r : Rule) : List Val := ((m.stack.take r.rhs.length).map (·.2)).reverse

/-- A step by one of the rules. -/
def StepMeets (P : Choice → Prop) (m : M) : Step → Prop
  | .shift _ => True
  | .reduce r cs _ => r ∈ rules ∧
      ActMeets P (argsOf m r) r.act cs { st := m.st, others := m.others, bufs := bufs (argsOf m r) }

/-- Several of them. -/
def Legal (P : Choice → Prop) : M → List Step → Prop
  | _, [] => True
  | m, x :: l => StepMeets P m x ∧ ∀ m', m.step x = .go m' → Legal P m' l

/-- The parser before it has read anything, after any history of calls. -/
def Starts (m : M) : Prop :=
  Own.Reaches Own.Calm m.st ∧ m.others = m.st.ext ∧ m.stack = [] ∧ m.lost = 0

/-- Every reference belongs to an object, to the outside, or to a symbol on the stack, and every
pointer on the stack is to an object in memory. -/
def Balanced (m : M) : Prop :=
  (∀ a, m.st.ext a = m.others a + (owned m.stack).count a) ∧ ∀ a ∈ owned m.stack, m.st.live a = true

/-- Nothing belongs to the parser any more: exactly those objects are in memory that the outside can
reach. -/
def Returned (m : M) : Prop :=
  (∀ a, m.st.ext a = m.others a) ∧ ∀ a, m.st.live a = true ↔ ∃ r, 0 < m.others r ∧ Path m.st r a

end Cowl.YOwn
