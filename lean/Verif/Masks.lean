/-!
# Bit masks over types

Models `include/cowl_axiom_flags.h` (64-bit masks, 37 axiom types) and
`include/cowl_primitive_flags.h` (8-bit masks, 8 primitive types). The `ubit_*`
macros of ulib are taken as their names say: `ubit_bit(N, i)` is the N-bit word
`1 << i`, `ubit_set` / `ubit_unset` are or / and-not, `ubit_is_set(f, m)` tells
whether all bits of `m` are in `f`, `ubit_is_any_set` whether some is,
`ubit_first_set` is the index of the lowest set bit, or the width if there is none.
-/
namespace Cowl.Masks

/-- `cowl_axiom_flags_from_type`, `cowl_axiom_flags.h:183-185`;
`cowl_primitive_flags_from_type`, `cowl_primitive_flags.h:91-93`. -/
def fromType (w t : Nat) : BitVec w := 1#w <<< t

/-- `cowl_axiom_flags_add_type`, `cowl_axiom_flags.h:196-198`;
`cowl_primitive_flags.h:104-106`. -/
def addType {w : Nat} (f : BitVec w) (t : Nat) : BitVec w := f ||| fromType w t

/-- `cowl_axiom_flags_remove_type`, `cowl_axiom_flags.h:209-211`;
`cowl_primitive_flags.h:118-120`. -/
def removeType {w : Nat} (f : BitVec w) (t : Nat) : BitVec w := f &&& ~~~ fromType w t

/-- `cowl_axiom_flags_has_type`, `cowl_axiom_flags.h:222-224`;
`cowl_primitive_flags.h:131-133`. -/
def hasType {w : Nat} (f : BitVec w) (t : Nat) : Bool := f &&& fromType w t == fromType w t

/-- `COWL_AF_ALL`, `cowl_axiom_flags.h:39`, with `COWL_AT_COUNT` = 37. -/
def afAll : BitVec 64 := (1#64 <<< 37) - 1#64

/-- `COWL_PF_ALL`, `cowl_primitive_flags.h:39`, with `COWL_PT_COUNT` = 8: the shifted
bit falls out of the 8-bit word. -/
def pfAll : BitVec 8 := (1#8 <<< 8) - 1#8

/-- `cowl_axiom_flags_has_all_types`, `cowl_axiom_flags.h:234-236`. -/
def hasAllTypes (f : BitVec 64) : Bool := f &&& afAll == afAll

/-- `cowl_axiom_flags_has_no_types`, `cowl_axiom_flags.h:246-248`. -/
def hasNoTypes (f : BitVec 64) : Bool := !(f &&& afAll != 0#64)

/-- `ubit_first_set` (ulib). -/
def firstSet (f : BitVec 64) : Nat := ((List.range 64).find? fun i => f.getLsbD i).getD 64

/-- The step of the loop, `cowl_axiom_flags.h:259-260`. -/
def nextType (f : BitVec 64) (t : Nat) : Nat :=
  firstSet (f &&& ~~~ ((1#64 <<< (t + 1)) - 1#64))

/-- The loop `cowl_axiom_flags_foreach_type`, `cowl_axiom_flags.h:256-260`: the
types for which the body runs, in order; `none` if the loop is still running
after `fuel` rounds. -/
def foreachFrom (f : BitVec 64) : Nat → Nat → Option (List Nat)
  | 0, _ => none
  | fuel + 1, t => if t < 37 then (foreachFrom f fuel (nextType f t)).map (t :: ·) else some []

/-- The whole loop. -/
def foreachType (fuel : Nat) (f : BitVec 64) : Option (List Nat) := foreachFrom f fuel (firstSet f)

end Cowl.Masks
