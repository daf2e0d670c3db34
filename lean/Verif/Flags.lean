/-!
# Object flags word and object lifetime

Models `src/cowl_object_flags.h` and the reference counting part of
`src/cowl_object_private.h` and `src/cowl_object.c`.
The word width `w` is 32 by default and 64 with `COWL_HUGE`
(`cowl_object_flags.h:32-36`).
-/
namespace Cowl.Flags

/-- The flags word (`cowl_object_flags.h:42`, `typedef UBit(COWL_OF) CowlObjectFlags`). -/
abbrev Word (w : Nat) := BitVec w

/-- `COWL_OBJECT_FLAGS_REF_SIZE`, `cowl_object_flags.h:38-39`. -/
def refSize (w : Nat) : Nat := w - 7 - 1

/-- `COWL_OBJECT_FLAGS_BIT_OFFSET`, `cowl_object_flags.h:44`. -/
def bitOffset (w : Nat) : Nat := refSize w

/-- `COWL_OBJECT_FLAGS_TYPE_OFFSET`, `cowl_object_flags.h:45`. -/
def typeOffset (w : Nat) : Nat := bitOffset w + 1

/-- `COWL_OBJECT_FLAGS_BIT_MASK`, `cowl_object_flags.h:47`. -/
def bitMask (w : Nat) : Word w := 1#w <<< bitOffset w

/-- `COWL_OBJECT_FLAGS_REF_MASK`, `cowl_object_flags.h:48`. -/
def refMask (w : Nat) : Word w := bitMask w - 1#w

/-- `COWL_OBJECT_FLAGS_BIT_TYPE_MASK`, `cowl_object_flags.h:49`. -/
def bitTypeMask (w : Nat) : Word w := BitVec.allOnes w &&& ~~~ refMask w

/-- `COWL_OBJECT_FLAGS_TYPE_MASK`, `cowl_object_flags.h:50`. -/
def typeMask (w : Nat) : Word w := bitTypeMask w &&& ~~~ bitMask w

/-- `cowl_object_flags(TYPE, HAS_BIT)`, `cowl_object_flags.h:52-54`. -/
def mk (w : Nat) (type : Nat) (hasBit : Bool) : Word w :=
  (BitVec.ofNat w type <<< typeOffset w) ||| (if hasBit then bitMask w else 0#w) ||| 1#w

/-- `cowl_object_flags_has_bit`, `cowl_object_flags.h:56`. -/
def hasBit {w : Nat} (f : Word w) : Bool := (f &&& bitMask w) == bitMask w

/-- `cowl_object_flags_set_bit`, `cowl_object_flags.h:57-58`. -/
def setBit {w : Nat} (f : Word w) : Word w := f ||| bitMask w

/-- `cowl_object_flags_unset_bit`, `cowl_object_flags.h:59-60`. -/
def unsetBit {w : Nat} (f : Word w) : Word w := f &&& ~~~ bitMask w

/-- `cowl_object_flags_get_type`, `cowl_object_flags.h:62-63`. -/
def getType {w : Nat} (f : Word w) : Nat := ((f &&& typeMask w) >>> typeOffset w).toNat

/-- `cowl_object_flags_get_ref`, `cowl_object_flags.h:65`. -/
def getRef {w : Nat} (f : Word w) : Nat := (f &&& refMask w).toNat

/-- `cowl_object_flags_incr_ref`, `cowl_object_flags.h:67`. -/
def incrRef {w : Nat} (f : Word w) : Word w := f + 1#w

/-- `cowl_object_flags_decr_ref`, `cowl_object_flags.h:68`. -/
def decrRef {w : Nat} (f : Word w) : Word w := f - 1#w

/-! ### Lifetime of one object -/

/-- Operations of the public API that act on the flags of one object. -/
inductive Op where
  | retain | release
deriving DecidableEq, Repr

/-- State of one object. `ub` records a use after destruction, which is
undefined behaviour in C. -/
inductive Obj (w : Nat) where
  | live (f : Word w)
  | freed
  | ub
deriving DecidableEq, Repr

/-- `cowl_retain` (`cowl_object.c:157-160`, `cowl_object_private.h:42-45`) and
`cowl_release` (`cowl_object.c:171-194`, `cowl_object_private.h:47-51`): the
release destroys the object when the decremented reference field is zero.
The recursive release of fields is not part of this model of one object. -/
def step {w : Nat} : Obj w → Op → Obj w
  | .live f, .retain => .live (incrRef f)
  | .live f, .release =>
      let f' := decrRef f
      if getRef f' = 0 then .freed else .live f'
  | .freed, _ => .ub
  | .ub, _ => .ub

/-- Run a sequence of operations on a newly created object
(`COWL_OBJECT_BIT_INIT`, `cowl_object_private.h:33-34`). -/
def run (w : Nat) (type : Nat) (b : Bool) (ops : List Op) : Obj w :=
  ops.foldl step (.live (mk w type b))

end Cowl.Flags
