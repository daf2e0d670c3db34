import Verif.Flags
import Verif.OType
/-! # Headers of objects in memory

Every object begins with a word that holds its type, a bit and its reference count (`src/cowl_object_flags.h`,
`Verif/Flags.lean`). The other models of this project keep the three apart and have counts without a bound. Here programs run on
memories of both kinds; a program is what the library, or a client of it, does with headers, and everything else it does is in the
way it goes on. -/
namespace Cowl.Words
open Flags

/-- Accesses to headers, with the address of the object. -/
inductive Act where
  /-- a new object: `COWL_OBJECT_BIT_INIT`, `cowl_object_private.h:33-34` -/
  | make (a : Nat) (t : OType) (b : Bool)
  /-- `cowl_incr_ref`, `cowl_object_private.h:42-45` -/
  | incr (a : Nat)
  /-- `cowl_decr_ref`, `cowl_object_private.h:47-51`, which returns the count that is left -/
  | decr (a : Nat)
  /-- `cowl_set_bit`, `cowl_object_private.h:58-61` -/
  | setBit (a : Nat)
  /-- `cowl_unset_bit`, `cowl_object_private.h:63-66` -/
  | unsetBit (a : Nat)
  /-- `cowl_get_type`, `cowl_object.c:196-198` -/
  | getType (a : Nat)
  /-- `cowl_get_bit`, `cowl_object_private.h:53-56` -/
  | hasBit (a : Nat)
  /-- `cowl_get_ref`, `cowl_object_private.h:37-40` -/
  | getRef (a : Nat)
  /-- `ulib_free`, at the end of the destructors of `cowl_release`, `cowl_object.c:162-194` -/
  | free (a : Nat)

/-- A memory of headers. -/
abbrev Mem (α : Type) := Nat → Option α

/-- A memory with another header. -/
def set {α : Type} (m : Mem α) (a : Nat) (h : Option α) : Mem α := fun b => if b = a then h else m b

/-- A change of the header at an address, with a result; `none` outside is undefined behaviour: there is no object there. -/
def edit {α : Type} (m : Mem α) (a : Nat) (f : α → Option (Option α × Nat)) : Option (Mem α × Nat) :=
  (m a).bind fun h => (f h).map fun r => (set m a r.1, r.2)

/-- An access to a memory of words, as the macros of `cowl_object_flags.h:52-68` have it. The address of a new object must be
free. -/
def word (w : Nat) (m : Mem (Word w)) : Act → Option (Mem (Word w) × Nat)
  | .make a t b => if (m a).isNone then some (set m a (some (mk w t.code b)), 0) else none
  | .incr a => edit m a fun f => some (some (incrRef f), 0)
  | .decr a => edit m a fun f => some (some (decrRef f), Flags.getRef (decrRef f))
  | .setBit a => edit m a fun f => some (some (Flags.setBit f), 0)
  | .unsetBit a => edit m a fun f => some (some (Flags.unsetBit f), 0)
  | .getType a => edit m a fun f => some (some f, Flags.getType f)
  | .hasBit a => edit m a fun f => some (some f, (Flags.hasBit f).toNat)
  | .getRef a => edit m a fun f => some (some f, Flags.getRef f)
  | .free a => edit m a fun _ => some (none, 0)

/-- Programs that access headers; how they go on depends on the results. A program that does not end is represented by its
beginnings. -/
inductive Prog (ρ : Type) where
  | done (r : ρ)
  | act (c : Act) (k : Nat → Prog ρ)

/-- A program on a memory, given how accesses work. -/
def Prog.run {ρ μ : Type} (step : μ → Act → Option (μ × Nat)) : Prog ρ → μ → Option (μ × ρ)
  | .done r, m => some (m, r)
  | .act c k, m => (step m c).bind fun x => (k x.2).run step x.1

/-- `release_impl` and `cowl_release`, `cowl_object.c:162-194`, for constructs, whose fields are given; the sum of the numbers of
objects below is at most the first argument. The result is the number of objects that are destroyed. -/
def releaseAll (fields : Nat → List Nat) : Nat → List Nat → Nat → Prog Nat
  | 0, _, n => .done n
  | _ + 1, [], n => .done n
  | k + 1, a :: l, n => .act (.decr a) fun r =>
    if r = 0 then .act (.free a) fun _ => releaseAll fields k (fields a ++ l) (n + 1) else releaseAll fields k l n

end Cowl.Words
