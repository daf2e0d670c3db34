import Verif.Heap
import Verif.XmlSpec
/-!
# Specification of interned objects

What an object is, read off the heap; which calls a client may make; which states
can arise.
-/
namespace Cowl.Heap

/-- The value an object stands for: a string, or a primitive. -/
inductive Val where
  | str (s : Str)
  | prim (p : Prim)

/-- The object at address `a` stands for the value. -/
inductive Denotes (s : St) : Nat → Val → Prop
  | str {a : Nat} {c : Str} {i : Bool} (h : s.cellOf a = some (.str c i)) : Denotes s a (.str c)
  | iri {a n r : Nat} {cn cr : Str} (h : s.cellOf a = some (.iri n r))
      (hn : Denotes s n (.str cn)) (hr : Denotes s r (.str cr)) : Denotes s a (.prim (.iri ⟨cn, cr⟩))
  | ent {a i : Nat} {k : EntKind} {x : Iri} (h : s.cellOf a = some (.ent k i))
      (hi : Denotes s i (.prim (.iri x))) : Denotes s a (.prim (.ent k x))
  | anon {a i : Nat} {c : Str} (h : s.cellOf a = some (.anon i))
      (hi : Denotes s i (.str c)) : Denotes s a (.prim (.anon c))

/-- There is an object at this address. -/
def Live (s : St) (a : Nat) : Prop := s.cellOf a ≠ none

/-- An interned string: one obtained from the table of strings. -/
def IsInterned (s : St) (a : Nat) : Prop := ∃ c, s.cellOf a = some (.str c true)

/-- The calls a client may make: arguments are live objects of the right type,
references are released only by their owner, and the allocator hands out unused,
distinct addresses. -/
def Legal (s : St) : Op → Prop
  | .newString a _ => ¬ Live s a
  | .newIntern a _ => ¬ Live s a
  | .intern x => ∃ c, Denotes s x (.str c)
  | .iriUnvalidated a n r => ¬ Live s a ∧ (∃ c, Denotes s n (.str c)) ∧ ∃ c, Denotes s r (.str c)
  | .iri a1 a2 a3 p q => ¬ Live s a1 ∧ ¬ Live s a2 ∧ ¬ Live s a3 ∧ a1 ≠ a2 ∧ a1 ≠ a3 ∧ a2 ≠ a3 ∧
      (∃ c, Denotes s p (.str c)) ∧ ∃ c, Denotes s q (.str c)
  | .iriFromStr a1 a2 a3 c => ¬ Live s a1 ∧ ¬ Live s a2 ∧ ¬ Live s a3 ∧ a1 ≠ a2 ∧ a1 ≠ a3 ∧
      a2 ≠ a3 ∧ c ≠ []
  | .entity a _ i => ¬ Live s a ∧ ∃ x, Denotes s i (.prim (.iri x))
  | .anonInd a id => ¬ Live s a ∧ ∃ c, Denotes s id (.str c)
  | .anonFromString a1 a _ => ¬ Live s a1 ∧ ¬ Live s a ∧ a1 ≠ a
  | .retain x => Live s x
  | .release x => 0 < s.ext x

/-- The states reachable by legal calls after initialisation. -/
inductive Reachable : St → Prop
  | init (e : Nat) : Reachable (init e)
  | step {s s' : St} {op : Op} {r : Nat} (h : Reachable s) (hl : Legal s op)
      (hs : step s op = some (s', r)) : Reachable s'

/-- The value of the object an operation has to return. -/
inductive Returns (s : St) : Op → Val → Prop
  | newString (a : Nat) (c : Str) : Returns s (.newString a c) (.str c)
  | newIntern (a : Nat) (c : Str) : Returns s (.newIntern a c) (.str c)
  | intern {x : Nat} {c : Str} (h : Denotes s x (.str c)) : Returns s (.intern x) (.str c)
  | iriUnvalidated {a n r : Nat} {cn cr : Str} (hn : Denotes s n (.str cn))
      (hr : Denotes s r (.str cr)) : Returns s (.iriUnvalidated a n r) (.prim (.iri ⟨cn, cr⟩))
  /-- Any split of the concatenation (which one: C03). -/
  | iri {a1 a2 a3 p q : Nat} {cp cq n r : Str} (hp : Denotes s p (.str cp))
      (hq : Denotes s q (.str cq)) (h : n ++ r = cp ++ cq) :
      Returns s (.iri a1 a2 a3 p q) (.prim (.iri ⟨n, r⟩))
  | iriFromStr {a1 a2 a3 : Nat} {c n r : Str} (h : XmlSpec.IsSplit c n r) :
      Returns s (.iriFromStr a1 a2 a3 c) (.prim (.iri ⟨n, r⟩))
  | entity {a i : Nat} {k : EntKind} {x : Iri} (h : Denotes s i (.prim (.iri x))) :
      Returns s (.entity a k i) (.prim (.ent k x))
  | anonInd {a i : Nat} {c : Str} (h : Denotes s i (.str c)) :
      Returns s (.anonInd a i) (.prim (.anon c))
  | anonFromString (a1 a : Nat) (c : Str) : Returns s (.anonFromString a1 a c) (.prim (.anon c))
  | retain {x : Nat} {v : Val} (h : Denotes s x v) : Returns s (.retain x) v

/-- References the client owns after an operation that returned `r`, from what it
owned before: a release gives one up, interning a string changes nothing, everything
else hands out one reference to the result. -/
def ownedAfter (owned : Nat → Nat) (op : Op) (r : Nat) : Nat → Nat :=
  match op with
  | .release x => fun b => if b = x then owned b - 1 else owned b
  | .intern _ => owned
  | _ => fun b => if b = r then owned b + 1 else owned b

/-- The object at `b` owns a reference to `a`. -/
inductive Refers (s : St) : Nat → Nat → Prop
  | ns {b n r : Nat} (h : s.cellOf b = some (.iri n r)) : Refers s b n
  | rem {b n r : Nat} (h : s.cellOf b = some (.iri n r)) : Refers s b r
  | ent {b i : Nat} {k : EntKind} (h : s.cellOf b = some (.ent k i)) : Refers s b i
  | anon {b i : Nat} (h : s.cellOf b = some (.anon i)) : Refers s b i

/-- Reachable from a reference of the client, or the library's empty string. -/
inductive Held (s : St) : Nat → Prop
  | empty : Held s s.empty
  | owned {a : Nat} (h : 0 < s.ext a) : Held s a
  | field {b a : Nat} (hb : Held s b) (h : Refers s b a) : Held s a

end Cowl.Heap
