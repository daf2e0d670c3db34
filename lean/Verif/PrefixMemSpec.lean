import Verif.PrefixMem
import Verif.PrefixMapSpec
import Verif.HeapSpec
/-!
# Specification of prefix maps in memory

Who owns which references, and which calls a client may make.
-/
namespace Cowl.PMem
open Heap

/-- References of the first table of a map. -/
def held (f : Tbl) (a : Nat) : Nat := (f.map Prod.fst).count a + (f.map Prod.snd).count a

/-- References of the library to the strings of its vocabulary. -/
def vocab (res : Tbl) (a : Nat) : Nat := held res a

/-- Someone else than the map owns a reference. -/
def Others (s : St) (m : MMap) (a : Nat) : Prop := held m.fwd a < s.ext a

/-- The object is a string with this text. -/
def Text (s : St) (a : Nat) (t : Str) : Prop := Denotes s a (.str t)

/-- A string object that the caller owns, or a text. -/
def ArgOk (s : St) (m : MMap) : Arg → Prop
  | .obj a => Others s m a ∧ ∃ t, Text s a t
  | .text _ => True

/-- The text of an argument. -/
def ArgText (s : St) : Arg → Str → Prop
  | .obj a, t => Text s a t
  | .text u, t => u = t

/-- Registering the prefix `p` for the namespace `n` replaces no other namespace, and
the namespace it replaces is owned by someone else, too. -/
def Keeps (s : St) (m : MMap) (p n : Str) : Prop :=
  ∀ e ∈ m.fwd, Text s e.1 p → Text s e.2 (PrefixSpec.std p n) ∧ Others s m e.2

/-- Strings of the vocabulary: the four standard prefixes and their namespaces, which
are interned, all owned by the library. -/
structure Vocab (res : Tbl) (s : St) : Prop where
  texts : res.map (fun e => (s.content e.1, s.content e.2)) =
    [(some (ascii "owl"), some (ascii "http://www.w3.org/2002/07/owl#")),
     (some (ascii "rdf"), some (ascii "http://www.w3.org/1999/02/22-rdf-syntax-ns#")),
     (some (ascii "rdfs"), some (ascii "http://www.w3.org/2000/01/rdf-schema#")),
     (some (ascii "xsd"), some (ascii "http://www.w3.org/2001/XMLSchema#"))]
  interned : ∀ e ∈ res, IsInterned s e.2
  owned : ∀ a, vocab res a ≤ s.ext a

/-- A heap and a prefix map in it, after any history of calls by a client that passes
strings it owns and releases what it owns. With `calm`, the history
* replaces no namespace of a prefix by another one,
* re-registers a prefix with the same namespace only while someone else owns that
  namespace, and
* removes a namespace only while someone else owns it. -/
inductive Reaches (calm : Prop) (res : Tbl) : St → MMap → Prop
  | create {s s' m} : Reachable s → Vocab res s → create res s = some (s', m) →
      Reaches calm res s' m
  | client {s s' m op r} : Reaches calm res s m → Legal s op →
      (∀ x, op = .release x → held m.fwd x + vocab res x < s.ext x) →
      step s op = some (s', r) → Reaches calm res s' m
  | add {s s' m m' p n tp tn ow ret} : Reaches calm res s m →
      Others s m p → Text s p tp → Others s m n → Text s n tn →
      (calm → ow = true → Keeps s m tp tn) →
      add res s m p n ow = some (s', m', ret) → Reaches calm res s' m'
  | addRaw {s s' m m' a1 a2 p n ow ret} : Reaches calm res s m →
      ¬ Live s a1 → ¬ Live s a2 → a1 ≠ a2 →
      (calm → ow = true → ∀ e ∈ m.fwd, Text s e.1 p → Text s e.2 (PrefixSpec.std p n)) →
      addRaw res s m a1 a2 p n ow = some (s', m', ret) → Reaches calm res s' m'
  | removePrefix {s s' m m' p ret} : Reaches calm res s m → ArgOk s m p →
      removePrefix s m p = some (s', m', ret) → Reaches calm res s' m'
  | removeNs {s s' m m' n ret} : Reaches calm res s m → ArgOk s m n →
      (calm → ∀ t, ArgText s n t → ∀ e ∈ m.fwd, Text s e.2 t → Others s m e.2) →
      removeNs s m n = some (s', m', ret) → Reaches calm res s' m'
  | merge {s s' m m' src ow ret} : Reaches calm res s m →
      (∀ e ∈ src, Others s m e.1 ∧ Others s m e.2 ∧ ∃ tp tn, Text s e.1 tp ∧ Text s e.2 tn) →
      src.Pairwise (fun e f => ∀ t, Text s e.1 t → ¬ Text s f.1 t) →
      (calm → ow = true → ∀ e ∈ src, ∀ tp tn, Text s e.1 tp → Text s e.2 tn → Keeps s m tp tn) →
      merge res s m src ow = some (s', m', ret) → Reaches calm res s' m'
  | getPrefix {s m m' n r} : Reaches calm res s m → ArgOk s m n →
      getPrefix s m n = some (m', r) → Reaches calm res s m'
  | reorder {s m} (f : Tbl) : Reaches calm res s m → f.Perm m.fwd →
      Reaches calm res s { m with fwd := f }

/-- A call changes only the references of the map: those of everybody else stay as they
were. -/
def Alone (s : St) (m : MMap) (s' : St) (m' : MMap) : Prop :=
  ∀ a, s'.ext a + held m.fwd a = s.ext a + held m'.fwd a

/-- The map as texts: what `Verif.PrefixMap` works with. -/
def view (s : St) (m : MMap) : Prefix.PMap :=
  let txt := fun a => (s.content a).getD []
  ⟨m.fwd.map fun e => (⟨e.1, txt e.1⟩, txt e.2), m.rev.map fun e => (txt e.1, ⟨e.2, txt e.2⟩), m.dirty⟩

end Cowl.PMem
