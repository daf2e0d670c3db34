import Verif.PrefixMapLemmas
import Verif.XmlProps
/-! # C22, C23, C24: prefix maps -/
namespace Cowl
open Prefix PrefixSpec

/-! ## Sample histories -/

/-- First sample namespace. -/
def exNs1 : Str := ascii "http://ex.org/a#"
/-- Second sample namespace. -/
def exNs2 : Str := ascii "http://ex.org/b#"
/-- Prefix strings, by address. -/
def pfx (addr : Nat) (s : String) : SRef := ⟨addr, ascii s⟩

/-- A fresh map whose default map has one prefix. -/
def freshMap : PMap := create [1, 2, 3, 4] [(pfx 5 "dc", ascii "http://purl.org/dc/")]

/-- Its meaning. -/
def freshAbs : Abs := initial [(pfx 5 "dc", ascii "http://purl.org/dc/")]

theorem fresh_reaches (c : Prop) : Reaches c freshMap freshAbs :=
  .create _ _ rfl (by simp [Distinct])

/-! ## C22 -/

/-- C22, lookup: after every history, `get_ns` is the function the history denotes. -/
theorem C22_get_ns {m : PMap} {a : Abs} (h : Reaches False m a) (p : Str) : m.getNs p = a p := by
  rw [getNs_meaning]; exact (inv_reaches h).mean p

/-- C22, registering: the code tells whether the map was changed, and an existing
prefix is left alone without `overwrite`. -/
theorem C22_add {m : PMap} {a : Abs} (h : Reaches False m a) (p : SRef) (n : Str) (ow : Bool) :
    ((m.add p n ow).2 = .ok ↔ (ow = true ∨ a p.txt = none)) ∧
    (¬ (ow = true ∨ a p.txt = none) → m.add p n ow = (m, .no)) := by
  have hr := (inv_add (inv_reaches h) p n ow (fun f => f.elim)).2
  constructor
  · rw [hr]; split <;> simp_all
  · intro hn
    have h1 : ¬ a p.txt = none := fun e => hn (.inr e)
    have h2 : ow = false := by cases ow <;> simp_all
    have hm := (inv_reaches h).mean p.txt
    rw [← fwdFind_meaning] at hm
    unfold PMap.add
    cases hf : fwdFind p.txt m.fwd with
    | none => rw [hf] at hm; exact absurd hm.symm h1
    | some e => simp [h2]

/-- C22, unregistering a prefix: the code tells whether it was registered. -/
theorem C22_remove_prefix {m : PMap} {a : Abs} (h : Reaches False m a) (p : Str) :
    (m.removePrefix p).2 = if a p = none then Ret.no else Ret.ok :=
  (inv_removePrefix (inv_reaches h) p).2

/-- C22, unregistering a namespace: the code tells whether a prefix was registered
for it. -/
theorem C22_remove_ns {m : PMap} {a : Abs} (h : Reaches False m a) (n : Str) :
    ((m.removeNs n).2 = .ok ∨ (m.removeNs n).2 = .no) ∧
    ((m.removeNs n).2 = .ok ↔ ∃ p, a p = some n) :=
  (inv_removeNs (inv_reaches h) n).2

/-- C22, merging: the code tells whether some prefix was registered by it. -/
theorem C22_merge {m : PMap} {a : Abs} (h : Reaches False m a) {src : Fwd} (hd : Distinct src)
    (ow : Bool) :
    ((m.merge src ow).2 = .ok ∨ (m.merge src ow).2 = .no) ∧
    ((m.merge src ow).2 = .ok ↔ ∃ p n, Registers src p n ∧ (ow = true ∨ a p = none)) := by
  obtain ⟨_, h1, h2⟩ := inv_mergeLoop ow src m a .no (inv_reaches h) hd (fun f => f.elim)
  have hiff : (∃ p, ¬ meaning src p = none ∧ (ow = true ∨ a p = none)) ↔
      ∃ p n, Registers src p n ∧ (ow = true ∨ a p = none) := by
    refine exists_congr fun p => ?_
    constructor
    · rintro ⟨h3, h4⟩
      cases hm : meaning src p with
      | none => exact absurd hm h3
      | some n =>
        obtain ⟨k, h5, h6⟩ := meaning_some hm
        exact ⟨n, ⟨_, h5, h6, rfl⟩, h4⟩
    · rintro ⟨n, ⟨e, h5, h6, _⟩, h4⟩
      exact ⟨fun hm => meaning_none.1 hm e h5 h6, h4⟩
  rw [hiff] at h1 h2
  unfold PMap.merge
  rcases Classical.em (∃ p n, Registers src p n ∧ (ow = true ∨ a p = none)) with hx | hx
  · rw [h1 hx]; exact ⟨.inl rfl, by simpa using hx⟩
  · rw [h2 hx]; exact ⟨.inr rfl, by simpa using hx⟩

/-- The four standard prefixes. -/
def standardPrefixes : List Str := [ascii "owl", ascii "rdf", ascii "rdfs", ascii "xsd"]

theorem std_standard {p : Str} (hp : p ∈ standardPrefixes) (n n' : Str) : std p n = std p n' := by
  simp only [standardPrefixes, List.mem_cons, List.not_mem_nil, or_false] at hp
  unfold std
  split
  · rfl
  split
  · rfl
  split
  · rfl
  split
  · rfl
  · rcases hp with h | h | h | h <;> contradiction

/-- C22, standard prefixes: after every history, a registered standard prefix has
its standard namespace. Missing from the full statement: that it is registered, see
`C22_fails`. -/
theorem C22_partial {m : PMap} {a : Abs} (h : Reaches False m a) {p : Str}
    (hp : p ∈ standardPrefixes) : m.getNs p = none ∨ m.getNs p = some (std p []) := by
  rw [C22_get_ns h]
  induction h with
  | create ks dflt _ _ =>
    right
    have : p = ascii "owl" ∨ p = ascii "rdf" ∨ p = ascii "rdfs" ∨ p = ascii "xsd" := by
      simpa [standardPrefixes] using hp
    rw [initial, if_pos this]
  | add q n ow _ _ ih =>
    rw [Abs.add]
    split
    · rename_i hq
      right; rw [← hq.1, std_standard hp n []]
    · exact ih
  | removePrefix q _ ih =>
    rw [Abs.removePrefix]
    split
    · exact .inl rfl
    · exact ih
  | removeNs n _ ih =>
    rw [Abs.removeNs]
    split
    · exact .inl rfl
    · exact ih
  | merge src ow _ _ _ ih =>
    rw [Abs.merge]
    split
    · exact ih
    · split
      · right; rw [std_standard hp _ []]
      · exact ih
  | getPrefix n _ ih => exact ih
  | reorder f _ _ ih => exact ih

/-- C22, standard prefixes stay registered until they are removed: registering and
merging never lose them. -/
theorem C22_standard_kept {m : PMap} {a : Abs} (h : Reaches False m a) {p : Str}
    (hp : p ∈ standardPrefixes) (hr : m.getNs p = some (std p [])) (q : SRef) (n : Str)
    {src : Fwd} (hd : Distinct src) (ow : Bool) :
    (m.add q n ow).1.getNs p = some (std p []) ∧ (m.merge src ow).1.getNs p = some (std p []) := by
  rw [C22_get_ns h] at hr
  constructor
  · rw [C22_get_ns (.add q n ow h fun f => f.elim), Abs.add]
    split
    · rename_i hq; rw [← hq.1, std_standard hp n []]
    · exact hr
  · rw [C22_get_ns (.merge src ow h hd fun f => f.elim), Abs.merge]
    split
    · exact hr
    · split
      · rw [std_standard hp _ []]
      · exact hr

/-- C22 is false as stated: `cowl_prefix_map_remove_prefix` (and `_remove_ns`) remove
standard prefixes like any other. -/
theorem C22_fails :
    (freshMap.getNs (ascii "owl") = some owlNs) ∧
    Reaches False (freshMap.removePrefix (ascii "owl")).1 (freshAbs.removePrefix (ascii "owl")) ∧
    (freshMap.removePrefix (ascii "owl")).1.getNs (ascii "owl") = none ∧
    Reaches False (freshMap.removeNs owlNs).1 (freshAbs.removeNs owlNs) ∧
    (freshMap.removeNs owlNs).1.getNs (ascii "owl") = none :=
  ⟨by decide +kernel, .removePrefix _ (fresh_reaches _), by decide +kernel,
    .removeNs _ (fresh_reaches _), by decide +kernel⟩

/-- A history with a kept, an overwritten, a removed and a merged prefix and an
attempt on a standard one. -/
def busyMap : PMap :=
  let m := (freshMap.add (pfx 10 "ex") exNs1 false).1
  let m := (m.add (pfx 11 "ex") exNs2 false).1
  let m := (m.add (pfx 12 "e") exNs1 true).1
  let m := (m.add (pfx 13 "owl") exNs1 true).1
  let m := (m.getPrefix exNs1).1
  let m := (m.removePrefix (ascii "e")).1
  (m.merge [(pfx 14 "f", exNs2), (pfx 15 "ex", exNs2)] false).1

/-- Its meaning. -/
def busyAbs : Abs :=
  let a := freshAbs.add (ascii "ex") exNs1 false
  let a := a.add (ascii "ex") exNs2 false
  let a := a.add (ascii "e") exNs1 true
  let a := a.add (ascii "owl") exNs1 true
  let a := a.removePrefix (ascii "e")
  a.merge [(pfx 14 "f", exNs2), (pfx 15 "ex", exNs2)] false

theorem busy_reaches : Reaches True busyMap busyAbs :=
  .merge _ _ (.removePrefix _ (.getPrefix _ (.add (pfx 13 "owl") _ _ (.add (pfx 12 "e") _ _
    (.add (pfx 11 "ex") _ _ (.add (pfx 10 "ex") _ _ (fresh_reaches _) (by intro _ h; cases h))
      (by intro _ h; cases h))
      (by
        intro _ _ n' h
        have : (freshAbs.add (ascii "ex") exNs1 false).add (ascii "ex") exNs2 false (ascii "e") = none := by
          decide +kernel
        rw [show (pfx 12 "e").txt = ascii "e" from rfl] at h
        exact absurd (this.symm.trans h) (by simp)))
      (by
        intro _ _ n' h
        have : ((freshAbs.add (ascii "ex") exNs1 false).add (ascii "ex") exNs2 false).add (ascii "e")
          exNs1 true (ascii "owl") = some owlNs := by decide +kernel
        rw [show (pfx 13 "owl").txt = ascii "owl" from rfl] at h
        have h2 := this.symm.trans h
        cases h2
        decide +kernel))))
    (by simp only [Distinct]; decide +kernel) (by intro _ h; cases h)

theorem _root_.Cowl.PrefixSpec.Reaches.weaken {c : Prop} {m : PMap} {a : Abs} (h : Reaches c m a) : Reaches False m a := by
  induction h with
  | create ks dflt hk hd => exact .create ks dflt hk hd
  | add p n ow _ _ ih => exact .add p n ow ih fun f => f.elim
  | removePrefix p _ ih => exact .removePrefix p ih
  | removeNs n _ ih => exact .removeNs n ih
  | merge src ow _ hd _ ih => exact .merge src ow ih hd fun f => f.elim
  | getPrefix n _ ih => exact .getPrefix n ih
  | reorder f _ hp ih => exact .reorder f ih hp

example : Reaches False busyMap busyAbs ∧ busyMap.getNs (ascii "ex") = some exNs1 ∧
    busyMap.getNs (ascii "e") = none ∧ busyMap.getNs (ascii "f") = some exNs2 ∧
    busyMap.getNs (ascii "dc") = some (ascii "http://purl.org/dc/") ∧
    busyMap.getNs (ascii "owl") = some owlNs ∧ ascii "owl" ∈ standardPrefixes ∧
    owlNs = std (ascii "owl") [] ∧
    (busyMap.add (pfx 20 "ex") exNs2 false).2 = .no ∧ (busyMap.add (pfx 20 "ex") exNs2 true).2 = .ok ∧
    (busyMap.removePrefix (ascii "nope")).2 = .no ∧ (busyMap.removeNs exNs2).2 = .ok ∧
    (busyMap.merge [(pfx 14 "f", exNs1)] false).2 = .no ∧
    (busyMap.merge [(pfx 14 "f", exNs1), (pfx 21 "g", exNs1)] false).2 = .ok :=
  ⟨busy_reaches.weaken, by decide +kernel⟩

/-! ## C23 -/

/-- C23, completeness: after every history `get_prefix` finds a prefix if one is
registered for the namespace. -/
theorem C23_complete {m : PMap} {a : Abs} (h : Reaches False m a) {p n : Str} (hp : a p = some n) :
    ∃ k, (m.getPrefix n).2 = some k := by
  have hi := inv_update (inv_reaches h)
  rw [← hi.mean] at hp
  obtain ⟨k, h1, _⟩ := meaning_some hp
  obtain ⟨k', h2, _⟩ := hi.covers (update_dirty m) _ h1
  exact ⟨k', h2⟩

/-- C23 for histories that never change the namespace of a registered prefix: what
`get_prefix` returns is registered for the namespace, and is a shortest such prefix.
Missing from the full statement: overwriting, see `C23_fails`. -/
theorem C23_partial {m : PMap} {a : Abs} (h : Reaches True m a) (n : Str) :
    (∀ k, (m.getPrefix n).2 = some k →
      m.getNs k.txt = some n ∧ ∀ p, m.getNs p = some n → k.txt.length ≤ p.length) ∧
    ((m.getPrefix n).2 = none ↔ ∀ p, m.getNs p ≠ some n) := by
  have hi := inv_update (inv_reaches h)
  have hns : ∀ p, m.getNs p = a p := C22_get_ns h.weaken
  constructor
  · intro k hk
    have h1 := hi.sound trivial n k hk
    refine ⟨?_, fun p hp => ?_⟩
    · rw [hns, ← hi.mean]; exact meaning_of_mem hi.distinct h1
    · rw [hns, ← hi.mean] at hp
      obtain ⟨k', h2, h3⟩ := meaning_some hp
      obtain ⟨k'', h4, h5⟩ := hi.covers (update_dirty m) _ h2
      have : some k = some k'' := hk.symm.trans h4
      cases this
      rw [← h3]; exact h5
  · constructor
    · intro hn p hp
      rw [hns] at hp
      obtain ⟨k, hk⟩ := C23_complete h.weaken hp
      rw [hn] at hk; cases hk
    · intro hn
      cases hk : (m.getPrefix n).2 with
      | none => rfl
      | some k =>
        have h1 := hi.sound trivial n k hk
        refine absurd ?_ (hn k.txt)
        rw [hns, ← hi.mean]; exact meaning_of_mem hi.distinct h1

/-- The map of `C23_fails`: a lookup between two registrations of one prefix. -/
def staleMap : PMap :=
  let m := (freshMap.add (pfx 10 "a") exNs1 false).1
  let m := (m.add (pfx 11 "long") exNs1 false).1
  let m := (m.getPrefix exNs1).1
  (m.add (pfx 12 "a") exNs2 true).1

/-- C23 is false as stated: overwriting a prefix leaves its old namespace in the
reverse table, and the stale entry hides the prefix which is right. -/
theorem C23_fails : (∃ a, Reaches False staleMap a) ∧
    (staleMap.getPrefix exNs1).2 = some (pfx 10 "a") ∧
    staleMap.getNs (ascii "a") = some exNs2 ∧
    staleMap.getNs (ascii "long") = some exNs1 :=
  ⟨⟨_, .add (pfx 12 "a") _ _ (.getPrefix _ (.add (pfx 11 "long") _ _ (.add (pfx 10 "a") _ _
      (fresh_reaches _) fun f => f.elim) fun f => f.elim)) fun f => f.elim⟩,
    by decide +kernel, by decide +kernel, by decide +kernel⟩

/-- The reverse lookup is right on the busy map, and chooses the shorter prefix. -/
example : Reaches True busyMap busyAbs ∧ (busyMap.getPrefix exNs1).2 = some (pfx 10 "ex") ∧
    (busyMap.getPrefix exNs2).2 = some (pfx 14 "f") ∧ (busyMap.getPrefix (ascii "x")).2 = none ∧
    ((busyMap.add (pfx 30 "fff") exNs2 false).1.getPrefix exNs2).2 = some (pfx 14 "f") :=
  ⟨busy_reaches, by decide +kernel⟩

/-! ## C24 -/

theorem indexOf_append (c : UInt8) : ∀ (p r : Str), c ∉ p → indexOf c (p ++ c :: r) = p.length
  | [], r, _ => by simp [indexOf]
  | x :: p, r, h => by
    simp only [List.mem_cons, not_or] at h
    rw [List.cons_append, indexOf, if_neg (fun e => h.1 e.symm), indexOf_append c p r h.2]
    rfl

theorem indexOf_absent (c : UInt8) : ∀ (s : Str), c ∉ s → indexOf c s = s.length
  | [], _ => rfl
  | x :: p, h => by
    simp only [List.mem_cons, not_or] at h
    rw [indexOf, if_neg (fun e => h.1 e.symm), indexOf_absent c p h.2]
    rfl

theorem parseShort_colon (m : PMap) {p : Str} (name : Str) (hp : colon ∉ p) :
    m.parseShortIri (p ++ colon :: name) = some ((m.getNs p).map fun ns => iriOfParts ns name) := by
  unfold PMap.parseShortIri
  rw [indexOf_append _ _ _ hp]
  have : p.length < (p ++ colon :: name).length := by simp
  simp only [this, if_true]
  rw [List.take_left, ← List.drop_drop, List.drop_left]
  rfl

/-- C24 for strings with a colon, after every history: the IRI of `prefix:name`
exists iff the prefix is registered, and its string is the namespace followed by the
name. Missing from the full statement: strings without a colon, see `C24_fails`. -/
theorem C24_partial {m : PMap} {a : Abs} (h : Reaches False m a) {p : Str} (name : Str)
    (hp : (58 : UInt8) ∉ p) :
    (∀ ns, a p = some ns → ∃ i, m.parseShortIri (p ++ ascii ":" ++ name) = some (some i) ∧
      i.1 ++ i.2 = ns ++ name) ∧
    (a p = none → m.parseShortIri (p ++ ascii ":" ++ name) = some none) := by
  have he : p ++ ascii ":" ++ name = p ++ colon :: name := by
    have : ascii ":" = [colon] := by decide
    rw [this]; simp
  rw [he, parseShort_colon m name hp, C22_get_ns h]
  constructor
  · intro ns hn
    rw [hn]
    exact ⟨_, rfl, C03_lossless ns name⟩
  · intro hn; rw [hn]; rfl

/-- C24: what happens to a string without a colon. Nothing is found, unless the whole
string is a registered prefix, when the behaviour is undefined. -/
theorem C24_no_colon {m : PMap} {a : Abs} (h : Reaches False m a) {s : Str} (hs : (58 : UInt8) ∉ s) :
    m.parseShortIri s = if a s = none then some none else none := by
  unfold PMap.parseShortIri
  rw [show indexOf colon s = s.length from indexOf_absent _ s hs]
  simp only [Nat.lt_irrefl, if_false]
  rw [C22_get_ns h]
  cases a s <;> simp

/-- C24 is false as stated: a string without a colon which is a registered prefix
makes the length of the remainder wrap around. `owl` is such a string in every new
map. -/
theorem C24_fails : freshMap.parseShortIri (ascii "owl") = none ∧
    freshMap.parseIri (ascii "owl") = none := by decide +kernel

/-- C24, `cowl_prefix_map_parse_iri`: a string with a colon is read as a short IRI
if what precedes the first colon is registered, else as a full IRI. -/
theorem C24_parse_iri {m : PMap} {a : Abs} (h : Reaches False m a) {p name : Str}
    (hp : (58 : UInt8) ∉ p) :
    m.parseIri (p ++ ascii ":" ++ name) =
      match a p with
      | some ns => some (some (iriOfParts ns name))
      | none => some (iriFromString (p ++ ascii ":" ++ name)) := by
  have he : p ++ ascii ":" ++ name = p ++ colon :: name := by
    have : ascii ":" = [colon] := by decide
    rw [this]; simp
  unfold PMap.parseIri
  rw [he, parseShort_colon m name hp, C22_get_ns h]
  cases a p <;> rfl

/-- A full IRI is taken for a short one when its scheme is a registered prefix. -/
theorem C24_scheme_fails :
    let m := (freshMap.add (pfx 10 "http") exNs1 false).1
    (m.parseIri (ascii "http://x#y")).map (Option.map fun i => i.1 ++ i.2) =
      some (some (exNs1 ++ ascii "//x#y")) := by decide +kernel

example : Reaches False busyMap busyAbs ∧ busyAbs (ascii "ex") = some exNs1 ∧
    (58 : UInt8) ∉ ascii "ex" ∧ busyAbs (ascii "nope") = none ∧
    (busyMap.parseShortIri (ascii "ex:a:b")).map (Option.map fun i => i.1 ++ i.2) =
      some (some (ascii "http://ex.org/a#a:b")) ∧
    busyMap.parseShortIri (ascii "nope:a") = some none ∧
    busyMap.parseShortIri (ascii "nope") = some none :=
  ⟨busy_reaches.weaken, by decide +kernel⟩

end Cowl
