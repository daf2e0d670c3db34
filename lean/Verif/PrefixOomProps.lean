import Verif.PrefixOomLemmas
import Verif.PrefixMapProps
/-! # C81: prefix maps when memory runs out -/
namespace Cowl
open Prefix PrefixSpec PrefixOom

/-- C81, lookup of namespaces: after every history, whatever failed in it, `get_ns` is the function
the history denotes. -/
theorem C81_get_ns {m : OMap} {a : Abs} (h : PrefixOom.Reaches False m a) (p : Str) : m.map.getNs p = a p := by
  rw [getNs_meaning]; exact (inv_reaches_oom h).mean p

/-- C81, calls that fail cleanly: registering, and lookup of prefixes; creating a map gives the same
map as ever or none at all. Missing from the full statement: removals and merging, see `C81_removals`,
`C81_merge` and `C81_fails`. -/
theorem C81_partial {m : OMap} {a : Abs} (h : PrefixOom.Reaches False m a) (mem : List Bool) :
    (∀ p n ow, (m.add mem p n ow).2.1 = .errMem → (m.add mem p n ow).1 = m) ∧
    (∀ p n ow, (m.add mem p n ow).2.1 ≠ .errMem →
      ((m.add mem p n ow).2.1 = .ok ↔ (ow = true ∨ a p.txt = none)) ∧
      ∀ q, (m.add mem p n ow).1.map.getNs q = a.add p.txt n ow q) ∧
    (∀ n q, (m.getPrefix mem n).1.map.getNs q = m.map.getNs q) ∧
    ∀ ks dflt m', ks.length = 4 → Distinct dflt → PrefixOom.create mem ks dflt = some m' →
      ∀ q, m'.map.getNs q = initial dflt q := by
  refine ⟨fun p n ow he => ?_, fun p n ow he => ⟨?_, fun q => ?_⟩, fun n q => ?_,
    fun ks dflt m' hk hd hm q => C81_get_ns (.create mem ks dflt hk hd hm) q⟩
  · rcases add_oom m mem p n ow with ⟨_, h2⟩ | ⟨h1, _⟩
    · exact h2
    · exact absurd he h1
  · rcases add_oom m mem p n ow with ⟨h1, _⟩ | ⟨_, _, h3⟩
    · exact absurd h1 he
    · rw [h3, (inv_add (inv_reaches_oom h) p n ow fun f => f.elim).2]
      split <;> simp_all
  · exact C81_get_ns (.add mem p n ow h he fun f => f.elim) q
  · rw [C81_get_ns (.getPrefix mem n h), C81_get_ns h]

/-- C81, lookup of prefixes: in a history that changes no registered prefix and where no removal
fails, whatever else fails in it, `get_prefix` gives a shortest prefix registered for the namespace, or
nothing. With memory it gives nothing only if there is no such prefix. -/
theorem C81_get_prefix {m : OMap} {a : Abs} (h : PrefixOom.Reaches True m a) (n : Str) :
    (∀ mem k, (m.getPrefix mem n).2 = some k →
      a k.txt = some n ∧ ∀ p, a p = some n → k.txt.length ≤ p.length) ∧
    ((m.getPrefix [] n).2 = none ↔ ∀ p, a p ≠ some n) := by
  have hi := inv_update (inv_reaches_oom h)
  have hf := update_fwd m.map
  have key : ∀ k, revFind n m.map.updateReverse.rev = some k →
      a k.txt = some n ∧ ∀ p, a p = some n → k.txt.length ≤ p.length := by
    intro k hk
    have h1 := hi.sound trivial n k hk
    refine ⟨by rw [← hi.mean]; exact meaning_of_mem hi.distinct h1, fun p hp => ?_⟩
    rw [← hi.mean] at hp
    obtain ⟨k', h2, h3⟩ := meaning_some hp
    obtain ⟨k'', h4, h5⟩ := hi.covers (update_dirty m.map) _ h2
    have : some k = some k'' := hk.symm.trans h4
    cases this
    rw [← h3]; exact h5
  have hput : ∀ f r, (putAll [] f r).2.1 = true := by
    intro f
    induction f with
    | nil => intro r; rfl
    | cons e f ih => intro r; rw [putAll, if_pos (show (ask []).1 = true from rfl)]; exact ih _
  have hupd : ∀ m : OMap, (m.update []).2.1 = true := by
    intro m
    unfold OMap.update
    split
    · rfl
    · exact hput _ _
  have hrev : (m.revTable []).2.1 = true := by
    unfold OMap.revTable
    split
    · exact hupd m
    · rw [if_pos (show (ask []).1 = true from rfl)]; exact hupd _
  refine ⟨fun mem k hk => ?_, ?_⟩
  · unfold OMap.getPrefix at hk
    dsimp only at hk
    split at hk
    · rename_i he
      rw [(revTable_oom m mem).2.1 he] at hk
      exact key k hk
    · cases hk
  · unfold OMap.getPrefix
    dsimp only
    rw [if_pos hrev, (revTable_oom m []).2.1 hrev]
    constructor
    · intro hn p hp
      rw [← hi.mean] at hp
      obtain ⟨k', h2, _⟩ := meaning_some hp
      obtain ⟨k'', h4, _⟩ := hi.covers (update_dirty m.map) _ h2
      rw [hn] at h4; cases h4
    · intro hn
      cases hk : revFind n m.map.updateReverse.rev with
      | none => rfl
      | some k => exact absurd (key k hk).1 (hn _)

/-- C81, what merging does when it fails: the first of the entries are registered. -/
theorem C81_merge {m : OMap} {a : Abs} (h : PrefixOom.Reaches False m a) (mem : List Bool) {src : Fwd}
    (hd : Distinct src) (ow : Bool) :
    ((m.merge mem src ow).2 ≠ .errMem → ∀ q, (m.merge mem src ow).1.map.getNs q = a.merge src ow q) ∧
    ((m.merge mem src ow).2 = .errMem → ∃ k, k < src.length ∧
      ∀ q, (m.merge mem src ow).1.map.getNs q = a.merge (src.take k) ow q) := by
  refine ⟨fun he q => C81_get_ns (.merge mem src ow h hd he fun f => f.elim) q, fun he => ?_⟩
  rcases mergeLoop_oom ow src m mem .no (by simp) with ⟨_, k, h1, h2⟩ | ⟨h1, _⟩
  · refine ⟨k, h1, fun q => ?_⟩
    rw [getNs_meaning, OMap.merge, h2]
    exact (inv_mergeLoop ow (src.take k) _ _ .no (inv_reaches_oom h) (distinct_take hd k)
      fun f => f.elim).1.mean q
  · exact absurd he h1

/-- C81, removals take effect whether they fail or not. -/
theorem C81_removals {m : OMap} {a : Abs} (h : PrefixOom.Reaches False m a) (mem : List Bool) :
    (∀ p q, (m.removePrefix mem p).1.map.getNs q = a.removePrefix p q) ∧
    (∀ n q, (m.removeNs mem n).1.map.getNs q = a.removeNs n q) ∧
    (∀ p, (m.removePrefix mem p).2 = .no ↔ a p = none) := by
  refine ⟨fun p q => ?_, fun n q => ?_, fun p => ?_⟩
  · by_cases he : (m.removePrefix mem p).2 = .errMem
    · rw [getNs_meaning]; exact (removePrefix_err (inv_reaches_oom h) he).1.mean q
    · exact C81_get_ns (.removePrefix mem p h he) q
  · by_cases he : (m.removeNs mem n).2 = .errMem
    · rw [getNs_meaning]; exact (removeNs_err (inv_reaches_oom h) he).mean q
    · exact C81_get_ns (.removeNs mem n h he) q
  · by_cases he : (m.removePrefix mem p).2 = .errMem
    · have := (removePrefix_err (inv_reaches_oom h) he).2
      simp [he, this]
    · rw [(removePrefix_ok he).2, (inv_removePrefix (inv_reaches_oom h) p).2]
      split <;> simp_all

/-! ## Sample histories -/

/-- A fresh map. -/
def oomFresh : OMap := (PrefixOom.create [] [1, 2, 3, 4] []).getD ⟨⟨[], [], false⟩, false⟩

theorem oomFresh_reaches (c : Prop) : PrefixOom.Reaches c oomFresh (initial []) :=
  .create [] [1, 2, 3, 4] [] rfl (by simp [Distinct]) (by decide +kernel)

/-- A map with a prefix of its own, after a lookup of its namespace. -/
def oomUsed : OMap :=
  let m := (oomFresh.add [] (pfx 10 "a") exNs1 false).1
  (m.getPrefix [] exNs1).1

theorem oomUsed_reaches (c : Prop) : PrefixOom.Reaches c oomUsed ((initial []).add (ascii "a") exNs1 false) :=
  .getPrefix _ _ (.add [] (pfx 10 "a") exNs1 false (oomFresh_reaches c) (by decide +kernel)
    (by intro _ h; cases h))

/-- The same, where a second prefix has been registered since. -/
def oomDirty : OMap := (oomUsed.add [] (pfx 11 "b") exNs2 false).1

/-- Its meaning. -/
def oomDirtyAbs : Abs := ((initial []).add (ascii "a") exNs1 false).add (ascii "b") exNs2 false

theorem oomDirty_reaches (c : Prop) : PrefixOom.Reaches c oomDirty oomDirtyAbs :=
  .add [] (pfx 11 "b") exNs2 false (oomUsed_reaches c) (by decide +kernel) (by intro _ h; cases h)

/-- Failing calls: creation at each request, registering at both, and lookups that leave the reverse
table half done; afterwards everything is found. -/
example : PrefixOom.Reaches True oomDirty oomDirtyAbs ∧
    (List.range 10).all (fun i => (PrefixOom.create (List.replicate i true ++ [false]) [1, 2, 3, 4]
      [(pfx 5 "dc", ascii "http://purl.org/dc/")]).isNone == decide (i < 8)) = true ∧
    (oomDirty.add [false] (pfx 12 "c") exNs1 false) = (oomDirty, .errMem, []) ∧
    (oomDirty.add [true, false] (pfx 12 "c") exNs1 false) = (oomDirty, .errMem, []) ∧
    (oomDirty.add [true, true] (pfx 12 "c") exNs1 false).2.1 = .ok ∧
    (oomDirty.getPrefix [true, true, false] exNs2).2 = none ∧
    (oomDirty.getPrefix [true, true, false] exNs2).1.map.dirty = true ∧
    (((oomDirty.getPrefix [true, true, false] exNs2).1.getPrefix [] exNs2).2 = some (pfx 11 "b")) ∧
    (oomDirty.getPrefix [] exNs1).2 = some (pfx 10 "a") :=
  ⟨oomDirty_reaches True, by decide +kernel⟩

/-- A merge that fails half-way. -/
example : PrefixOom.Reaches False oomDirty oomDirtyAbs ∧
    Distinct [(pfx 14 "f", exNs2), (pfx 15 "g", exNs1)] ∧
    (oomDirty.merge [true, true, true, false] [(pfx 14 "f", exNs2), (pfx 15 "g", exNs1)] false).2 = .errMem :=
  ⟨oomDirty_reaches False, by simp only [Distinct]; decide +kernel, by decide +kernel⟩

/-- C81 is false as stated. Removing a prefix, or a namespace, reports lack of memory though it is
gone. What is more the reverse table keeps it: afterwards `get_prefix`, with memory, gives a prefix that
is not registered, which in the second case has been released. A merge that fails leaves the entries
it has come to. -/
theorem C81_fails :
    PrefixOom.Reaches False oomDirty oomDirtyAbs ∧
    (let r := oomDirty.removePrefix [false] (ascii "a")
     r.2 = .errMem ∧ r.1.map.getNs (ascii "a") = none ∧ oomDirty.map.getNs (ascii "a") = some exNs1 ∧
     (r.1.getPrefix [] exNs1).2 = some (pfx 10 "a")) ∧
    (let r := oomDirty.removeNs [false] exNs1
     r.2 = .errMem ∧ r.1.map.getNs (ascii "a") = none ∧
     (r.1.getPrefix [] exNs1).2 = some (pfx 10 "a")) ∧
    (let r := oomDirty.merge [true, true, true, false] [(pfx 14 "f", exNs2), (pfx 15 "g", exNs1)] false
     r.2 = .errMem ∧ oomDirty.map.getNs (ascii "f") = none ∧ r.1.map.getNs (ascii "f") = some exNs2 ∧
     r.1.map.getNs (ascii "g") = none) :=
  ⟨oomDirty_reaches False, by decide +kernel⟩

end Cowl
