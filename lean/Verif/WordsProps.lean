import Verif.WordsSpec
import Verif.FlagsProps
/-! # C107: counts may be taken to be unbounded -/
namespace Cowl.Words
open Flags

theorem code_lt (t : OType) : t.code < 128 := by cases t <;> decide

theorem agrees_set {w : Nat} {v : Mem (Word w)} {m : Mem Head} (A : Agrees v m) {a : Nat} {f : Option (Word w)} {h : Option Head}
    (hfh : (f = none ∧ h = none) ∨ ∃ g k, f = some g ∧ h = some k ∧ Tells g k) : Agrees (set v a f) (set m a h) := by
  intro b
  unfold set
  by_cases e : b = a
  · rw [if_pos e, if_pos e]; exact hfh
  · rw [if_neg e, if_neg e]; exact A b

theorem edit_agrees {w : Nat} {v : Mem (Word w)} {m m' : Mem Head} (A : Agrees v m) {a x : Nat}
    {f : Word w → Option (Option (Word w) × Nat)} {g : Head → Option (Option Head × Nat)} (h : edit m a g = some (m', x))
    (key : ∀ u k, m a = some k → Tells u k → ∀ k', g k = some (k', x) → (∀ l, k' = some l → m' a = some l) →
      ∃ u', f u = some (u', x) ∧ ((u' = none ∧ k' = none) ∨ ∃ p q, u' = some p ∧ k' = some q ∧ Tells p q)) :
    ∃ v', edit v a f = some (v', x) ∧ Agrees v' m' := by
  obtain ⟨k, hk, h1⟩ := Option.bind_eq_some_iff.1 h
  obtain ⟨⟨k', y⟩, hg, h2⟩ := Option.map_eq_some_iff.1 h1
  cases h2
  rcases A a with ⟨_, hm⟩ | ⟨u, l, hv, hm, T⟩
  · rw [hm] at hk; cases hk
  · rw [hm] at hk; cases hk
    obtain ⟨u', hu, hr⟩ := key u k hm T k' hg (fun l hl => by unfold set; rw [if_pos rfl, hl])
    refine ⟨set v a u', ?_, agrees_set A hr⟩
    unfold edit
    rw [hv, Option.bind_some, hu]; rfl

theorem step_agrees {w : Nat} (hw : 8 < w) {v : Mem (Word w)} {m m' : Mem Head} (A : Agrees v m) {c : Act} {x : Nat}
    (h : ideal m c = some (m', x)) (hb : ∀ a k, m' a = some k → k.rc < 2 ^ (w - 8)) :
    ∃ v', word w v c = some (v', x) ∧ Agrees v' m' := by
  have hw' : 8 ≤ w := by omega
  cases c with
  | make a t b =>
    simp only [ideal] at h
    split at h
    · cases h
      rename_i hn
      refine ⟨set v a (some (mk w t.code b)), ?_, agrees_set A (.inr ⟨_, _, rfl, rfl, mk_fields hw _ (code_lt t) b⟩)⟩
      simp only [word]
      rw [if_pos]
      rcases A a with ⟨h1, _⟩ | ⟨_, _, _, h2, _⟩
      · rw [h1]; rfl
      · rw [h2] at hn; cases hn
    · cases h
  | incr a =>
    refine edit_agrees A h fun u k hk T k' hg hm => ?_
    cases hg
    have := hb a _ (hm _ rfl)
    obtain ⟨h1, h2, h3⟩ := incr_fields hw' u (by rw [T.2.2]; exact this)
    exact ⟨_, rfl, .inr ⟨_, _, rfl, rfl, h1.trans T.1, h2.trans T.2.1, by rw [h3, T.2.2]⟩⟩
  | decr a =>
    refine edit_agrees A h fun u k hk T k' hg hm => ?_
    split at hg
    · cases hg
    · cases hg
      rename_i hn
      obtain ⟨h1, h2, h3⟩ := decr_fields hw' u (by rw [T.2.2]; omega)
      exact ⟨_, by rw [h3, T.2.2], .inr ⟨_, _, rfl, rfl, h1.trans T.1, h2.trans T.2.1, by rw [h3, T.2.2]⟩⟩
  | setBit a =>
    refine edit_agrees A h fun u k hk T k' hg hm => ?_
    cases hg
    obtain ⟨h1, h2, h3, _⟩ := C01_set_unset_bit w hw' u
    exact ⟨_, rfl, .inr ⟨_, _, rfl, rfl, h2.trans T.1, h1, h3.trans T.2.2⟩⟩
  | unsetBit a =>
    refine edit_agrees A h fun u k hk T k' hg hm => ?_
    cases hg
    obtain ⟨_, _, _, h1, h2, h3⟩ := C01_set_unset_bit w hw' u
    exact ⟨_, rfl, .inr ⟨_, _, rfl, rfl, h2.trans T.1, h1, h3.trans T.2.2⟩⟩
  | getType a =>
    refine edit_agrees A h fun u k hk T k' hg hm => ?_
    cases hg
    exact ⟨_, by rw [T.1], .inr ⟨_, _, rfl, rfl, T⟩⟩
  | hasBit a =>
    refine edit_agrees A h fun u k hk T k' hg hm => ?_
    cases hg
    exact ⟨_, by rw [T.2.1], .inr ⟨_, _, rfl, rfl, T⟩⟩
  | getRef a =>
    refine edit_agrees A h fun u k hk T k' hg hm => ?_
    cases hg
    exact ⟨_, by rw [T.2.2], .inr ⟨_, _, rfl, rfl, T⟩⟩
  | free a =>
    refine edit_agrees A h fun u k hk T k' hg hm => ?_
    cases hg
    exact ⟨_, rfl, .inl ⟨rfl, rfl⟩⟩

theorem edit_rc {n x a : Nat} {m m' : Mem Head} {g : Head → Option (Option Head × Nat)} (h : edit m a g = some (m', x))
    (hm : ∀ a k, m a = some k → k.rc ≤ n) {d : Nat} (key : ∀ k y l, g k = some (some l, y) → l.rc ≤ k.rc + d) :
    ∀ a k, m' a = some k → k.rc ≤ n + d := by
  obtain ⟨k, hk, h1⟩ := Option.bind_eq_some_iff.1 h
  obtain ⟨⟨k', y⟩, hg, h2⟩ := Option.map_eq_some_iff.1 h1
  cases h2
  intro b l hl
  unfold set at hl
  split at hl
  · have hl : k' = some l := hl
    subst hl
    have := key k _ l hg
    have := hm a k hk
    omega
  · have := hm b l hl; omega

theorem step_rc {n x : Nat} (hn : 1 ≤ n) {m m' : Mem Head} {c : Act} (h : ideal m c = some (m', x))
    (hm : ∀ a k, m a = some k → k.rc ≤ n) : ∀ a k, m' a = some k → k.rc ≤ n + c.adds := by
  cases c with
  | make a t b =>
    simp only [ideal] at h
    split at h
    · cases h
      intro b k hk
      unfold set at hk
      split at hk
      · cases hk; exact hn
      · exact hm b k hk
    · cases h
  | incr a => exact edit_rc h hm fun k y l e => by cases e; exact Nat.le_refl _
  | decr a =>
    refine edit_rc h hm fun k y l e => ?_
    split at e
    · cases e
    · cases e; exact Nat.le_trans (Nat.sub_le _ _) (Nat.le_add_right _ _)
  | setBit a => exact edit_rc h hm fun k y l e => by cases e; exact Nat.le_refl _
  | unsetBit a => exact edit_rc h hm fun k y l e => by cases e; exact Nat.le_refl _
  | getType a => exact edit_rc h hm fun k y l e => by cases e; exact Nat.le_refl _
  | hasBit a => exact edit_rc h hm fun k y l e => by cases e; exact Nat.le_refl _
  | getRef a => exact edit_rc h hm fun k y l e => by cases e; exact Nat.le_refl _
  | free a => exact edit_rc h hm fun k y l e => by cases e

theorem fits_of_added {ρ : Type} {cap : Nat} (p : Prog ρ) : ∀ (m : Mem Head) (n : Nat), 1 ≤ n → (∀ a k, m a = some k → k.rc ≤ n) →
    n + p.added m < cap → p.Fits cap m := by
  induction p with
  | done r => intro m n _ _ _; trivial
  | act c k ih =>
    intro m n hn hm hc m' x h
    simp only [Prog.added] at hc
    rw [h] at hc
    dsimp only at hc
    have h1 := step_rc hn h hm
    exact ⟨fun a l hl => by have := h1 a l hl; omega, ih x m' (n + c.adds) (by omega) h1 (by omega)⟩

theorem run_agrees {w : Nat} (hw : 8 < w) {ρ : Type} (p : Prog ρ) : ∀ {v : Mem (Word w)} {m m' : Mem Head} {r : ρ}, Agrees v m →
    p.Fits (2 ^ (w - 8)) m → p.run ideal m = some (m', r) → ∃ v', p.run (word w) v = some (v', r) ∧ Agrees v' m' := by
  induction p with
  | done r => intro v m m' r' A _ h; cases h; exact ⟨v, rfl, A⟩
  | act c k ih =>
    intro v m m' r A hf h
    obtain ⟨⟨m1, x⟩, h1, h2⟩ := Option.bind_eq_some_iff.1 h
    obtain ⟨hb, hf'⟩ := hf m1 x h1
    obtain ⟨v1, e1, A1⟩ := step_agrees hw A h1 hb
    obtain ⟨v', e2, A2⟩ := ih x A1 hf' h2
    exact ⟨v', by simp only [Prog.run]; rw [e1]; exact e2, A2⟩

/-- A reference is added `n` times, then the program goes on. -/
def incrs {ρ : Type} (a : Nat) : Nat → Prog ρ → Prog ρ
  | 0, p => p
  | n + 1, p => .act (.incr a) fun _ => incrs a n p

/-- An object of this type is made and retained `n` times, then released once; the result is the count that the release sees. -/
def retained (t : OType) (n : Nat) : Prog Nat := .act (.make 0 t false) fun _ => incrs 0 n (.act (.decr 0) fun r => .done r)

theorem incrs_word {w : Nat} {ρ : Type} {p : Prog ρ} : ∀ (n : Nat) (f : Word w),
    (incrs 0 n p).run (word w) (set none' 0 (some f)) = p.run (word w) (set none' 0 (some (f + BitVec.ofNat w n))) := by
  intro n
  induction n with
  | zero => intro f; rw [show f + BitVec.ofNat w 0 = f from by simp]; rfl
  | succ n ih =>
    intro f
    have e : word w (set none' 0 (some f)) (.incr 0) = some (set none' 0 (some (incrRef f)), 0) := by
      simp only [word, edit]
      rw [show set none' 0 (some f) 0 = some f from rfl, Option.bind_some, Option.map_some]
      congr 2
      funext b
      unfold set
      split <;> rfl
    simp only [incrs, Prog.run]
    rw [e, Option.bind_some]
    rw [ih]
    have e2 : incrRef f + BitVec.ofNat w n = f + BitVec.ofNat w (n + 1) := by
      unfold incrRef
      rw [BitVec.add_assoc, Nat.add_comm n 1, BitVec.ofNat_add]
    rw [e2]

theorem incrs_ideal {ρ : Type} {p : Prog ρ} : ∀ (n : Nat) (h : Head),
    (incrs 0 n p).run ideal (set none' 0 (some h)) = p.run ideal (set none' 0 (some { h with rc := h.rc + n })) := by
  intro n
  induction n with
  | zero => intro h; rfl
  | succ n ih =>
    intro h
    have e : ideal (set none' 0 (some h)) (.incr 0) = some (set none' 0 (some { h with rc := h.rc + 1 }), 0) := by
      simp only [ideal, edit]
      rw [show set none' 0 (some h) 0 = some h from rfl, Option.bind_some, Option.map_some]
      congr 2
      funext b
      unfold set
      split <;> rfl
    simp only [incrs, Prog.run]
    rw [e, Option.bind_some]
    rw [ih]
    have e2 : h.rc + 1 + n = h.rc + (n + 1) := by omega
    dsimp only
    rw [e2]

theorem retained_ideal (t : OType) (n : Nat) : ∃ m, (retained t n).run ideal none' = some (m, n) := by
  refine ⟨set (set none' 0 (some ⟨t, false, 1 + n⟩)) 0 (some ⟨t, false, n⟩), (show (retained t n).run ideal none' =
      (incrs 0 n (.act (.decr 0) fun r => .done r)).run ideal (set none' 0 (some ⟨t, false, 1⟩)) from rfl).trans
      ((incrs_ideal _ _).trans ?_)⟩
  simp only [Prog.run, ideal, edit]
  rw [show set none' 0 (some (Head.mk t false (1 + n))) 0 = some (Head.mk t false (1 + n)) from rfl]
  have e : 1 + n - 1 = n := by omega
  have e0 : ¬ 1 + n = 0 := by omega
  simp only [Option.bind_some, Option.map_some, e, if_neg e0]

theorem retained_word {w : Nat} (t : OType) (n : Nat) :
    ∃ v, (retained t n).run (word w) none' = some (v, getRef (decrRef (mk w t.code false + BitVec.ofNat w n))) := by
  refine ⟨set (set none' 0 (some (mk w t.code false + BitVec.ofNat w n))) 0
      (some (decrRef (mk w t.code false + BitVec.ofNat w n))), (show (retained t n).run (word w) none' =
      (incrs 0 n (.act (.decr 0) fun r => .done r)).run (word w) (set none' 0 (some (mk w t.code false))) from
      rfl).trans ((incrs_word _ _).trans ?_)⟩
  simp only [Prog.run, word, edit]
  rw [show ∀ f : Word w, set none' 0 (some f) 0 = some f from fun _ => rfl]
  simp only [Option.bind_some, Option.map_some]

theorem full_turn (t : OType) : getRef (decrRef (mk 32 t.code false + BitVec.ofNat 32 16777216)) = 0 := by
  cases t <;> decide +kernel

end Cowl.Words

namespace Cowl
open Words

/-- C107, in part: a program that is defined on headers with unbounded counts, in which no object ever has more references than the
word can count, does the same on words of 32 or 64 bits, or any width above 8. Missing: programs in which an object has more
references (`C107_fails`). -/
theorem C107_partial {w : Nat} (hw : 8 < w) {ρ : Type} (p : Prog ρ) (hf : p.Fits (2 ^ (w - 8)) none') {m : Mem Head} {r : ρ}
    (h : p.run ideal none' = some (m, r)) : ∃ v, p.run (word w) none' = some (v, r) ∧ Agrees v m :=
  run_agrees hw p (fun _ => .inl ⟨rfl, rfl⟩) hf h

/-- C107: this holds if the program adds fewer than `2^24 - 1` references altogether (for words of 32 bits). -/
theorem C107_added {w : Nat} (hw : 8 < w) {ρ : Type} (p : Prog ρ) (hn : p.added none' + 1 < 2 ^ (w - 8)) {m : Mem Head} {r : ρ}
    (h : p.run ideal none' = some (m, r)) : ∃ v, p.run (word w) none' = some (v, r) ∧ Agrees v m :=
  C107_partial hw p (fits_of_added p none' 1 (Nat.le_refl _) nofun (by omega)) h

/-- C107 fails with `2^24` = 16777216 references more than the first one: the first release takes the object for unused, although there are
`2^24` references left. -/
theorem C107_fails (t : OType) : (∃ m, (retained t (16777216)).run ideal none' = some (m, 16777216)) ∧
    ∃ v, (retained t (16777216)).run (word 32) none' = some (v, 0) := by
  refine ⟨retained_ideal t _, ?_⟩
  obtain ⟨v, hv⟩ := retained_word (w := 32) t 16777216
  rw [full_turn] at hv
  exact ⟨v, hv⟩

/-- Two objects, the second of which refers to the first and is retained: the second release of it destroys both. -/
def exProg : Prog Nat :=
  .act (.make 1 .vector false) fun _ => .act (.make 2 .aSubClass true) fun _ => .act (.incr 2) fun _ =>
    releaseAll (fun a => if a = 2 then [1] else []) 5 [2, 2] 0

example : exProg.added none' + 1 < 2 ^ (32 - 8) ∧ (exProg.run ideal none').map Prod.snd = some 2 ∧
    (exProg.run (word 32) none').map Prod.snd = some 2 := by decide +kernel

end Cowl
