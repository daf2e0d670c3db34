import Verif.PrimMemLemmas
import Verif.LitMemProps
/-! # C105: IRIs and anonymous individuals own their strings, whatever allocations fail -/
namespace Cowl
open SBuf

namespace PrimM
open LitM (Run bump)
variable {h : Str → Nat}

/-! ## Lists of cells -/

theorem lookup_mem {α : Type} {l : List (Nat × α)} {a : Nat} {k : α} (e : l.lookup a = some k) : (a, k) ∈ l := by
  induction l with
  | nil => cases e
  | cons p l ih =>
    obtain ⟨b, k'⟩ := p
    by_cases hb : a = b
    · subst hb; rw [List.lookup_cons_self] at e; cases e; exact .head _
    · rw [List.lookup_cons, show (a == b) = false by simp [hb]] at e
      exact .tail _ (ih e)

theorem mem_lookup {α : Type} {l : List (Nat × α)} (hn : (l.map Prod.fst).Nodup) {a : Nat} {k : α} (hm : (a, k) ∈ l) :
    l.lookup a = some k := by
  induction l with
  | nil => cases hm
  | cons p l ih =>
    obtain ⟨b, k'⟩ := p
    have hn' := List.nodup_cons.1 (show (b :: l.map Prod.fst).Nodup from hn)
    rcases List.mem_cons.1 hm with e | hm'
    · cases e; exact List.lookup_cons_self
    · have : a ≠ b := by rintro rfl; exact hn'.1 (List.mem_map.2 ⟨_, hm', rfl⟩)
      rw [List.lookup_cons, show (a == b) = false by simp [this]]
      exact ih hn'.2 hm'

theorem lookup_none {α : Type} {l : List (Nat × α)} {a : Nat} : l.lookup a = none ↔ ∀ p ∈ l, p.1 ≠ a := by
  constructor
  · intro e p hp hpa
    induction l with
    | nil => cases hp
    | cons q l ih =>
      obtain ⟨b, k'⟩ := q
      by_cases hb : a = b
      · subst hb; rw [List.lookup_cons_self] at e; cases e
      · rw [List.lookup_cons, show (a == b) = false by simp [hb]] at e
        rcases List.mem_cons.1 hp with h1 | h1
        · subst h1; exact hb hpa.symm
        · exact ih e h1
  · intro hn
    cases e : l.lookup a with
    | none => rfl
    | some k => exact absurd rfl (hn _ (lookup_mem e))

theorem uses_cons (p : Nat × PCell) (l : List (Nat × PCell)) (a : Nat) : uses (p :: l) a = usesOf p.2 a + uses l a := by
  simp [uses]

theorem uses_pos {l : List (Nat × PCell)} {a b : Nat} {k : PCell} (hm : (a, k) ∈ l) (hb : 0 < usesOf k b) :
    0 < uses l b := by
  induction l with
  | nil => cases hm
  | cons p l ih =>
    rw [uses_cons]
    rcases List.mem_cons.1 hm with e | hm'
    · subst e; dsimp only; omega
    · have := ih hm'; omega

theorem uses_filter {l : List (Nat × PCell)} (hn : (l.map Prod.fst).Nodup) {a : Nat} {k : PCell}
    (e : l.lookup a = some k) (b : Nat) : uses l b = usesOf k b + uses (l.filter fun p => p.1 ≠ a) b := by
  induction l with
  | nil => cases e
  | cons p l ih =>
    obtain ⟨c, k'⟩ := p
    have hn' := List.nodup_cons.1 (show (c :: l.map Prod.fst).Nodup from hn)
    by_cases hb : a = c
    · subst hb
      rw [List.lookup_cons_self] at e; cases e
      have h1 : (l.filter fun p => p.1 ≠ a) = l := List.filter_eq_self.2 fun p hp => by
        simp only [ne_eq, decide_eq_true_eq]
        exact fun e => hn'.1 (List.mem_map.2 ⟨p, hp, e⟩)
      rw [List.filter_cons_of_neg (by simp), h1, uses_cons]
    · rw [List.lookup_cons, show (a == c) = false by simp [hb]] at e
      rw [List.filter_cons_of_pos (by simp [Ne.symm hb]), uses_cons, uses_cons, ih hn'.2 e]; omega

theorem uses_setRc (s : Mem) (a n b : Nat) : uses (setRc s a n).prims b = uses s.prims b := by
  unfold uses setRc
  rw [List.map_map]
  congr 1
  refine List.map_congr_left fun p _ => ?_
  show usesOf (if p.1 = a then (a, { p.2 with rc := n }) else p).2 b = usesOf p.2 b
  split <;> rfl

theorem setRc_keys (s : Mem) (a n : Nat) : (setRc s a n).prims.map Prod.fst = s.prims.map Prod.fst := by
  unfold setRc
  rw [List.map_map]
  refine List.map_congr_left fun p _ => ?_
  show (if p.1 = a then (a, { p.2 with rc := n }) else p).1 = p.1
  split
  · rename_i h; exact h.symm
  · rfl

theorem setRc_mem {s : Mem} {a n : Nat} {p : Nat × PCell} (hp : p ∈ (setRc s a n).prims) :
    ∃ q ∈ s.prims, p.1 = q.1 ∧ p.2.ns = q.2.ns ∧ p.2.rem = q.2.rem ∧ (p.1 = a → p.2.rc = n) ∧ (p.1 ≠ a → p.2.rc = q.2.rc) := by
  obtain ⟨q, hq, e⟩ := List.mem_map.1 hp
  split at e
  · rename_i h; subst e; exact ⟨q, hq, h.symm, rfl, rfl, (fun _ => rfl), fun e => absurd rfl e⟩
  · rename_i h; subst e; exact ⟨q, hq, rfl, rfl, rfl, (fun e => absurd e h), fun _ => rfl⟩

theorem setRc_prim_none {s : Mem} {a n b : Nat} : (setRc s a n).prim b = none ↔ s.prim b = none := by
  have aux : ∀ {l l' : List (Nat × PCell)}, l.map Prod.fst = l'.map Prod.fst → (∀ p ∈ l', p.1 ≠ b) → ∀ p ∈ l, p.1 ≠ b := by
    intro l l' e hl p hp hb
    have : b ∈ l'.map Prod.fst := by rw [← e]; exact List.mem_map.2 ⟨p, hp, hb⟩
    obtain ⟨q, hq, hqb⟩ := List.mem_map.1 this
    exact hl q hq hqb
  unfold Mem.prim
  rw [lookup_none, lookup_none]
  exact ⟨aux (setRc_keys s a n).symm, aux (setRc_keys s a n)⟩

/-! ## The invariant -/

/-- All references to strings. -/
def allExt (w : World) : Nat → Nat := fun a => w.ext a + uses w.mem.prims a

/-- Strings, with all references to them. -/
def World.strs (w : World) : SBuf.World := ⟨w.mem.str, allExt w, w.cli⟩

structure PInv (h : Str → Nat) (w : World) : Prop where
  reach : SBuf.Reachable h w.strs
  nodup : (w.mem.prims.map Prod.fst).Nodup
  rc : ∀ p ∈ w.mem.prims, p.2.rc = w.pext p.1 ∧ 0 < p.2.rc
  gone : ∀ a, w.mem.prim a = none → w.pext a = 0
  tbl : ∀ b, b ∈ w.mem.tbl ↔ w.mem.prim b ≠ none
  tnd : w.mem.tbl.Nodup
  key : ∀ p ∈ w.mem.prims, ∃ o, NsIs w.mem.str p.2.ns o
  uniq : ∀ a b k l, w.mem.prim a = some k → w.mem.prim b = some l → k.ns = l.ns →
    w.mem.str.text k.rem = w.mem.str.text l.rem → a = b

theorem PInv.based {w : World} (I : PInv h w) : Based w.strs w.mem :=
  ⟨I.tbl, fun _ _ _ hk hy => Nat.lt_of_lt_of_le (uses_pos (lookup_mem hk) hy) (Nat.le_add_left _ _)⟩

theorem PInv.text {w : World} (I : PInv h w) {a : Nat} {k : PCell} (hk : w.mem.prim a = some k) :
    ∃ c, w.mem.str.text k.rem = some c := I.based.text I.reach (LitM.Run.refl I.reach) hk

/-- The objects that were there and are there have the contents they had. -/
def Same (s s' : Mem) : Prop := ∀ a, s.prim a ≠ none → s'.prim a ≠ none → content s' a = content s a

theorem content_eq {s : Mem} {a : Nat} {k : PCell} {o : Option Str} {c : Str} (hk : s.prim a = some k)
    (hn : NsIs s.str k.ns o) (hc : s.str.text k.rem = some c) : content s a = some (o, c) := by
  unfold content
  rw [hk]
  have hc : textOf s.str k.rem = some c := hc
  dsimp only
  cases e : k.ns with
  | none =>
    rw [e] at hn
    cases o with
    | none => dsimp only; rw [hc]; rfl
    | some d => exact hn.elim
  | some n =>
    rw [e] at hn
    cases o with
    | none => exact hn.elim
    | some d => dsimp only; rw [show textOf s.str n = some d from hn.1, hc]; rfl

theorem PInv.cont {w : World} (I : PInv h w) {a : Nat} {k : PCell} (hk : w.mem.prim a = some k) :
    ∃ o c, NsIs w.mem.str k.ns o ∧ w.mem.str.text k.rem = some c ∧ content w.mem a = some (o, c) := by
  obtain ⟨c, hc⟩ := I.text hk
  obtain ⟨o, ho⟩ := I.key _ (lookup_mem hk)
  exact ⟨o, c, ho, hc, content_eq hk ho hc⟩

/-- The invariant after a change that makes no new object. -/
theorem PInv.of {w w' : World} (I : PInv h w) (hr : SBuf.Reachable h w'.strs) (hn : (w'.mem.prims.map Prod.fst).Nodup)
    (hc : ∀ p ∈ w'.mem.prims, p.2.rc = w'.pext p.1 ∧ 0 < p.2.rc) (hg : ∀ a, w'.mem.prim a = none → w'.pext a = 0)
    (ht : ∀ b, b ∈ w'.mem.tbl ↔ w'.mem.prim b ≠ none) (htn : w'.mem.tbl.Nodup)
    (hl : ∀ a k', w'.mem.prim a = some k' → ∃ k, w.mem.prim a = some k ∧ k'.ns = k.ns ∧ k'.rem = k.rem)
    (hs : ∀ a k' y, w'.mem.prim a = some k' → 0 < usesOf k' y → Keep w.mem.str w'.mem.str y)
    (he : w'.mem.str.empty = w.mem.str.empty) : PInv h w' ∧ Same w.mem w'.mem := by
  have key : ∀ a k', w'.mem.prim a = some k' → ∃ k o c, w.mem.prim a = some k ∧ k'.ns = k.ns ∧
      NsIs w'.mem.str k'.ns o ∧ w'.mem.str.text k'.rem = some c ∧ w.mem.str.text k.rem = some c ∧ content w.mem a = some (o, c) := by
    intro a k' hk'
    obtain ⟨k, hk, e1, e2⟩ := hl a k' hk'
    obtain ⟨o, c, ho, hc, hcon⟩ := I.cont hk
    refine ⟨k, o, c, hk, e1, ?_, ?_, hc, hcon⟩
    · rw [e1]
      exact ho.keep (fun n en => hs a k' n hk' (usesOf_ns (e1.trans en))) he
    · exact (hs a k' _ hk' (usesOf_rem k')).1 c (by rw [e2]; exact hc)
  refine ⟨⟨hr, hn, hc, hg, ht, htn, fun p hp => ?_, fun a b k l hk hl' hns htx => ?_⟩, fun a ha ha' => ?_⟩
  · obtain ⟨_, o, _, _, _, ho, _⟩ := key p.1 p.2 (mem_lookup hn hp)
    exact ⟨o, ho⟩
  · obtain ⟨k0, o, c, h1, h2, _, h3, h4, _⟩ := key a k hk
    obtain ⟨l0, o', c', g1, g2, _, g3, g4, _⟩ := key b l hl'
    refine I.uniq a b k0 l0 h1 g1 (h2.symm.trans (hns.trans g2)) ?_
    rw [h4, g4, ← h3, ← g3, htx]
  · obtain ⟨k', hk'⟩ := Option.ne_none_iff_exists'.1 ha'
    obtain ⟨k, o, c, h1, h2, ho, h3, h4, hcon⟩ := key a k' hk'
    rw [hcon]; exact content_eq hk' ho h3

/-- References of the client after a constructor. -/
def pextMade (pext : Nat → Nat) : Option Nat → Nat → Nat
  | some x => SBuf.set pext x (pext x + 1)
  | none => pext

theorem PInv.count {w : World} (I : PInv h w) {s' : Mem} {a n : Nat} {k : PCell} (hk : w.mem.prim a = some k) (hn : 0 < n)
    (hp : s'.prims = (setRc w.mem a n).prims) (ht : s'.tbl = w.mem.tbl)
    (R : Run h w.strs ⟨s'.str, allExt w, w.cli⟩) :
    PInv h ⟨s', w.ext, w.cli, SBuf.set w.pext a n⟩ ∧ Same w.mem s' := by
  have hpn : ∀ b, s'.prim b = none ↔ w.mem.prim b = none := fun b => by
    rw [← setRc_prim_none (s := w.mem) (a := a) (n := n)]; unfold Mem.prim; rw [hp]
  have hnd : (s'.prims.map Prod.fst).Nodup := by rw [hp, setRc_keys]; exact I.nodup
  refine I.of (w' := ⟨s', w.ext, w.cli, SBuf.set w.pext a n⟩) ?_ hnd ?_ ?_ ?_ ?_ ?_ ?_ R.empty
  · have : allExt ⟨s', w.ext, w.cli, SBuf.set w.pext a n⟩ = allExt w := by
      funext b; unfold allExt; dsimp only; rw [hp, uses_setRc]
    show SBuf.Reachable h ⟨s'.str, allExt ⟨s', w.ext, w.cli, SBuf.set w.pext a n⟩, w.cli⟩
    rw [this]; exact R.reach
  · intro p hm
    have hm : p ∈ s'.prims := hm
    rw [hp] at hm
    obtain ⟨q, hq, e1, _, _, h1, h2⟩ := setRc_mem hm
    show p.2.rc = SBuf.set w.pext a n p.1 ∧ _
    by_cases hpa : p.1 = a
    · rw [h1 hpa, hpa, set_same]; exact ⟨rfl, hn⟩
    · rw [h2 hpa, set_other _ _ hpa, e1]; exact I.rc q hq
  · intro b hb
    have hb := (hpn b).1 hb
    show SBuf.set w.pext a n b = 0
    rw [set_other _ _ (by intro e; rw [← e, hb] at hk; cases hk)]
    exact I.gone b hb
  · intro b
    show b ∈ s'.tbl ↔ s'.prim b ≠ none
    rw [ht, I.tbl b]; exact not_congr (hpn b).symm
  · show s'.tbl.Nodup; rw [ht]; exact I.tnd
  · intro b k' hk'
    have hm : (b, k') ∈ s'.prims := lookup_mem hk'
    rw [hp] at hm
    obtain ⟨⟨q1, q2⟩, hq, e1, e2, e3, _⟩ := setRc_mem hm
    cases e1
    exact ⟨q2, mem_lookup I.nodup hq, e2, e3⟩
  · exact fun _ _ y _ _ => Run.keeps R y

/-- What a constructor leaves. -/
theorem PInv.built {w : World} (I : PInv h w) {s' : Mem} {a : Nat} {r : Option Nat} {o : Option Str} {c : Str}
    (ha : w.mem.prim a = none) (B : Built h w.strs (allExt w) w.cli w.mem s' a o c r) :
    PInv h ⟨s', w.ext, w.cli, pextMade w.pext r⟩ ∧ Same w.mem s' ∧ ∀ x, r = some x → content s' x = some (o, c) := by
  cases B with
  | null hp ht R =>
    have hpp : ∀ b, s'.prim b = w.mem.prim b := fun b => by unfold Mem.prim; rw [hp]
    refine and_assoc.1 ⟨I.of (w' := ⟨s', w.ext, w.cli, w.pext⟩) ?_ (by rw [hp]; exact I.nodup) (by rw [hp]; exact I.rc) ?_ ?_
      (by rw [ht]; exact I.tnd) ?_ (fun _ _ y _ _ => Run.keeps R y) R.empty, fun x e => nomatch e⟩
    · have : allExt ⟨s', w.ext, w.cli, w.pext⟩ = allExt w := by
        funext b; unfold allExt; dsimp only; rw [hp]
      show SBuf.Reachable h ⟨s'.str, allExt ⟨s', w.ext, w.cli, w.pext⟩, w.cli⟩
      rw [this]; exact R.reach
    · intro b hb; exact I.gone b ((hpp b).symm.trans hb)
    · intro b; show b ∈ s'.tbl ↔ s'.prim b ≠ none; rw [ht, hpp]; exact I.tbl b
    · intro b k' hk'; exact ⟨k', (hpp b).symm.trans hk', rfl, rfl⟩
  | @old x k hk hn hr hp ht R =>
    have hrc : k.rc = w.pext x := (I.rc _ (lookup_mem hk)).1
    have := I.count hk (n := k.rc + 1) (Nat.succ_pos _) hp ht R
    refine ⟨?_, this.2, fun y e => ?_⟩
    · show PInv h ⟨s', w.ext, w.cli, SBuf.set w.pext x (w.pext x + 1)⟩
      rw [← hrc]; exact this.1
    · cases e
      obtain ⟨k', hk'⟩ := Option.ne_none_iff_exists'.1 (show s'.prim x ≠ none by
        intro e
        have : (setRc w.mem x (k.rc + 1)).prim x = none := by unfold Mem.prim at e ⊢; rw [← hp]; exact e
        rw [setRc_prim_none, hk] at this; cases this)
      have hm : (x, k') ∈ s'.prims := lookup_mem hk'
      rw [hp] at hm
      obtain ⟨⟨q1, q2⟩, hq, e1, e2, e3, _⟩ := setRc_mem hm
      cases e1
      have : w.mem.prim x = some q2 := mem_lookup I.nodup hq
      rw [hk] at this
      cases this
      exact content_eq hk' (by rw [show k'.ns = k.ns from e2]; exact hn) (by rw [show k'.rem = k.rem from e3]; exact hr)
  | @new k h1 hn hr hp ht R hu =>
    have hlk : s'.prim a = some k := by show s'.prims.lookup a = _; rw [hp, List.lookup_cons_self]
    have hold : ∀ b, b ≠ a → s'.prim b = w.mem.prim b := by
      intro b hb
      show s'.prims.lookup b = _
      rw [hp, List.lookup_cons, show (b == a) = false by simp [hb]]; rfl
    have cases' : ∀ {b l}, s'.prim b = some l → (b = a ∧ l = k) ∨ (b ≠ a ∧ w.mem.prim b = some l) := by
      intro b l hl
      by_cases hb : b = a
      · subst hb; rw [hlk] at hl; cases hl; exact .inl ⟨rfl, rfl⟩
      · rw [hold b hb] at hl; exact .inr ⟨hb, hl⟩
    have hnew : ∀ p ∈ w.mem.prims, p.1 ≠ a := lookup_none.1 ha
    refine ⟨⟨?_, ?_, ?_, ?_, ?_, ?_, ?_, ?_⟩, fun b hb hb' => ?_, fun x e => by cases e; exact content_eq hlk hn hr⟩
    · have : (fun b => allExt w b + usesOf k b) = allExt ⟨s', w.ext, w.cli, pextMade w.pext (some a)⟩ := by
        funext b; unfold allExt; dsimp only; rw [hp, uses_cons]; dsimp only; omega
      show SBuf.Reachable h ⟨s'.str, allExt ⟨s', w.ext, w.cli, pextMade w.pext (some a)⟩, w.cli⟩
      rw [← this]; exact R.reach
    · show (s'.prims.map Prod.fst).Nodup
      rw [hp]
      refine List.nodup_cons.2 ⟨fun hm => ?_, I.nodup⟩
      obtain ⟨p, hp, e⟩ := List.mem_map.1 hm
      exact hnew p hp e
    · intro p hm
      have hm : p ∈ s'.prims := hm
      rw [hp] at hm
      show p.2.rc = SBuf.set w.pext a (w.pext a + 1) p.1 ∧ _
      rcases List.mem_cons.1 hm with e | hm'
      · subst e; rw [set_same, I.gone a ha]; exact ⟨h1, by dsimp only; omega⟩
      · rw [set_other _ _ (hnew p hm')]; exact I.rc p hm'
    · intro b hb
      have hb : s'.prim b = none := hb
      have hba : b ≠ a := by rintro rfl; rw [hlk] at hb; cases hb
      show SBuf.set w.pext a (w.pext a + 1) b = 0
      rw [set_other _ _ hba]
      exact I.gone b ((hold b hba).symm.trans hb)
    · intro b
      show b ∈ s'.tbl ↔ s'.prim b ≠ none
      rw [ht, List.mem_cons]
      by_cases hb : b = a
      · subst hb; rw [hlk]; simp
      · rw [hold b hb, I.tbl b]; simp [hb]
    · show s'.tbl.Nodup
      rw [ht]
      exact List.nodup_cons.2 ⟨fun hm => (I.tbl a).1 hm ha, I.tnd⟩
    · intro p hm
      have hm : p ∈ s'.prims := hm
      rw [hp] at hm
      rcases List.mem_cons.1 hm with e | hm'
      · subst e; exact ⟨o, hn⟩
      · obtain ⟨o', ho'⟩ := I.key p hm'
        exact ⟨o', NsIs.run R ho'⟩
    · intro b b' l l' hl hl' hns htx
      have fresh : ∀ {b l}, w.mem.prim b = some l → l.ns = k.ns → s'.str.text l.rem = s'.str.text k.rem → False :=
        fun hl hn' hx => hu _ _ hl hn' (hx.trans hr)
      rcases cases' hl with ⟨e1, e2⟩ | ⟨hb, g1⟩ <;> rcases cases' hl' with ⟨e3, e4⟩ | ⟨hb', g2⟩
      · rw [e1, e3]
      · subst e2; exact (fresh g2 hns.symm htx.symm).elim
      · subst e4; exact (fresh g1 hns htx).elim
      · obtain ⟨c1, hc1⟩ := I.text g1
        obtain ⟨c2, hc2⟩ := I.text g2
        refine I.uniq b b' l l' g1 g2 hns ?_
        have t1 : s'.str.text l.rem = some c1 := R.text hc1
        have t2 : s'.str.text l'.rem = some c2 := R.text hc2
        rw [hc1, hc2, ← t1, ← t2]; exact htx
    · have hba : b ≠ a := by rintro rfl; exact hb ha
      obtain ⟨l, hl⟩ := Option.ne_none_iff_exists'.1 hb
      obtain ⟨o', c', ho', hc', hcon⟩ := I.cont hl
      rw [hcon]
      exact content_eq ((hold b hba).trans hl) (NsIs.run R ho') (R.text hc')

theorem str_step {w : World} (I : PInv h w) {op : SBuf.Op} (hl : SBuf.Legal ⟨w.mem.str, w.ext, w.cli⟩ op) :
    ∃ t r, SBuf.step h w.mem.str op = some (t, r) ∧
      PInv h ⟨{ w.mem with str := t }, SBuf.extAfter w.ext op r, SBuf.cliAfter w.cli op r, w.pext⟩ ∧
      Same w.mem { w.mem with str := t } := by
  have hl' : SBuf.Legal w.strs op := LitM.legal_more hl
  obtain ⟨t, r, e⟩ := C72_defined I.reach hl'
  have hx : SBuf.extAfter (allExt w) op r = fun a => SBuf.extAfter w.ext op r a + uses w.mem.prims a :=
    LitM.ext_add (fun x e => by subst e; exact hl) (fun m x e => by subst e; exact hl.1)
  have R := I.reach.step hl' e
  have R' : SBuf.Reachable h ⟨t, fun a => SBuf.extAfter w.ext op r a + uses w.mem.prims a, SBuf.cliAfter w.cli op r⟩ := by
    rw [← hx]; exact R
  have K : ∀ a, 0 < uses w.mem.prims a → Keep w.mem.str t a := by
    intro a ha
    have hp : 0 < SBuf.extAfter w.strs.ext op r a := by
      show 0 < SBuf.extAfter (allExt w) op r a
      rw [hx]; exact Nat.lt_of_lt_of_le ha (Nat.le_add_left _ _)
    refine ⟨fun c hc => ?_, fun hi => ?_⟩
    · obtain ⟨k, hk, hc⟩ := Option.bind_eq_some_iff.1 hc
      obtain ⟨k', h1, h2, h3, _⟩ := LitM.step_keep I.reach hl' e hk (.inl hp)
      rw [text_eq h1, h2, h3]; exact hc
    · obtain ⟨k, hk, hb⟩ := hi
      obtain ⟨k', h1, _, _, h4⟩ := LitM.step_keep I.reach hl' e hk (.inl hp)
      exact ⟨k', h1, h4 hb⟩
  exact ⟨t, r, e, I.of (w' := ⟨{ w.mem with str := t }, SBuf.extAfter w.ext op r, SBuf.cliAfter w.cli op r, w.pext⟩) R' I.nodup I.rc
    I.gone I.tbl I.tnd (fun a k' hk' => ⟨k', hk', rfl, rfl⟩) (fun a k' y hk' hy => K y (uses_pos (lookup_mem hk') hy))
    (step_empty I.reach hl' e)⟩

/-- Giving up a reference to a string. -/
theorem reach_release {s : Mem} {ext : Nat → Nat} {cli : Nat → Bool} {x : Option Nat}
    (R : SBuf.Reachable h ⟨s.str, bumpO ext x, cli⟩) :
    ∃ s', releaseOpt s x = some s' ∧ s'.prims = s.prims ∧ s'.tbl = s.tbl ∧ SBuf.Reachable h ⟨s'.str, ext, cli⟩ ∧
      s'.str.empty = s.str.empty ∧ ∀ a, 0 < ext a → Keep s.str s'.str a := by
  cases x with
  | none => exact ⟨s, rfl, rfl, rfl, R, rfl, fun a _ => ⟨fun c hc => hc, fun hi => hi⟩⟩
  | some x =>
    obtain ⟨t, e, R', K⟩ := LitM.reach_release R
    have hl : SBuf.Legal ⟨s.str, bump ext x, cli⟩ (.release x) := by show 0 < bump ext x x; simp [bump]
    have he := step_empty R hl (s := t) (r := .unit) (by show (SBuf.release s.str x).map _ = _; rw [e]; rfl)
    refine ⟨{ s with str := t }, ?_, rfl, rfl, R', he, K⟩
    unfold releaseOpt; dsimp only; rw [e]; rfl

/-- The last reference to an object is given up. -/
theorem PInv.free {w : World} (I : PInv h w) {a : Nat} {k : PCell} (hk : w.mem.prim a = some k) :
    ∃ s', freePrim w.mem a k = some s' ∧ PInv h ⟨s', w.ext, w.cli, SBuf.set w.pext a 0⟩ ∧ Same w.mem s' := by
  have hm : (a, k) ∈ w.mem.prims := lookup_mem hk
  generalize hrest : (w.mem.prims.filter fun p => p.1 ≠ a) = rest
  have hu : ∀ b, uses w.mem.prims b = usesOf k b + uses rest b := fun b => by
    rw [← hrest]; exact uses_filter I.nodup hk b
  have hsub : ∀ p, p ∈ rest ↔ p ∈ w.mem.prims ∧ p.1 ≠ a := by
    intro p; rw [← hrest, List.mem_filter]; simp
  have hnd : (rest.map Prod.fst).Nodup := by
    rw [← hrest]; exact (List.filter_sublist.map _).nodup I.nodup
  -- the table
  obtain ⟨c, hc⟩ := I.text hk
  obtain ⟨l, hl, hc'⟩ := Option.bind_eq_some_iff.1 hc
  have hh : l.hash = h c := (SBuf.reachable_inv I.reach).hash _ _ _ hl hc'
  have e0 : removePrim w.mem k = some { w.mem with tbl := w.mem.tbl.erase a } := by
    unfold removePrim
    rw [hl, Option.bind_some, hc', Option.bind_some, hh]
    obtain ⟨r, e, F⟩ := find_spec I.reach I.based (LitM.Run.refl I.reach) k.ns c w.mem.tbl fun b hb => hb
    rw [e]
    cases r with
    | none => exact absurd hc (F.2 rfl a ((I.tbl a).2 (by rw [hk]; exact fun e => nomatch e)) k hk rfl)
    | some b =>
      obtain ⟨_, k', hk', hn', ht'⟩ := F.1 b rfl
      rw [I.uniq b a k' k hk' hk hn' (ht'.trans hc.symm)]; rfl
  unfold freePrim
  rw [e0, Option.bind_some]
  -- the references to strings
  have hx : allExt w = bumpO (bumpO (fun b => w.ext b + uses rest b) (some k.rem)) k.ns := by
    funext b
    simp only [allExt, hu, usesOf]
    cases hns : k.ns with
    | none =>
      simp only [bumpO, bump, SBuf.set]
      by_cases hb : b = k.rem
      · subst hb; simp; omega
      · simp [hb, Ne.symm hb]
    | some n =>
      simp only [bumpO, bump, SBuf.set]
      by_cases hb : b = k.rem
      · by_cases hn : b = n
        · subst hb; subst hn; simp; omega
        · subst hb; simp [hn, Ne.symm hn]; omega
      · by_cases hn : b = n
        · subst hn; simp [hb, Ne.symm hb]; omega
        · simp [hb, hn, Ne.symm hb, Ne.symm hn]
  have R0 : SBuf.Reachable h ⟨w.mem.str, bumpO (bumpO (fun b => w.ext b + uses rest b) (some k.rem)) k.ns, w.cli⟩ := by
    rw [← hx]; exact I.reach
  obtain ⟨s1, e1, p1, t1, R1, m1, K1⟩ := reach_release (s := { w.mem with tbl := w.mem.tbl.erase a }) R0
  rw [e1, Option.bind_some]
  obtain ⟨s2, e2, p2, t2, R2, m2, K2⟩ := reach_release R1
  rw [e2]
  have hp2 : (s2.prims.filter fun p => p.1 ≠ a) = rest := by rw [p2, p1]; exact hrest
  have ht2 : s2.tbl = w.mem.tbl.erase a := t2.trans t1
  refine ⟨_, rfl, I.of (w' := ⟨{ s2 with prims := s2.prims.filter fun p => p.1 ≠ a }, w.ext, w.cli, SBuf.set w.pext a 0⟩)
    ?_ ?_ ?_ ?_ ?_ ?_ ?_ ?_ (m2.trans m1)⟩
  · show SBuf.Reachable h ⟨s2.str, fun b => w.ext b + uses (s2.prims.filter fun p => p.1 ≠ a) b, w.cli⟩
    rw [hp2]; exact R2
  · show ((s2.prims.filter fun p => p.1 ≠ a).map Prod.fst).Nodup; rw [hp2]; exact hnd
  · intro p hp
    have hp : p ∈ (s2.prims.filter fun p => p.1 ≠ a) := hp
    rw [hp2] at hp
    have hp' := (hsub p).1 hp
    show _ = SBuf.set w.pext a 0 p.1 ∧ _
    rw [set_other _ _ hp'.2]; exact I.rc p hp'.1
  · intro b hb
    have hb : (s2.prims.filter fun p => p.1 ≠ a).lookup b = none := hb
    rw [hp2] at hb
    have hb' := lookup_none.1 hb
    show SBuf.set w.pext a 0 b = 0
    by_cases hba : b = a
    · subst hba; exact set_same _ _ _
    · rw [set_other _ _ hba]
      refine I.gone b (lookup_none.2 fun p hp e => ?_)
      exact hb' p ((hsub p).2 ⟨hp, by rw [e]; exact hba⟩) e
  · intro b
    show b ∈ s2.tbl ↔ (s2.prims.filter fun p => p.1 ≠ a).lookup b ≠ none
    rw [ht2, hp2, I.tnd.mem_erase_iff, I.tbl b]
    constructor
    · rintro ⟨hba, hb⟩ e
      refine hb (lookup_none.2 fun p hp e' => lookup_none.1 e p ((hsub p).2 ⟨hp, by rw [e']; exact hba⟩) e')
    · intro hb
      obtain ⟨l, hl⟩ := Option.ne_none_iff_exists'.1 hb
      have := (hsub _).1 (lookup_mem hl)
      refine ⟨this.2, ?_⟩
      rw [show w.mem.prim b = some l from mem_lookup I.nodup this.1]; exact fun e => nomatch e
  · show s2.tbl.Nodup; rw [ht2]; exact I.tnd.erase a
  · intro b k' hk'
    have hk' : (s2.prims.filter fun p => p.1 ≠ a).lookup b = some k' := hk'
    rw [hp2] at hk'
    exact ⟨k', mem_lookup I.nodup ((hsub _).1 (lookup_mem hk')).1, rfl, rfl⟩
  · intro b k' y hk' hy
    have hk' : (s2.prims.filter fun p => p.1 ≠ a).lookup b = some k' := hk'
    rw [hp2] at hk'
    have hpos := uses_pos (lookup_mem hk') hy
    have k1 := K1 y (Nat.lt_of_lt_of_le (show 0 < w.ext y + uses rest y by omega) (le_bumpO (fun b => w.ext b + uses rest b) (some k.rem) y))
    have k2 := K2 y (show 0 < w.ext y + uses rest y by omega)
    exact ⟨fun c hc => k2.1 c (k1.1 c hc), fun hi => k2.2 (k1.2 hi)⟩

/-- The calls that make objects. -/
def Makes' : Op → Prop
  | .unval .. => True
  | .iri .. => True
  | .iriOf .. => True
  | .anon .. => True
  | .anonOf .. => True
  | _ => False

/-- What the calls that make objects do. -/
theorem made {w : World} (I : PInv h w) {op : Op} (ho : Makes' op) (hl : Legal w op) (hc : Calm w.mem op) :
    ∃ s r a o c, step h w.mem op = some (s, .ptr r) ∧ w.mem.prim a = none ∧
      Built h w.strs (allExt w) w.cli w.mem s a o c r ∧ (∀ x, Asks w.mem op x → r = none ∨ x = (o, c)) ∧
      ∀ m ids, op = .anon m none ids → r = none ∨ r = some m.a ∧ a = m.a ∧ o = none ∧ c ∈ ids.map Prod.snd := by
  have hw := I.reach
  have R0 := LitM.Run.refl hw
  cases op with
  | str o => exact ho.elim
  | retain x => exact ho.elim
  | release x => exact ho.elim
  | unval m ns rem =>
    obtain ⟨F, hns, hrem⟩ := hl
    cases ns with
    | none => exact ⟨_, _, m.a, none, [], rfl, F.a, .null rfl rfl R0, (fun x hx => .inl rfl), fun m ids e => nomatch e⟩
    | some n =>
      obtain ⟨d, hd⟩ := text_of_live hw (hns n rfl)
      obtain ⟨c, hc⟩ := text_of_live hw hrem
      obtain ⟨s, r, e, B⟩ := unvalidated_spec hw I.based R0 m hd hc
      refine ⟨s, r, m.a, _, _, by show (unvalidated m w.mem n rem).map _ = _; rw [e]; rfl, F.a, B, (fun x hx => .inr ?_), fun m ids e => nomatch e⟩
      cases hx with
      | unval h1 h2 =>
        rw [show w.strs.st.text n = _ from h1] at hd; cases hd
        rw [show w.strs.st.text rem = _ from h2] at hc; cases hc; rfl
  | iri m p q =>
    obtain ⟨F, hp, hq⟩ := hl
    cases p with
    | none => exact ⟨_, _, m.a, none, [], rfl, F.a, .null rfl rfl R0, (fun x hx => .inl rfl), fun m ids e => nomatch e⟩
    | some p => cases q with
      | none => exact ⟨_, _, m.a, none, [], rfl, F.a, .null rfl rfl R0, (fun x hx => .inl rfl), fun m ids e => nomatch e⟩
      | some q =>
        obtain ⟨c, hc⟩ := text_of_live hw (hp p rfl)
        obtain ⟨d, hd⟩ := text_of_live hw (hq q rfl)
        obtain ⟨s, r, e, B⟩ := iri_spec hw I.based F hc hd
        refine ⟨s, r, m.a, _, _, by show (iri h m w.mem p q).map _ = _; rw [e]; rfl, F.a, B, (fun x hx => .inr ?_), fun m ids e => nomatch e⟩
        cases hx with
        | iri h1 h2 =>
          rw [show w.strs.st.text p = _ from h1] at hc; cases hc
          rw [show w.strs.st.text q = _ from h2] at hd; cases hd; rfl
  | iriOf m u =>
    obtain ⟨F, c, hc⟩ := hl
    obtain ⟨s, r, e, B, hz⟩ := iriOf_spec hw I.based F hc
    refine ⟨s, r, m.a, _, _, by show (iriOf h m w.mem u).map _ = _; rw [e]; rfl, F.a, B, (fun x hx => ?_), fun m ids e => nomatch e⟩
    cases hx with
    | iriOf h1 h2 =>
      rw [hc] at h1; cases h1
      unfold iriFromString at h2
      split at h2
      · cases h2
      · cases h2; exact .inr rfl
  | anon m id ids =>
    obtain ⟨F, hid, hids⟩ := hl
    cases id with
    | some id =>
      obtain ⟨c, hc⟩ := text_of_live hw (hid id rfl)
      obtain ⟨s, r, e, B⟩ := pool_spec hw I.based R0 m (ns := none) (o := none) trivial hc
      refine ⟨s, r, m.a, _, _, by show (pool m w.mem none id).map _ = _; rw [e]; rfl, F.a, B, (fun x hx => .inr ?_), fun m ids e => nomatch e⟩
      cases hx with
      | anon h1 => rw [show w.strs.st.text id = _ from h1] at hc; cases hc; rfl
    | none =>
      obtain ⟨s, r, c, e, B, hr⟩ := generate_spec hw I.based F ids hids
      refine ⟨s, r, m.a, _, c, by show (generate h m w.mem ids).map _ = _; rw [e]; rfl, F.a, B, (fun x hx => nomatch hx), fun m' ids' e => ?_⟩
      cases e
      exact hr.imp (fun e => e) fun h => ⟨h.1, rfl, rfl, h.2⟩
  | anonOf m u =>
    obtain ⟨F, c, hc'⟩ := hl
    obtain ⟨h1, h2, h3⟩ := hc
    obtain ⟨s, r, e, B⟩ := anonOf_spec hw I.based F hc' (by rintro rfl; exact h3 hc') h1 h2
    refine ⟨s, r, m.a, _, _, by show (anonOf h m w.mem u).map _ = _; rw [e]; rfl, F.a, B, (fun x hx => .inr ?_), fun m ids e => nomatch e⟩
    cases hx with
    | anonOf h1 => rw [hc'] at h1; cases h1; rfl

theorem after_made {w : World} {op : Op} (ho : Makes' op) {s : Mem} {r : Option Nat} :
    w.after op s (.ptr r) = ⟨s, w.ext, w.cli, pextMade w.pext r⟩ := by
  cases op <;> first | exact ho.elim | (cases r <;> rfl)

/-- One call keeps the invariant. -/
theorem step_spec {w : World} (I : PInv h w) {op : Op} (hl : Legal w op) (hc : Calm w.mem op) :
    ∃ s r, step h w.mem op = some (s, r) ∧ PInv h (w.after op s r) ∧ Same w.mem s := by
  by_cases ho : Makes' op
  · obtain ⟨s, r, a, o, c, e, ha, B, _⟩ := made I ho hl hc
    refine ⟨s, .ptr r, e, ?_, (I.built ha B).2.1⟩
    rw [after_made ho]; exact (I.built ha B).1
  · cases op with
    | unval m ns rem => exact absurd trivial ho
    | iri m p q => exact absurd trivial ho
    | iriOf m u => exact absurd trivial ho
    | anon m id ids => exact absurd trivial ho
    | anonOf m u => exact absurd trivial ho
    | str o =>
      obtain ⟨t, r, e, I', S⟩ := str_step I (op := o) hl
      exact ⟨_, .str r, by show (SBuf.step h w.mem.str o).map _ = _; rw [e]; rfl, I', S⟩
    | retain x =>
      obtain ⟨k, hk⟩ := Option.ne_none_iff_exists'.1 (show w.mem.prim x ≠ none from hl)
      have hr : k.rc = w.pext x := (I.rc _ (lookup_mem hk)).1
      obtain ⟨I', S⟩ := I.count (s' := setRc w.mem x (k.rc + 1)) hk (n := k.rc + 1) (Nat.succ_pos _) rfl rfl (LitM.Run.refl I.reach)
      refine ⟨_, .unit, by show (retainPrim w.mem x).map _ = _; rw [retainPrim_some hk]; rfl, ?_, S⟩
      show PInv h ⟨_, w.ext, w.cli, SBuf.set w.pext x (w.pext x + 1)⟩
      rw [← hr]; exact I'
    | release x =>
      have hl : 0 < w.pext x := hl
      obtain ⟨k, hk⟩ : ∃ k, w.mem.prim x = some k := by
        cases e : w.mem.prim x with
        | none => rw [I.gone x e] at hl; cases hl
        | some k => exact ⟨k, rfl⟩
      have hr : k.rc = w.pext x := (I.rc _ (lookup_mem hk)).1
      by_cases h1 : k.rc - 1 ≠ 0
      · obtain ⟨I', S⟩ := I.count (s' := setRc w.mem x (k.rc - 1)) hk (n := k.rc - 1) (Nat.pos_of_ne_zero h1) rfl rfl (LitM.Run.refl I.reach)
        refine ⟨setRc w.mem x (k.rc - 1), .unit, ?_, ?_, S⟩
        · show (releasePrim w.mem x).map _ = _
          unfold releasePrim
          rw [hk, Option.bind_some, if_neg (by omega), if_pos h1]; rfl
        · show PInv h ⟨_, w.ext, w.cli, SBuf.set w.pext x (w.pext x - 1)⟩
          rw [← hr]; exact I'
      · obtain ⟨s', e, I', S⟩ := I.free hk
        refine ⟨s', .unit, ?_, ?_, S⟩
        · show (releasePrim w.mem x).map _ = _
          unfold releasePrim
          rw [hk, Option.bind_some, if_neg (by omega), if_neg h1, e]; rfl
        · show PInv h ⟨s', w.ext, w.cli, SBuf.set w.pext x (w.pext x - 1)⟩
          rw [show w.pext x - 1 = 0 by omega]; exact I'

theorem reachable_inv {w : World} (hw : Reachable h w) : PInv h w := by
  induction hw with
  | init e =>
    refine ⟨?_, List.nodup_nil, (fun p hp => nomatch hp), (fun _ _ => rfl), (fun b => ?_), List.nodup_nil, (fun p hp => nomatch hp),
      fun a b k l hk => nomatch hk⟩
    · show SBuf.Reachable h ⟨apiInit h e, fun a => 0 + uses [] a, fun _ => false⟩
      exact .init e
    · exact ⟨(fun e => nomatch e), fun e => absurd rfl e⟩
  | step hw hl hc hs ih =>
    obtain ⟨s, r, e, I, _⟩ := step_spec ih hl hc
    rw [hs] at e; cases e; exact I

/-! ## Enough memory -/

/-- No allocation fails. -/
structure Ample (m : Alloc) : Prop where
  bw : m.bw ≠ .no
  nw : m.nw ≠ .no
  nput : m.nput = true
  nok : m.nok = true
  mw : m.mw ≠ .no
  mok : m.mok = true
  put : m.put = true
  iput : m.iput = true
  ok : m.ok = true

/-- Calls that have to give an object: no allocation fails, no argument is NULL or empty where it
must not be, and an id is generated that no individual has. -/
def Can (s : Mem) : Op → Prop
  | .unval m ns _ => Ample m ∧ ns ≠ none
  | .iri m p q => Ample m ∧ p ≠ none ∧ q ≠ none
  | .iriOf m u => Ample m ∧ s.str.txt u ≠ some []
  | .anon m id ids => Ample m ∧ (id = none → (∀ p ∈ ids, p.1 ≠ .no) ∧ ∃ p ∈ ids, ∀ a, content s a ≠ some (none, p.2))
  | .anonOf m _ => Ample m
  | _ => False

theorem string_ample {s s' : St} {a : Nat} {u : UStr} {r : Option Nat} (hu : u ≠ .null)
    (e : string h true s a u = some (s', r)) : r ≠ none := by
  unfold string at e
  rw [if_neg hu] at e
  obtain ⟨c, _, h2⟩ := Option.bind_eq_some_iff.1 e
  split at h2
  · obtain ⟨t, _, h3⟩ := Option.map_eq_some_iff.1 h2
    cases h3; exact fun e => nomatch e
  · exact LitM.get_some (by intro e; cases e) h2

theorem alloc_ample {m : Alloc} (A : Ample m) {s s' : Mem} {ns : Option Nat} {rem : Nat} {r : Option Nat}
    (e : alloc m s ns rem = some (s', r)) : r ≠ none := by
  unfold alloc at e
  rw [if_neg (by simp [A.ok])] at e
  obtain ⟨t, _, h1⟩ := Option.bind_eq_some_iff.1 e
  obtain ⟨t', _, h2⟩ := Option.map_eq_some_iff.1 h1
  cases h2; exact fun e => nomatch e

theorem retain_ample {s s' : Mem} {x : Nat} {r : Option Nat}
    (e : (retainPrim s x).map (fun s => (s, some x)) = some (s', r)) : r ≠ none := by
  obtain ⟨t, _, h1⟩ := Option.map_eq_some_iff.1 e
  cases h1; exact fun e => nomatch e

theorem pool_ample {m : Alloc} (A : Ample m) {s s' : Mem} {ns : Option Nat} {rem : Nat} {r : Option Nat}
    (e : pool m s ns rem = some (s', r)) : r ≠ none := by
  unfold pool at e
  obtain ⟨l, _, e⟩ := Option.bind_eq_some_iff.1 e
  obtain ⟨c, _, e⟩ := Option.bind_eq_some_iff.1 e
  rw [if_neg (by simp [A.iput])] at e
  obtain ⟨f, _, e⟩ := Option.bind_eq_some_iff.1 e
  cases f with
  | some x => exact retain_ample e
  | none => exact alloc_ample A e

theorem unvalidated_ample {m : Alloc} (A : Ample m) {s s' : Mem} {ns rem : Nat} {r : Option Nat}
    (e : unvalidated m s ns rem = some (s', r)) : r ≠ none := by
  unfold unvalidated at e
  rw [A.put] at e
  obtain ⟨⟨t, f⟩, h1, e⟩ := Option.bind_eq_some_iff.1 e
  cases f with
  | none => exact absurd rfl (LitM.intern_ample h1)
  | some n => exact pool_ample A e

theorem finish_ample {m : Alloc} (A : Ample m) {s s' : Mem} {r1 r2 r : Option Nat} (h1 : r1 ≠ none) (h2 : r2 ≠ none)
    (e : finish m s r1 r2 = some (s', r)) : r ≠ none := by
  obtain ⟨n, rfl⟩ := Option.ne_none_iff_exists'.1 h1
  obtain ⟨k, rfl⟩ := Option.ne_none_iff_exists'.1 h2
  unfold finish at e
  obtain ⟨⟨t, f⟩, h3, e⟩ := Option.bind_eq_some_iff.1 e
  obtain ⟨t', _, e⟩ := Option.bind_eq_some_iff.1 e
  obtain ⟨t'', _, e⟩ := Option.map_eq_some_iff.1 e
  cases e
  exact unvalidated_ample A h3

theorem iri_ample {m : Alloc} (A : Ample m) {s s' : Mem} {p q : Nat} {r : Option Nat}
    (e : iri h m s p q = some (s', r)) : r ≠ none := by
  unfold iri at e
  rw [A.nok, A.mok, A.nput] at e
  obtain ⟨c, _, e⟩ := Option.bind_eq_some_iff.1 e
  obtain ⟨d, _, e⟩ := Option.bind_eq_some_iff.1 e
  split at e
  · dsimp only at e
    rw [if_neg (LitM.fresh_ample A.bw _)] at e
    obtain ⟨⟨t, r1⟩, h1, e⟩ := Option.bind_eq_some_iff.1 e
    obtain ⟨⟨t', r2⟩, h2, e⟩ := Option.bind_eq_some_iff.1 e
    exact finish_ample A (string_ample (LitM.fresh_ample A.bw _) h1) (LitM.opt_ample (by intro e; cases e) (fun _ => A.mw) h2) e
  · split at e
    · dsimp only at e
      rw [if_neg (LitM.fresh_ample A.bw _)] at e
      obtain ⟨⟨t, r1⟩, h1, e⟩ := Option.bind_eq_some_iff.1 e
      obtain ⟨⟨t', r2⟩, h2, e⟩ := Option.bind_eq_some_iff.1 e
      exact finish_ample A (LitM.opt_ample (by intro e; cases e) (fun _ => A.nw) h1) (string_ample (LitM.fresh_ample A.bw _) h2) e
    · obtain ⟨t, _, e⟩ := Option.bind_eq_some_iff.1 e
      obtain ⟨t', _, e⟩ := Option.bind_eq_some_iff.1 e
      exact finish_ample A (by intro e; cases e) (by intro e; cases e) e

theorem iriOf_ample {m : Alloc} (A : Ample m) {s s' : Mem} {u : UStr} (hu : s.str.txt u ≠ some []) {r : Option Nat}
    (e : iriOf h m s u = some (s', r)) : r ≠ none := by
  unfold iriOf at e
  rw [A.nok, A.mok, A.nput] at e
  obtain ⟨c, hc, e⟩ := Option.bind_eq_some_iff.1 e
  have hn : ¬ c.length + 1 ≤ 1 := by
    intro hl
    cases c with
    | nil => exact hu hc
    | cons x c => simp at hl
  rw [if_neg hn] at e
  dsimp only at e
  obtain ⟨⟨t, r2⟩, h1, e⟩ := Option.bind_eq_some_iff.1 e
  obtain ⟨⟨t', r1⟩, h2, e⟩ := Option.bind_eq_some_iff.1 e
  refine finish_ample A (LitM.opt_ample (by intro e; cases e) (fun _ => A.nw) h2) ?_ e
  split at h1
  · exact LitM.opt_ample (by intro e; cases e) (fun _ => A.mw) h1
  · obtain ⟨t, _, h3⟩ := Option.map_eq_some_iff.1 h1
    cases h3; exact fun e => nomatch e

theorem anonOf_ample {m : Alloc} (A : Ample m) {s s' : Mem} {u : UStr} {r : Option Nat}
    (e : anonOf h m s u = some (s', r)) : r ≠ none := by
  unfold anonOf at e
  obtain ⟨c, hc, e⟩ := Option.bind_eq_some_iff.1 e
  rw [if_neg (by simp [A.iput])] at e
  obtain ⟨f, _, e⟩ := Option.bind_eq_some_iff.1 e
  cases f with
  | some x => exact retain_ample e
  | none =>
    obtain ⟨⟨t, g⟩, _, e⟩ := Option.bind_eq_some_iff.1 e
    cases g with
    | none => dsimp only at e; rw [if_pos A.ok] at e; cases e
    | some id =>
      obtain ⟨⟨t', x⟩, h1, e⟩ := Option.bind_eq_some_iff.1 e
      obtain ⟨t'', _, e⟩ := Option.map_eq_some_iff.1 e
      cases e
      exact alloc_ample A h1

theorem generate_ample {w : World} (I : PInv h w) {m : Alloc} (A : Ample m) {s' : Mem} {r : Option Nat} :
    ∀ ids : List (Where × Str), (∀ p ∈ ids, Unused w.mem.str p.1) → (∀ p ∈ ids, p.1 ≠ .no) →
      (∃ p ∈ ids, ∀ a, content w.mem a ≠ some (none, p.2)) → generate h m w.mem ids = some (s', r) → r ≠ none := by
  intro ids
  induction ids with
  | nil => rintro _ _ ⟨p, hp, _⟩; cases hp
  | cons p l ih =>
    obtain ⟨wh, c⟩ := p
    intro hun hno hex e
    have hf := LitM.fresh_ample (s := w.mem.str) (hno _ (.head _)) c
    unfold generate at e
    dsimp only at e
    rw [if_neg hf, if_neg (by simp [A.iput]), A.mok, show (initCell h (w.mem.str.fresh wh c).2 c).hash = h c from if_neg hf] at e
    have R1 := fresh_run I.reach (hun _ (.head _)) c
    obtain ⟨f, ef, Fd⟩ := find_spec (s := { w.mem with str := (w.mem.str.fresh wh c).1 }) I.reach (I.based.str _) R1 none c w.mem.tbl fun b hb => hb
    rw [ef, Option.bind_some] at e
    cases f with
    | none =>
      obtain ⟨⟨t, g⟩, h1, e⟩ := Option.bind_eq_some_iff.1 e
      cases g with
      | none => exact absurd rfl (string_ample hf h1)
      | some id =>
        obtain ⟨⟨t', x⟩, h1, e⟩ := Option.bind_eq_some_iff.1 e
        obtain ⟨t'', _, e⟩ := Option.map_eq_some_iff.1 e
        cases e
        exact alloc_ample A h1
    | some x =>
      dsimp only at e
      rw [fresh_deinit (hun _ (.head _)), Option.bind_some] at e
      refine ih (fun p hp => hun p (.tail _ hp)) (fun p hp => hno p (.tail _ hp)) ?_ e
      obtain ⟨p, hp, hfree⟩ := hex
      rcases List.mem_cons.1 hp with e' | hp
      · subst e'
        obtain ⟨_, k, hk, hkn, hkt⟩ := Fd.1 x rfl
        obtain ⟨o, d, ho, hd, hcon⟩ := I.cont hk
        have hkt : (w.mem.str.fresh wh c).1.text k.rem = some c := hkt
        rw [R1.text (show w.strs.st.text k.rem = some d from hd)] at hkt
        cases hkt
        rw [hkn] at ho
        cases o with
        | none => exact absurd hcon (hfree x)
        | some o => exact ho.elim
      · exact ⟨p, hp, hfree⟩

end PrimM

open PrimM
/-! ## C105 -/

/-- C105, in part: every call of a client that keeps to the documentation is well-defined, whatever
allocations fail, if it does not run into the error of `C105_fails`. Missing: these calls, and the
copy of an empty id. -/
theorem C105_partial {h : Str → Nat} {w : PrimM.World} (hw : PrimM.Reachable h w) {op : PrimM.Op} (hl : PrimM.Legal w op)
    (hc : PrimM.Calm w.mem op) : ∃ s r, PrimM.step h w.mem op = some (s, r) := by
  obtain ⟨s, r, e, _⟩ := PrimM.step_spec (PrimM.reachable_inv hw) hl hc
  exact ⟨s, r, e⟩

/-- C105: an IRI or individual is in memory if and only if the client owns a reference to it; its
count is the number of these, and it is in the table. A string is in memory if and only if the
client, an IRI or an individual refers to it, or it is the empty string of the library; its count is
the number of these references. A buffer is in memory if and only if the client or a string in
memory owns it. -/
theorem C105_counts {h : Str → Nat} {w : PrimM.World} (hw : PrimM.Reachable h w) :
    (∀ a, (w.mem.prim a ≠ none ↔ 0 < w.pext a) ∧ (a ∈ w.mem.tbl ↔ 0 < w.pext a) ∧ ∀ k, w.mem.prim a = some k → k.rc = w.pext a) ∧
    (∀ a, (w.mem.str.cells a ≠ none ↔ 0 < w.ext a + PrimM.uses w.mem.prims a ∨ a = w.mem.str.empty) ∧
      ∀ k, w.mem.str.cells a = some k → k.rc = w.ext a + PrimM.uses w.mem.prims a + if a = w.mem.str.empty then 1 else 0) ∧
    ∀ b, w.mem.str.bufs b ≠ none ↔ (w.cli b = true ∨ ∃ a k, w.mem.str.cells a = some k ∧ k.raw = .buf b) := by
  have I := PrimM.reachable_inv hw
  have h1 : ∀ a, w.mem.prim a ≠ none ↔ 0 < w.pext a := by
    intro a
    refine ⟨fun hn => ?_, fun hp hn => ?_⟩
    · obtain ⟨k, hk⟩ := Option.ne_none_iff_exists'.1 hn
      have := I.rc _ (PrimM.lookup_mem hk)
      have h1 : k.rc = w.pext a := this.1
      have h2 : 0 < k.rc := this.2
      omega
    · rw [I.gone a hn] at hp; cases hp
  exact ⟨fun a => ⟨h1 a, (I.tbl a).trans (h1 a), fun k hk => (I.rc _ (PrimM.lookup_mem hk)).1⟩, C72_counts I.reach,
    fun b => (C72_buffers I.reach b).1⟩

/-- C105: an IRI that is returned has namespace and remainder of C03, and an individual has the id
that it was asked for. -/
theorem C105_value {h : Str → Nat} {w : PrimM.World} (hw : PrimM.Reachable h w) {op : PrimM.Op} (hl : PrimM.Legal w op)
    (hc : PrimM.Calm w.mem op) {v : Option Str × Str} (ha : PrimM.Asks w.mem op v) {s : PrimM.Mem} {x : Nat}
    (hs : PrimM.step h w.mem op = some (s, .ptr (some x))) : PrimM.content s x = some v := by
  have I := PrimM.reachable_inv hw
  have ho : PrimM.Makes' op := by cases ha <;> trivial
  obtain ⟨s', r, a, o, c, e, h1, B, hr, _⟩ := PrimM.made I ho hl hc
  rw [hs] at e; cases e
  rw [(I.built h1 B).2.2 x rfl, (hr v ha).resolve_left fun e => nomatch e]

/-- C105: an individual with a generated id is a new one, with one of the ids that were generated
and that no individual had. -/
theorem C105_generated {h : Str → Nat} {w : PrimM.World} (hw : PrimM.Reachable h w) {m : PrimM.Alloc}
    {ids : List (Where × Str)} (hl : PrimM.Legal w (.anon m none ids)) {s : PrimM.Mem} {x : Nat}
    (hs : PrimM.step h w.mem (.anon m none ids) = some (s, .ptr (some x))) :
    w.mem.prim x = none ∧ ∃ c, c ∈ ids.map Prod.snd ∧ PrimM.content s x = some (none, c) ∧
      ∀ a, PrimM.content w.mem a ≠ some (none, c) := by
  have I := PrimM.reachable_inv hw
  obtain ⟨s', r, a, o, c, e, h1, B, _, hg⟩ := PrimM.made I (op := .anon m none ids) trivial hl trivial
  rw [hs] at e; cases e
  obtain ⟨h2, rfl, rfl, h3⟩ := (hg m ids rfl).resolve_left fun e => nomatch e
  cases h2
  refine ⟨h1, c, h3, (I.built h1 B).2.2 _ rfl, fun b hb => ?_⟩
  cases B with
  | old hk => rw [h1] at hk; cases hk
  | @new k _ hn hr hp ht R hu =>
    cases eb : w.mem.prim b with
    | none => unfold PrimM.content at hb; rw [eb] at hb; cases hb
    | some l =>
      obtain ⟨o, d, ho, hd, hcon⟩ := I.cont eb
      rw [hcon] at hb
      cases hb
      have hk : k.ns = none := by
        cases e : k.ns with
        | none => rfl
        | some n => rw [e] at hn; exact hn.elim
      have hl' : l.ns = none := by
        cases e : l.ns with
        | none => rfl
        | some n => rw [e] at ho; exact ho.elim
      exact hu b l eb (hl'.trans hk.symm) (R.text hd)

/-- C105: there is one IRI for each namespace and remainder, and one individual for each id. -/
theorem C105_canonical {h : Str → Nat} {w : PrimM.World} (hw : PrimM.Reachable h w) {a b : Nat}
    (ha : w.mem.prim a ≠ none) (hb : w.mem.prim b ≠ none) :
    a = b ↔ PrimM.content w.mem a = PrimM.content w.mem b := by
  have I := PrimM.reachable_inv hw
  refine ⟨fun e => by rw [e], fun e => ?_⟩
  obtain ⟨k, hk⟩ := Option.ne_none_iff_exists'.1 ha
  obtain ⟨l, hl⟩ := Option.ne_none_iff_exists'.1 hb
  obtain ⟨o, c, ho, hc, h1⟩ := I.cont hk
  obtain ⟨o', c', ho', hc', h2⟩ := I.cont hl
  rw [h1, h2] at e
  cases e
  exact I.uniq a b k l hk hl (PrimM.ns_unique I.reach ho ho') (hc.trans hc'.symm)

/-- C105: as long as an IRI or individual is there, its texts are there and stay the same. -/
theorem C105_stable {h : Str → Nat} {w : PrimM.World} (hw : PrimM.Reachable h w) {op : PrimM.Op} (hl : PrimM.Legal w op)
    (hc : PrimM.Calm w.mem op) {s : PrimM.Mem} {r : PrimM.Res} (hs : PrimM.step h w.mem op = some (s, r)) {a : Nat}
    (ha : w.mem.prim a ≠ none) (ha' : s.prim a ≠ none) :
    ∃ v, PrimM.content w.mem a = some v ∧ PrimM.content s a = some v := by
  have I := PrimM.reachable_inv hw
  obtain ⟨s', r', e, _, S⟩ := PrimM.step_spec I hl hc
  rw [hs] at e; cases e
  obtain ⟨k, hk⟩ := Option.ne_none_iff_exists'.1 ha
  obtain ⟨o, c, _, _, h1⟩ := I.cont hk
  exact ⟨_, h1, (S a ha ha').trans h1⟩

/-- C105: a constructor that returns NULL has left the IRIs and individuals, the table, and the
strings with their texts and counts as they were. -/
theorem C105_null {h : Str → Nat} {w : PrimM.World} (hw : PrimM.Reachable h w) {op : PrimM.Op} (hl : PrimM.Legal w op)
    (hc : PrimM.Calm w.mem op) (ho : PrimM.Makes' op) {s : PrimM.Mem} (hs : PrimM.step h w.mem op = some (s, .ptr none)) :
    s.prims = w.mem.prims ∧ s.tbl = w.mem.tbl ∧ ∀ a, s.str.text a = w.mem.str.text a ∧
      (s.str.cells a).map (·.rc) = (w.mem.str.cells a).map (·.rc) := by
  have I := PrimM.reachable_inv hw
  obtain ⟨s', r, x, o, c, e, h1, B, _⟩ := PrimM.made I ho hl hc
  rw [hs] at e; cases e
  cases B with
  | null h2 h3 R =>
    refine ⟨h2, h3, fun a => ?_⟩
    have c1 := C72_counts I.reach a
    have c2 := C72_counts R.reach a
    have he : s.str.empty = w.mem.str.empty := R.empty
    dsimp only at c2
    rw [he] at c2
    cases ea : w.mem.str.cells a with
    | none =>
      have : s.str.cells a = none := by
        cases eb : s.str.cells a with
        | none => rfl
        | some k =>
          have := c1.1.2 (c2.1.1 (by rw [eb]; exact fun e => by cases e))
          exact absurd ea this
      rw [this]
      simp [St.text, this, ea]
    | some k =>
      obtain ⟨k', h4, h5, h6, _⟩ := R.keep a k ea
      have h4 : s.str.cells a = some k' := h4
      rw [text_eq ea, text_eq h4, h5]
      refine ⟨h6, ?_⟩
      rw [h4, Option.map_some, Option.map_some, c1.2 k ea, c2.2 k' h4]; rfl

/-- C105: with enough memory, and arguments that are not NULL or empty, no constructor returns NULL. -/
theorem C105_success {h : Str → Nat} {w : PrimM.World} (hw : PrimM.Reachable h w) {op : PrimM.Op} (hl : PrimM.Legal w op)
    (hc : PrimM.Can w.mem op) {s : PrimM.Mem} {r : Option Nat} (hs : PrimM.step h w.mem op = some (s, .ptr r)) : r ≠ none := by
  have key : ∀ {f : Option (PrimM.Mem × Option Nat)}, f.map (fun (s, x) => (s, PrimM.Res.ptr x)) = some (s, .ptr r) → f = some (s, r) := by
    intro f e
    obtain ⟨⟨t, x⟩, h1, h2⟩ := Option.map_eq_some_iff.1 e
    cases h2; exact h1
  cases op with
  | str o => exact hc.elim
  | retain x => exact hc.elim
  | release x => exact hc.elim
  | unval m ns rem =>
    cases ns with
    | none => exact absurd rfl hc.2
    | some n => exact unvalidated_ample hc.1 (key hs)
  | iri m p q =>
    cases p with
    | none => exact absurd rfl hc.2.1
    | some p => cases q with
      | none => exact absurd rfl hc.2.2
      | some q => exact iri_ample hc.1 (key hs)
  | iriOf m u => exact iriOf_ample hc.1 hc.2 (key hs)
  | anon m id ids =>
    cases id with
    | some id => exact pool_ample hc.1 (key hs)
    | none =>
      exact generate_ample (PrimM.reachable_inv hw) hc.1 ids (fun p hp => (hl.2.2 p hp).1) (hc.2 rfl).1 (hc.2 rfl).2 (key hs)
  | anonOf m u => exact anonOf_ample hc (key hs)

/-- C105: once the client has given up everything it owned, nothing is left. -/
theorem C105_end {h : Str → Nat} {w : PrimM.World} (hw : PrimM.Reachable h w) (hx : ∀ a, w.ext a = 0)
    (hc : ∀ b, w.cli b = false) (hl : ∀ a, w.pext a = 0) :
    w.mem.prims = [] ∧ w.mem.tbl = [] ∧
      ∃ s, apiDeinit w.mem.str = some s ∧ (∀ a, s.cells a = none) ∧ (∀ b, s.bufs b = none) ∧ s.tbl = [] := by
  have I := PrimM.reachable_inv hw
  have h0 : w.mem.prims = [] := by
    cases e : w.mem.prims with
    | nil => rfl
    | cons p l =>
      have := I.rc p (by rw [e]; exact .head _)
      rw [hl] at this; omega
  refine ⟨h0, ?_, C72_end I.reach (fun a => ?_) hc⟩
  · cases e : w.mem.tbl with
    | nil => rfl
    | cons b l =>
      have := (I.tbl b).1 (by rw [e]; exact .head _)
      unfold PrimM.Mem.prim at this
      rw [h0] at this; exact absurd rfl this
  · show w.ext a + PrimM.uses w.mem.prims a = 0
    rw [hx, h0]; simp [PrimM.uses]

namespace PrimM

/-- Allocations for the examples. -/
def sample (mok : Bool) (mw : Where) : Alloc := ⟨.at' 10, .at' 11, true, true, 1, mw, mok, 2, true, true, true, 5⟩

theorem sample_fair (h : Str → Nat) (mok : Bool) {mw : Where} (hm : mw = .at' 12 ∨ mw = .no) : Fair (init h 0) (sample mok mw) where
  na := rfl
  ma := rfl
  nma := by show (1 : Nat) ≠ 2; decide
  bw := rfl
  nw := rfl
  mw := by rcases hm with rfl | rfl <;> trivial
  bn b e := by cases e; exact fun e => nomatch e
  bm b e := by cases e; rcases hm with rfl | rfl <;> exact fun e => nomatch e
  nm b e := by rcases hm with rfl | rfl <;> (cases e; try exact fun e => nomatch e)
  a := rfl

/-- The start of the examples. -/
def start (h : Str → Nat) : World := ⟨init h 0, fun _ => 0, fun _ => false, fun _ => 0⟩

end PrimM

/-- C105 fails for `cowl_anon_ind_from_string`: if there is no memory for the copy of the id, but for
the individual there is, NULL is retained; if there is none for the text of the copy, the individual
that is returned has an empty id. -/
theorem C105_fails (h : Str → Nat) :
    ∃ w, PrimM.Reachable h w ∧
      (∃ op, op = .anonOf (PrimM.sample false (.at' 12)) (.inl [97]) ∧ PrimM.Legal w op ∧ PrimM.step h w.mem op = none) ∧
      ∃ op s, op = .anonOf (PrimM.sample true .no) (.inl [97]) ∧ PrimM.Legal w op ∧ PrimM.Asks w.mem op (none, [97]) ∧
        PrimM.step h w.mem op = some (s, .ptr (some 5)) ∧ PrimM.content s 5 = some (none, []) :=
  ⟨PrimM.start h, .init 0, ⟨_, rfl, ⟨PrimM.sample_fair h _ (.inl rfl), _, rfl⟩, rfl⟩,
    ⟨_, _, rfl, ⟨PrimM.sample_fair h _ (.inr rfl), _, rfl⟩, .anonOf rfl, rfl, rfl⟩⟩

/-- A history: the IRI of `a#b` is made from a raw string; then its only reference is given up, and
nothing is left. -/
example : ∃ w w' s, PrimM.Reachable List.length w ∧ w.pext 5 = 1 ∧ PrimM.content w.mem 5 = some (some [97, 35], [98]) ∧
    PrimM.Reachable List.length w' ∧ w'.mem.prims = [] ∧ w'.mem.tbl = [] ∧ apiDeinit w'.mem.str = some s ∧ s.tbl = [] := by
  have h1 := PrimM.Reachable.step (h := List.length) (.init 0) (op := .iriOf (PrimM.sample true (.at' 12)) (.inl [97, 35, 98]))
    ⟨PrimM.sample_fair _ _ (.inl rfl), _, rfl⟩ trivial rfl
  have h2 := h1.step (op := .release 5) (show 0 < 1 by decide) trivial rfl
  exact ⟨_, _, _, h1, rfl, rfl, h2, rfl, rfl, rfl, rfl⟩

/-- Calls that can be made, run into no error, have enough memory and ask for something. -/
example (h : Str → Nat) : ∃ op, PrimM.Legal (PrimM.start h) op ∧ PrimM.Calm (PrimM.start h).mem op ∧ PrimM.Makes' op ∧
    PrimM.Can (PrimM.start h).mem op ∧ PrimM.Asks (PrimM.start h).mem op (some [97, 35], [98]) :=
  ⟨.iriOf (PrimM.sample true (.at' 12)) (.inl [97, 35, 98]), ⟨PrimM.sample_fair h _ (.inl rfl), _, rfl⟩, trivial, trivial,
    ⟨⟨(fun e => nomatch e), (fun e => nomatch e), rfl, rfl, (fun e => nomatch e), rfl, rfl, rfl, rfl⟩, fun e => by cases e⟩,
    PrimM.Asks.iriOf (x := ([97, 35], [98])) rfl rfl⟩

/-- An individual with a generated id, the first one being in use. -/
example : ∃ w s, PrimM.Reachable List.length w ∧ PrimM.content w.mem 5 = some (none, [97]) ∧
    PrimM.generate List.length { PrimM.sample true .inl with a := 6, ma := 3 } w.mem [(.at' 20, [97]), (.at' 20, [98])] =
      some (s, some 6) ∧ PrimM.content s 6 = some (none, [98]) ∧ s.str.bufs 20 = some [98] := by
  have h1 := PrimM.Reachable.step (h := List.length) (.init 0) (op := .anonOf (PrimM.sample true (.at' 12)) (.inl [97]))
    ⟨PrimM.sample_fair _ _ (.inl rfl), _, rfl⟩ ⟨rfl, (fun e => nomatch e), (fun e => by cases e)⟩ rfl
  exact ⟨_, _, h1, rfl, rfl, rfl, rfl⟩

end Cowl
