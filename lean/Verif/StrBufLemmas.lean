import Verif.StrBufSpec
/-! # Lemmas about strings and buffers -/
namespace Cowl.SBuf

@[simp] theorem set_same {α : Type} (f : Nat → α) (a : Nat) (v : α) : set f a v a = v := by simp [set]

theorem set_other {α : Type} (f : Nat → α) {a b : Nat} (v : α) (hb : b ≠ a) : set f a v b = f b := by
  simp [set, hb]

@[simp] theorem set_set {α : Type} (f : Nat → α) (a : Nat) (v w : α) : set (set f a v) a w = set f a w := by
  funext b; unfold set; split <;> rfl

theorem set_eq {α : Type} {f : Nat → α} {a : Nat} {v : α} (hv : f a = v) : set f a v = f := by
  funext b; unfold set; split
  · rename_i e; rw [e, hv]
  · rfl

/-- Invariant of the memory. -/
structure Inv (h : Str → Nat) (s : St) (ext : Nat → Nat) (cli : Nat → Bool) : Prop where
  count : ∀ a k, s.cells a = some k → k.rc = ext a + (if a = s.empty then 1 else 0)
  pos : ∀ a k, s.cells a = some k → 0 < k.rc
  nonnull : ∀ a k, s.cells a = some k → k.raw ≠ .null
  hash : ∀ a k c, s.cells a = some k → s.txt k.raw = some c → k.hash = h c
  full : ∀ a k c, s.cells a = some k → s.txt k.raw = some c → k.bit = true → c ≠ []
  dead : ∀ a, s.cells a = none → ext a = 0
  emp : ∃ k, s.cells s.empty = some k ∧ k.raw = .inl [] ∧ k.bit = false
  live : ∀ b, s.bufs b ≠ none ↔ (cli b = true ∨ ∃ a k, s.cells a = some k ∧ k.raw = .buf b)
  uniq : ∀ a a' k k' b, s.cells a = some k → s.cells a' = some k' → k.raw = .buf b → k'.raw = .buf b → a = a'
  excl : ∀ a k b, cli b = true → s.cells a = some k → k.raw ≠ .buf b
  tbl : ∀ a, a ∈ s.tbl ↔ ∃ k, s.cells a = some k ∧ k.bit = true
  tnd : s.tbl.Nodup
  tuniq : ∀ a a' c, a ∈ s.tbl → a' ∈ s.tbl → s.text a = some c → s.text a' = some c → a = a'

variable {h : Str → Nat} {s : St} {ext : Nat → Nat} {cli : Nat → Bool}

theorem Inv.readable (I : Inv h s ext cli) {a : Nat} {k : Cell} (hk : s.cells a = some k) :
    ∃ c, s.txt k.raw = some c := by
  cases e : k.raw with
  | null => exact ⟨_, rfl⟩
  | inl c => exact ⟨_, rfl⟩
  | buf b =>
    have := (I.live b).2 (.inr ⟨a, k, hk, e⟩)
    exact Option.ne_none_iff_exists'.1 this

theorem Inv.mine_readable (I : Inv h s ext cli) {u : UStr} (hu : Mine cli u) : ∃ c, s.txt u = some c := by
  cases u with
  | null => exact ⟨_, rfl⟩
  | inl c => exact ⟨_, rfl⟩
  | buf b => exact Option.ne_none_iff_exists'.1 ((I.live b).2 (.inl hu))

theorem text_eq {a : Nat} {k : Cell} (hk : s.cells a = some k) : s.text a = s.txt k.raw := by
  simp [St.text, hk]

/-- Memory where the texts of strings are as before, and nothing else matters. -/
theorem Inv.bufs_change (I : Inv h s ext cli) {bufs : Nat → Option Str} {cli' : Nat → Bool}
    (ht : ∀ a k, s.cells a = some k → ({ s with bufs := bufs } : St).txt k.raw = s.txt k.raw)
    (hl : ∀ b, bufs b ≠ none ↔ (cli' b = true ∨ ∃ a k, s.cells a = some k ∧ k.raw = .buf b))
    (hx : ∀ a k b, cli' b = true → s.cells a = some k → k.raw ≠ .buf b) :
    Inv h { s with bufs := bufs } ext cli' where
  count := I.count
  pos := I.pos
  nonnull := I.nonnull
  hash a k c hk e := I.hash a k c hk (by rw [← ht a k hk]; exact e)
  full a k c hk e := I.full a k c hk (by rw [← ht a k hk]; exact e)
  dead := I.dead
  emp := I.emp
  live := hl
  uniq := I.uniq
  excl := hx
  tbl := I.tbl
  tnd := I.tnd
  tuniq a a' c ha ha' e e' := by
    obtain ⟨k, hk, _⟩ := (I.tbl a).1 ha
    obtain ⟨k', hk', _⟩ := (I.tbl a').1 ha'
    refine I.tuniq a a' c ha ha' ?_ ?_
    · rw [text_eq hk, ← ht a k hk]; rw [text_eq (s := { s with bufs := bufs }) hk] at e; exact e
    · rw [text_eq hk', ← ht a' k' hk']; rw [text_eq (s := { s with bufs := bufs }) hk'] at e'; exact e'

theorem txt_bufs (s : St) {bufs : Nat → Option Str} {u : UStr} (hb : ∀ b, u = .buf b → bufs b = s.bufs b) :
    ({ s with bufs := bufs } : St).txt u = s.txt u := by
  cases u with
  | null => rfl
  | inl c => rfl
  | buf b => exact hb b rfl

theorem Inv.addBuf (I : Inv h s ext cli) {b : Nat} (hb : s.bufs b = none) (c : Str) :
    Inv h { s with bufs := set s.bufs b (some c) } ext (set cli b true) := by
  have free : ∀ a k, s.cells a = some k → k.raw ≠ .buf b := fun a k hk e =>
    (I.live b).2 (.inr ⟨a, k, hk, e⟩) hb
  refine I.bufs_change (fun a k hk => txt_bufs s fun b' e => set_other _ _ ?_) ?_ ?_
  · rintro rfl; exact free a k hk e
  · intro b'
    by_cases hbb : b' = b
    · subst hbb; simp
    · rw [set_other _ _ hbb, set_other _ _ hbb]; exact I.live b'
  · intro a k b' hc hk
    by_cases hbb : b' = b
    · subst hbb; exact free a k hk
    · rw [set_other _ _ hbb] at hc; exact I.excl a k b' hc hk

theorem Inv.delBuf (I : Inv h s ext cli) {b : Nat} (hb : cli b = true) :
    Inv h { s with bufs := set s.bufs b none } ext (set cli b false) := by
  have free : ∀ a k, s.cells a = some k → k.raw ≠ .buf b := fun a k hk => I.excl a k b hb hk
  refine I.bufs_change (fun a k hk => txt_bufs s fun b' e => set_other _ _ ?_) ?_ ?_
  · rintro rfl; exact free a k hk e
  · intro b'
    by_cases hbb : b' = b
    · subst hbb
      simp only [set_same, ne_eq, not_true_eq_false, Bool.false_eq_true, false_or, false_iff]
      rintro ⟨a, k, hk, e⟩; exact free a k hk e
    · rw [set_other _ _ hbb, set_other _ _ hbb]; exact I.live b'
  · intro a k b' hc hk
    by_cases hbb : b' = b
    · subst hbb; exact free a k hk
    · rw [set_other _ _ hbb] at hc; exact I.excl a k b' hc hk

/-- Freeing a raw string that one owns. -/
theorem Inv.deinit (I : Inv h s ext cli) {u : UStr} (hu : Mine cli u) :
    ∃ s', deinit s u = some s' ∧ Inv h s' ext (disown cli u) ∧ s'.cells = s.cells ∧ s'.tbl = s.tbl ∧
      s'.empty = s.empty ∧ ∀ a k, s.cells a = some k → s'.txt k.raw = s.txt k.raw := by
  cases u with
  | null => exact ⟨s, rfl, I, rfl, rfl, rfl, fun _ _ _ => rfl⟩
  | inl c => exact ⟨s, rfl, I, rfl, rfl, rfl, fun _ _ _ => rfl⟩
  | buf b =>
    obtain ⟨c, hc⟩ := I.mine_readable hu
    have hc : s.bufs b = some c := hc
    refine ⟨{ s with bufs := set s.bufs b none }, ?_, I.delBuf hu, rfl, rfl, rfl, ?_⟩
    · show (s.bufs b).map _ = _; rw [hc]; rfl
    · intro a k hk
      refine txt_bufs s fun b' e => set_other _ _ ?_
      rintro rfl; exact I.excl a k b' hu hk e

/-- A new raw string belongs to the one who made it. -/
theorem Inv.fresh (I : Inv h s ext cli) {w : Where} (hw : Unused s w) (c : Str) :
    Inv h (s.fresh w c).1 ext (own cli (s.fresh w c).2) ∧ Mine (own cli (s.fresh w c).2) (s.fresh w c).2 ∧
      (s.fresh w c).1.cells = s.cells ∧ (s.fresh w c).1.tbl = s.tbl ∧ (s.fresh w c).1.empty = s.empty ∧
      (∀ a k, s.cells a = some k → (s.fresh w c).1.txt k.raw = s.txt k.raw) ∧
      ((s.fresh w c).2 = .null ∨ (s.fresh w c).1.txt (s.fresh w c).2 = some c ∧ (s.fresh w c).2 ≠ .null) ∧
      disown (own cli (s.fresh w c).2) (s.fresh w c).2 = cli := by
  cases w with
  | no => exact ⟨I, trivial, rfl, rfl, rfl, fun _ _ _ => rfl, .inl rfl, rfl⟩
  | inl => exact ⟨I, trivial, rfl, rfl, rfl, fun _ _ _ => rfl, .inr ⟨rfl, by simp [St.fresh]⟩, rfl⟩
  | at' b =>
    have hb : s.bufs b = none := hw
    have hcb : cli b = false := by
      cases e : cli b with
      | false => rfl
      | true => exact absurd hb ((I.live b).2 (.inl e))
    refine ⟨I.addBuf hb c, set_same _ _ _, rfl, rfl, rfl, ?_, .inr ⟨set_same _ _ _, by simp [St.fresh]⟩, ?_⟩
    · intro a k hk
      refine txt_bufs s fun b' e => set_other _ _ ?_
      rintro rfl; exact (I.live b').2 (.inr ⟨a, k, hk, e⟩) hb
    · show set (set cli b true) b false = cli
      rw [set_set]; exact set_eq hcb

theorem txt_cells (s : St) (cells : Nat → Option Cell) (t : List Nat) (u : UStr) :
    ({ s with cells := cells, tbl := t } : St).txt u = s.txt u := by cases u <;> rfl

theorem mine_disown {u : UStr} {b : Nat} : disown cli u b = true ↔ cli b = true ∧ u ≠ .buf b := by
  cases u with
  | null => simp [disown]
  | inl c => simp [disown]
  | buf b' =>
    show set cli b' false b = true ↔ _
    by_cases hb : b = b'
    · subst hb; simp
    · rw [set_other _ _ hb]; simp [Ne.symm hb]

theorem mine_own {u : UStr} {b : Nat} : own cli u b = true ↔ cli b = true ∨ u = .buf b := by
  cases u with
  | null => simp [own]
  | inl c => simp [own]
  | buf b' =>
    show set cli b' true b = true ↔ _
    by_cases hb : b = b'
    · subst hb; simp
    · rw [set_other _ _ hb]; simp [Ne.symm hb]

/-- A new string takes a raw string. -/
theorem Inv.addCell (I : Inv h s ext cli) {a : Nat} (ha : s.cells a = none) {u : UStr} (hn : u ≠ .null)
    (hu : Mine cli u) {c : Str} (hc : s.txt u = some c) :
    Inv h { s with cells := set s.cells a (some ⟨1, false, h c, u⟩) } (set ext a (ext a + 1)) (disown cli u) := by
  obtain ⟨ke, he, her, heb⟩ := I.emp
  have hea : s.empty ≠ a := by rintro e; rw [e, ha] at he; cases he
  have old : ∀ {b k}, set s.cells a (some ⟨1, false, h c, u⟩) b = some k →
      (b = a ∧ k = ⟨1, false, h c, u⟩) ∨ (b ≠ a ∧ s.cells b = some k) := by
    intro b k hk
    by_cases hb : b = a
    · subst hb; rw [set_same] at hk; exact .inl ⟨rfl, (Option.some.inj hk).symm⟩
    · rw [set_other _ _ hb] at hk; exact .inr ⟨hb, hk⟩
  have tx : ∀ v, ({ s with cells := set s.cells a (some ⟨1, false, h c, u⟩) } : St).txt v = s.txt v := fun v =>
    txt_cells s _ s.tbl v
  have hmine : ∀ b, u = .buf b → cli b = true := fun b e => by rw [e] at hu; exact hu
  have tt : ∀ b, b ∈ s.tbl → b ≠ a := by
    rintro b hb rfl; obtain ⟨k, hk, _⟩ := (I.tbl b).1 hb; rw [ha] at hk; cases hk
  refine ⟨?_, ?_, ?_, ?_, ?_, ?_, ?_, ?_, ?_, ?_, ?_, I.tnd, ?_⟩
  · intro b k hk
    rcases old hk with ⟨rfl, rfl⟩ | ⟨hb, hk⟩
    · show 1 = set ext b _ b + if b = s.empty then 1 else 0
      rw [set_same, I.dead b ha, if_neg (Ne.symm hea)]
    · rw [set_other _ _ hb]; exact I.count b k hk
  · intro b k hk
    rcases old hk with ⟨rfl, rfl⟩ | ⟨hb, hk⟩
    · exact Nat.one_pos
    · exact I.pos b k hk
  · intro b k hk
    rcases old hk with ⟨rfl, rfl⟩ | ⟨hb, hk⟩
    · exact hn
    · exact I.nonnull b k hk
  · intro b k d hk e
    rw [tx] at e
    rcases old hk with ⟨rfl, rfl⟩ | ⟨hb, hk⟩
    · rw [hc] at e; cases e; rfl
    · exact I.hash b k d hk e
  · intro b k d hk e hbit
    rw [tx] at e
    rcases old hk with ⟨rfl, rfl⟩ | ⟨hb, hk⟩
    · cases hbit
    · exact I.full b k d hk e hbit
  · intro b hb
    by_cases hba : b = a
    · subst hba; simp at hb
    · rw [set_other _ _ hba]; exact I.dead b (by simpa [set_other _ _ hba] using hb)
  · exact ⟨ke, by show set _ _ _ s.empty = _; rw [set_other _ _ hea]; exact he, her, heb⟩
  · intro b
    rw [mine_disown]
    refine (I.live b).trans ⟨?_, ?_⟩
    · rintro (hb | ⟨a', k, hk, e⟩)
      · by_cases hub : u = .buf b
        · exact .inr ⟨a, _, set_same _ _ _, hub⟩
        · exact .inl ⟨hb, hub⟩
      · refine .inr ⟨a', k, ?_, e⟩
        show set _ _ _ a' = _
        rw [set_other _ _ (by rintro rfl; rw [ha] at hk; cases hk)]; exact hk
    · rintro (⟨hb, _⟩ | ⟨a', k, hk, e⟩)
      · exact .inl hb
      · rcases old hk with ⟨rfl, rfl⟩ | ⟨hb, hk⟩
        · exact .inl (hmine b e)
        · exact .inr ⟨a', k, hk, e⟩
  · intro b b' k k' x hk hk' e e'
    rcases old hk with ⟨h1, rfl⟩ | ⟨h1, h2⟩ <;> rcases old hk' with ⟨h3, rfl⟩ | ⟨h3, h4⟩
    · rw [h1, h3]
    · exact absurd e' (I.excl b' k' x (hmine x e) h4)
    · exact absurd e (I.excl b k x (hmine x e') h2)
    · exact I.uniq b b' k k' x h2 h4 e e'
  · intro b k x hx hk
    rw [mine_disown] at hx
    rcases old hk with ⟨rfl, rfl⟩ | ⟨hb, hk⟩
    · exact hx.2
    · exact I.excl b k x hx.1 hk
  · intro b
    refine (I.tbl b).trans ⟨?_, ?_⟩
    · rintro ⟨k, hk, e⟩
      exact ⟨k, by show set _ _ _ b = _; rw [set_other _ _ (by rintro rfl; rw [ha] at hk; cases hk)]; exact hk, e⟩
    · rintro ⟨k, hk, e⟩
      rcases old hk with ⟨rfl, rfl⟩ | ⟨hb, hk⟩
      · cases e
      · exact ⟨k, hk, e⟩
  · intro b b' d hb hb' e e'
    refine I.tuniq b b' d hb hb' ?_ ?_
    · unfold St.text at e ⊢; simp only [tx] at e; rw [set_other _ _ (tt b hb)] at e; exact e
    · unfold St.text at e' ⊢; simp only [tx] at e'; rw [set_other _ _ (tt b' hb')] at e'; exact e'

/-- A cell is replaced by one that has the same raw string and hash. -/
theorem Inv.upd (I : Inv h s ext cli) {a : Nat} {k k' : Cell} (hk : s.cells a = some k) {ext' : Nat → Nat}
    {t : List Nat} (hx : ∀ b, b ≠ a → ext' b = ext b) (hr : k'.rc = ext' a + (if a = s.empty then 1 else 0))
    (hp : 0 < k'.rc) (hraw : k'.raw = k.raw) (hhash : k'.hash = k.hash)
    (hfull : ∀ c, s.txt k.raw = some c → k'.bit = true → c ≠ [])
    (ht : ∀ b, b ∈ t ↔ if b = a then k'.bit = true else b ∈ s.tbl) (hnd : t.Nodup)
    (hu : k'.bit = true → k.bit = true ∨ ∀ b c, b ∈ s.tbl → s.text b = some c → s.txt k.raw ≠ some c)
    (he : a = s.empty → k'.bit = false) :
    Inv h { s with cells := set s.cells a (some k'), tbl := t } ext' cli := by
  obtain ⟨ke, hke, her, heb⟩ := I.emp
  have old : ∀ {b x}, set s.cells a (some k') b = some x → (b = a ∧ x = k') ∨ (b ≠ a ∧ s.cells b = some x) := by
    intro b x hx
    by_cases hb : b = a
    · subst hb; rw [set_same] at hx; exact .inl ⟨rfl, (Option.some.inj hx).symm⟩
    · rw [set_other _ _ hb] at hx; exact .inr ⟨hb, hx⟩
  have tx : ∀ v, ({ s with cells := set s.cells a (some k'), tbl := t } : St).txt v = s.txt v := txt_cells s _ t
  have text : ∀ b, ({ s with cells := set s.cells a (some k'), tbl := t } : St).text b = s.text b := by
    intro b
    unfold St.text; simp only [tx]
    by_cases hb : b = a
    · subst hb; rw [set_same, hk]; show s.txt k'.raw = s.txt k.raw; rw [hraw]
    · rw [set_other _ _ hb]
  refine ⟨?_, ?_, ?_, ?_, ?_, ?_, ?_, ?_, ?_, ?_, ?_, hnd, ?_⟩
  · intro b x hx'
    rcases old hx' with ⟨rfl, rfl⟩ | ⟨hb, hx'⟩
    · exact hr
    · rw [hx b hb]; exact I.count b x hx'
  · intro b x hx'
    rcases old hx' with ⟨rfl, rfl⟩ | ⟨hb, hx'⟩
    · exact hp
    · exact I.pos b x hx'
  · intro b x hx'
    rcases old hx' with ⟨rfl, rfl⟩ | ⟨hb, hx'⟩
    · rw [hraw]; exact I.nonnull b k hk
    · exact I.nonnull b x hx'
  · intro b x c hx' e
    rw [tx] at e
    rcases old hx' with ⟨rfl, rfl⟩ | ⟨hb, hx'⟩
    · rw [hhash]; rw [hraw] at e; exact I.hash b k c hk e
    · exact I.hash b x c hx' e
  · intro b x c hx' e hbit
    rw [tx] at e
    rcases old hx' with ⟨rfl, rfl⟩ | ⟨hb, hx'⟩
    · rw [hraw] at e; exact hfull c e hbit
    · exact I.full b x c hx' e hbit
  · intro b hb
    by_cases hba : b = a
    · subst hba; simp at hb
    · rw [hx b hba]; exact I.dead b (by simpa [set_other _ _ hba] using hb)
  · by_cases hea : s.empty = a
    · subst hea
      rw [hke] at hk; cases hk
      exact ⟨k', set_same _ _ _, by rw [hraw]; exact her, he rfl⟩
    · exact ⟨ke, by show set _ _ _ s.empty = _; rw [set_other _ _ hea]; exact hke, her, heb⟩
  · intro b
    refine (I.live b).trans (or_congr_right ⟨?_, ?_⟩)
    · rintro ⟨a', x, hx', e⟩
      by_cases hb : a' = a
      · subst hb; rw [hk] at hx'; cases hx'
        exact ⟨a', k', set_same _ _ _, by rw [hraw]; exact e⟩
      · exact ⟨a', x, by show set _ _ _ a' = _; rw [set_other _ _ hb]; exact hx', e⟩
    · rintro ⟨a', x, hx', e⟩
      rcases old hx' with ⟨rfl, rfl⟩ | ⟨hb, hx'⟩
      · exact ⟨a', k, hk, by rw [← hraw]; exact e⟩
      · exact ⟨a', x, hx', e⟩
  · intro b b' x x' y hx' hx'' e e'
    rcases old hx' with ⟨h1, rfl⟩ | ⟨h1, h2⟩ <;> rcases old hx'' with ⟨h3, h5⟩ | ⟨h3, h4⟩
    · rw [h1, h3]
    · rw [h1]; exact I.uniq a b' k x' y hk h4 (hraw ▸ e) e'
    · rw [h3]; rw [h5] at e'; exact I.uniq b a x k y h2 hk e (hraw ▸ e')
    · exact I.uniq b b' x x' y h2 h4 e e'
  · intro b x y hy hx'
    rcases old hx' with ⟨rfl, rfl⟩ | ⟨hb, hx'⟩
    · rw [hraw]; exact I.excl b k y hy hk
    · exact I.excl b x y hy hx'
  · intro b
    refine (ht b).trans ?_
    by_cases hb : b = a
    · subst hb; rw [if_pos rfl]
      exact ⟨fun e => ⟨k', set_same _ _ _, e⟩, fun ⟨x, hx', e⟩ => by
        rcases old hx' with ⟨_, rfl⟩ | ⟨hb, _⟩
        · exact e
        · exact absurd rfl hb⟩
    · rw [if_neg hb, I.tbl b]
      show _ ↔ ∃ x, set _ _ _ b = _ ∧ _
      rw [set_other _ _ hb]
  · intro b b' c hb hb' e e'
    rw [text] at e e'
    have hb := (ht b).1 hb
    have hb' := (ht b').1 hb'
    by_cases h1 : b = a <;> by_cases h2 : b' = a
    · rw [h1, h2]
    · rw [if_pos h1] at hb; rw [if_neg h2] at hb'
      rcases hu hb with h3 | h3
      · exact I.tuniq b b' c (by rw [h1]; exact (I.tbl a).2 ⟨k, hk, h3⟩) hb' e e'
      · rw [h1, text_eq hk] at e; exact absurd e (h3 b' c hb' e')
    · rw [if_neg h1] at hb; rw [if_pos h2] at hb'
      rcases hu hb' with h3 | h3
      · exact I.tuniq b b' c hb (by rw [h2]; exact (I.tbl a).2 ⟨k, hk, h3⟩) e e'
      · rw [h2, text_eq hk] at e'; exact absurd e' (h3 b c hb e)
    · rw [if_neg h1] at hb; rw [if_neg h2] at hb'
      exact I.tuniq b b' c hb hb' e e'

theorem Inv.tbl_same (I : Inv h s ext cli) {a : Nat} {k : Cell} (hk : s.cells a = some k) {bit : Bool}
    (hb : bit = k.bit) (b : Nat) : b ∈ s.tbl ↔ if b = a then bit = true else b ∈ s.tbl := by
  by_cases h1 : b = a
  · subst h1; rw [if_pos rfl, I.tbl, hb]
    exact ⟨fun ⟨x, hx, e⟩ => by rw [hk] at hx; cases hx; exact e, fun e => ⟨k, hk, e⟩⟩
  · rw [if_neg h1]

theorem Inv.emp_bit (I : Inv h s ext cli) {a : Nat} {k : Cell} (hk : s.cells a = some k) (ha : a = s.empty) :
    k.bit = false := by
  obtain ⟨ke, he, _, hb⟩ := I.emp
  rw [← ha, hk] at he; cases he; exact hb

/-- `cowl_retain`. -/
theorem Inv.retain (I : Inv h s ext cli) {a : Nat} {k : Cell} (hk : s.cells a = some k) :
    Inv h { s with cells := set s.cells a (some { k with rc := k.rc + 1 }) } (set ext a (ext a + 1)) cli := by
  refine I.upd (k' := { k with rc := k.rc + 1 }) (t := s.tbl) hk (fun b hb => set_other _ _ hb) ?_
    (Nat.succ_pos _) rfl rfl (fun c e hb => I.full a k c hk e hb) (I.tbl_same hk rfl) I.tnd (fun hb => .inl hb)
    (fun ha => by have := I.emp_bit hk ha; exact this)
  have := I.count a k hk
  simp only [set_same]; omega

/-- A reference is given up that is not the last one. -/
theorem Inv.decr (I : Inv h s ext cli) {a : Nat} {k : Cell} (hk : s.cells a = some k) (hx : 0 < ext a)
    (hr : k.rc - 1 ≠ 0) :
    Inv h { s with cells := set s.cells a (some { k with rc := k.rc - 1 }) } (set ext a (ext a - 1)) cli := by
  refine I.upd (k' := { k with rc := k.rc - 1 }) (t := s.tbl) hk (fun b hb => set_other _ _ hb) ?_
    (Nat.pos_of_ne_zero hr) rfl rfl (fun c e hb => I.full a k c hk e hb) (I.tbl_same hk rfl) I.tnd
    (fun hb => .inl hb) (fun ha => by have := I.emp_bit hk ha; exact this)
  have := I.count a k hk
  simp only [set_same]; omega

/-- A string is put into the table. -/
theorem Inv.intern (I : Inv h s ext cli) {a : Nat} {k : Cell} (hk : s.cells a = some k) (hb : k.bit = false)
    {c : Str} (hc : s.txt k.raw = some c) (hne : c ≠ []) (hno : ∀ b, b ∈ s.tbl → s.text b ≠ some c) :
    Inv h { s with cells := set s.cells a (some { k with bit := true }), tbl := a :: s.tbl } ext cli := by
  have hat : a ∉ s.tbl := by
    intro h1; obtain ⟨x, hx, e⟩ := (I.tbl a).1 h1
    rw [hk] at hx; cases hx; rw [hb] at e; cases e
  refine I.upd (k' := { k with bit := true }) hk (fun _ _ => rfl) (I.count a k hk) (I.pos a k hk) rfl rfl
    (fun d e _ => ?_) (fun b => ?_) (List.nodup_cons.2 ⟨hat, I.tnd⟩) (fun _ => .inr fun b d hbt e hd => ?_) ?_
  · rw [hc] at e; cases e; exact hne
  · rw [List.mem_cons]
    by_cases h1 : b = a
    · simp [h1]
    · simp [h1]
  · rw [hc] at hd; cases hd; exact hno b hbt e
  · intro ha
    obtain ⟨ke, he, her, _⟩ := I.emp
    rw [← ha, hk] at he; cases he
    rw [her] at hc; cases hc; exact absurd rfl hne

/-- A string is taken out of the memory, and its raw string is left. -/
theorem Inv.delCell (I : Inv h s ext cli) {a : Nat} {k : Cell} (hk : s.cells a = some k) (hne : a ≠ s.empty) :
    Inv h { s with cells := set s.cells a none, tbl := s.tbl.erase a } (set ext a 0) (own cli k.raw) := by
  obtain ⟨ke, hke, her, heb⟩ := I.emp
  have old : ∀ {b x}, set s.cells a none b = some x → b ≠ a ∧ s.cells b = some x := by
    intro b x hx
    by_cases hb : b = a
    · subst hb; rw [set_same] at hx; cases hx
    · rw [set_other _ _ hb] at hx; exact ⟨hb, hx⟩
  have tx : ∀ v, ({ s with cells := set s.cells a none, tbl := s.tbl.erase a } : St).txt v = s.txt v :=
    txt_cells s _ _
  have mem : ∀ b, b ∈ s.tbl.erase a ↔ b ≠ a ∧ b ∈ s.tbl := fun b => I.tnd.mem_erase_iff
  refine ⟨?_, ?_, ?_, ?_, ?_, ?_, ?_, ?_, ?_, ?_, ?_, I.tnd.erase a, ?_⟩
  · intro b x hx
    obtain ⟨hb, hx⟩ := old hx
    rw [set_other _ _ hb]; exact I.count b x hx
  · intro b x hx; exact I.pos b x (old hx).2
  · intro b x hx; exact I.nonnull b x (old hx).2
  · intro b x c hx e; rw [tx] at e; exact I.hash b x c (old hx).2 e
  · intro b x c hx e; rw [tx] at e; exact I.full b x c (old hx).2 e
  · intro b hb
    by_cases hba : b = a
    · subst hba; exact set_same _ _ _
    · rw [set_other _ _ hba]; exact I.dead b (by simpa [set_other _ _ hba] using hb)
  · exact ⟨ke, by show set _ _ _ s.empty = _; rw [set_other _ _ (Ne.symm hne)]; exact hke, her, heb⟩
  · intro b
    rw [mine_own]
    refine (I.live b).trans ⟨?_, ?_⟩
    · rintro (hb | ⟨a', x, hx, e⟩)
      · exact .inl (.inl hb)
      · by_cases hb : a' = a
        · subst hb; rw [hk] at hx; cases hx; exact .inl (.inr e)
        · exact .inr ⟨a', x, by show set _ _ _ a' = _; rw [set_other _ _ hb]; exact hx, e⟩
    · rintro ((hb | e) | ⟨a', x, hx, e⟩)
      · exact .inl hb
      · exact .inr ⟨a, k, hk, e⟩
      · exact .inr ⟨a', x, (old hx).2, e⟩
  · intro b b' x x' y hx hx' e e'
    exact I.uniq b b' x x' y (old hx).2 (old hx').2 e e'
  · intro b x y hy hx e
    obtain ⟨hb, hx⟩ := old hx
    rcases mine_own.1 hy with hy | hy
    · exact I.excl b x y hy hx e
    · exact hb (I.uniq b a x k y hx hk e hy)
  · intro b
    rw [mem, I.tbl]
    by_cases hb : b = a
    · subst hb; simp
    · show _ ↔ ∃ x, set _ _ _ b = _ ∧ _
      rw [set_other _ _ hb]; simp [hb]
  · intro b b' c hb hb' e e'
    obtain ⟨h1, hb⟩ := (mem b).1 hb
    obtain ⟨h2, hb'⟩ := (mem b').1 hb'
    refine I.tuniq b b' c hb hb' ?_ ?_
    · unfold St.text at e ⊢; simp only [tx] at e; rw [set_other _ _ h1] at e; exact e
    · unfold St.text at e' ⊢; simp only [tx] at e'; rw [set_other _ _ h2] at e'; exact e'

/-- Lookup finds the string with the given text. -/
theorem Inv.find (I : Inv h s ext cli) (c : Str) : ∀ {bs : List Nat}, (∀ b ∈ bs, b ∈ s.tbl) →
    ∃ r, s.find (h c) c bs = some r ∧ (∀ b, r = some b → b ∈ bs ∧ s.text b = some c) ∧
      (r = none → ∀ b ∈ bs, s.text b ≠ some c)
  | [], _ => ⟨none, rfl, fun _ e => (by cases e), fun _ _ hb => (by cases hb)⟩
  | b :: bs, hbs => by
    obtain ⟨r, e, h1, h2⟩ := I.find c (bs := bs) fun x hx => hbs x (.tail _ hx)
    obtain ⟨k, hk, _⟩ := (I.tbl b).1 (hbs b (.head _))
    obtain ⟨d, hd⟩ := I.readable hk
    have hh := I.hash b k d hk hd
    unfold St.find
    rw [hk]; dsimp only
    by_cases hdc : d = c
    · subst hdc
      rw [if_pos hh, hd]; dsimp only; rw [if_pos rfl]
      refine ⟨_, rfl, fun x e => ?_, fun e => by cases e⟩
      cases e; exact ⟨.head _, by rw [text_eq hk]; exact hd⟩
    · have : (if k.hash = h c then match s.txt k.raw with
          | none => none
          | some d => if d = c then some (some b) else s.find (h c) c bs
          else s.find (h c) c bs) = s.find (h c) c bs := by
        split
        · rw [hd]; dsimp only; rw [if_neg hdc]
        · rfl
      refine ⟨r, this.trans e, fun x ex => ⟨.tail _ (h1 x ex).1, (h1 x ex).2⟩, fun er x hx => ?_⟩
      rcases List.mem_cons.1 hx with rfl | hx
      · rw [text_eq hk, hd]; intro e; exact hdc (Option.some.inj e)
      · exact h2 er x hx

/-- What a call leaves as it is: the strings that stay keep their raw strings and texts, and the
client's buffers keep theirs. -/
structure Frame (s : St) (cli : Nat → Bool) (s' : St) (cli' : Nat → Bool) : Prop where
  cells : ∀ a k k', s.cells a = some k → s'.cells a = some k' → k'.raw = k.raw ∧ s'.txt k.raw = s.txt k.raw
  empty : s'.empty = s.empty
  mine : ∀ b, cli b = true → cli' b = true → s'.bufs b = s.bufs b

/-- What a constructor does, for the text `c`. -/
structure Got (h : Str → Nat) (s : St) (ext : Nat → Nat) (cli cli' : Nat → Bool) (c : Str) (int : Bool)
    (s' : St) (r : Option Nat) : Prop where
  frame : Frame s cli s' cli'
  stay : ∀ a k, s.cells a = some k → ∃ k', s'.cells a = some k'
  null : r = none → Inv h s' ext cli' ∧ s'.cells = s.cells ∧ s'.tbl = s.tbl
  ptr : ∀ x, r = some x → Inv h s' (set ext x (ext x + 1)) cli' ∧ s'.text x = some c ∧
    (int = true → x ∈ s'.tbl ∨ c = [] ∧ x = s.empty)

theorem Inv.deinit' (I : Inv h s ext cli) {u : UStr} (hu : Mine cli u) :
    ∃ s', SBuf.deinit s u = some s' ∧ Inv h s' ext (disown cli u) ∧ s'.cells = s.cells ∧ s'.tbl = s.tbl ∧
      s'.empty = s.empty ∧ (∀ a k, s.cells a = some k → s'.txt k.raw = s.txt k.raw) ∧
      Frame s cli s' (disown cli u) := by
  obtain ⟨s', e, I', hc, ht, he, hx⟩ := I.deinit hu
  refine ⟨s', e, I', hc, ht, he, hx, ⟨fun a k k' hk hk' => ?_, he, fun b hb hb' => ?_⟩⟩
  · rw [hc, hk] at hk'; cases hk'; exact ⟨rfl, hx a k hk⟩
  · have hne := (mine_disown.1 hb').2
    cases u with
    | null => cases e; rfl
    | inl c => cases e; rfl
    | buf b' =>
      obtain ⟨c, hc⟩ := I.mine_readable hu
      have hc : s.bufs b' = some c := hc
      have e : (s.bufs b').map _ = some s' := e
      rw [hc] at e; cases e
      exact set_other _ _ fun e => hne (by rw [e])

/-- `cowl_string_get` of a raw string that is given away. -/
theorem get_give (I : Inv h s ext cli) (w : Where) (ok : Bool) {a : Nat} (ha : s.cells a = none) {u : UStr}
    (hn : u ≠ .null) (hu : Mine cli u) {c : Str} (hc : s.txt u = some c) :
    ∃ s' r, get h w ok s a u false = some (s', r) ∧ Got h s ext cli (disown cli u) c false s' r ∧
      (∀ x, r = some x → x = a ∧ s'.tbl = s.tbl ∧ ∃ k, s'.cells a = some k ∧ k.bit = false) := by
  unfold get
  simp only [Bool.false_eq_true, if_false, Option.bind_some, false_and]
  cases ok with
  | true =>
    simp only [if_true, hc, Option.map_some]
    have hi : initCell h u c = ⟨1, false, h c, u⟩ := by simp [initCell, hn]
    rw [hi]
    refine ⟨_, _, rfl, ⟨⟨fun b k k' hk hk' => ?_, rfl, fun _ _ _ => rfl⟩, fun b k hk => ?_, fun e => (by cases e),
      fun x e => ?_⟩, fun x e => ?_⟩
    · have : b ≠ a := by rintro rfl; rw [ha] at hk; cases hk
      have hk' : set _ _ _ b = _ := hk'
      rw [set_other _ _ this, hk] at hk'; cases hk'
      exact ⟨rfl, txt_cells s _ s.tbl _⟩
    · have : b ≠ a := by rintro rfl; rw [ha] at hk; cases hk
      exact ⟨k, by show set _ _ _ b = _; rw [set_other _ _ this, hk]⟩
    · cases e
      refine ⟨I.addCell ha hn hu hc, ?_, fun e => (by cases e)⟩
      rw [text_eq (set_same _ _ _)]
      exact (txt_cells s _ s.tbl _).trans hc
    · cases e; exact ⟨rfl, rfl, _, set_same _ _ _, rfl⟩
  | false =>
    obtain ⟨s', e, I', h1, h2, h3, h4, F⟩ := I.deinit' hu
    simp only [Bool.false_eq_true, if_false, e, Option.map_some]
    refine ⟨_, _, rfl, ⟨F, fun b k hk => ⟨k, by rw [h1, hk]⟩, fun _ => ⟨I', h1, h2⟩, fun x e => (by cases e)⟩,
      fun x e => (by cases e)⟩

theorem disown_mine_le {u : UStr} {b : Nat} (hb : cli b = true) : own cli u b = true := mine_own.2 (.inl hb)

/-- The frame of a call that first creates a raw string. -/
theorem Frame.fresh (I : Inv h s ext cli) {w : Where} (hw : Unused s w) {c : Str} {s' : St}
    (F : Frame (s.fresh w c).1 (own cli (s.fresh w c).2) s' cli) : Frame s cli s' cli := by
  obtain ⟨_, _, h1, _, h3, h4, _, _⟩ := I.fresh hw c
  refine ⟨fun a k k' hk hk' => ?_, F.empty.trans h3, fun b hb _ => ?_⟩
  · obtain ⟨e1, e2⟩ := F.cells a k k' (by rw [h1]; exact hk) hk'
    exact ⟨e1, e2.trans (h4 a k hk)⟩
  · rw [F.mine b (mine_own.2 (.inl hb)) hb]
    cases w with
    | no => rfl
    | inl => rfl
    | at' b' =>
      refine set_other _ _ ?_
      rintro rfl; exact (I.live b).2 (.inl hb) hw

/-- The result of a call that first creates a raw string. -/
theorem Got.fresh (I : Inv h s ext cli) {w : Where} (hw : Unused s w) {c d : Str} {int : Bool} {s' : St}
    {r : Option Nat} (G : Got h (s.fresh w c).1 ext (own cli (s.fresh w c).2) cli d int s' r) :
    Got h s ext cli cli d int s' r := by
  obtain ⟨_, _, h1, h2, h3, _⟩ := I.fresh hw c
  refine ⟨.fresh I hw G.frame, fun a k hk => G.stay a k (by rw [h1]; exact hk), fun e => ?_, fun x e => by
    rw [← h3]; exact G.ptr x e⟩
  obtain ⟨x1, x2, x3⟩ := G.null e
  exact ⟨x1, x2.trans h1, x3.trans h2⟩

/-- `cowl_string_get` of a raw string that is copied. -/
theorem get_copy (I : Inv h s ext cli) {w : Where} (hw : Unused s w) (ok : Bool) {a : Nat}
    (ha : s.cells a = none) {u : UStr} {c : Str} (hc : s.txt u = some c) :
    ∃ s' r, get h w ok s a u true = some (s', r) ∧ Got h s ext cli cli c false s' r ∧
      (∀ x, r = some x → x = a ∧ s'.tbl = s.tbl ∧ ∃ k, s'.cells a = some k ∧ k.bit = false) := by
  obtain ⟨I1, hm, h1, h2, h3, h4, h5, h6⟩ := I.fresh hw c
  have e0 : get h w ok s a u true = if (s.fresh w c).2 = .null then some ((s.fresh w c).1, none)
      else get h w ok (s.fresh w c).1 a (s.fresh w c).2 false := by
    unfold get dup
    simp [hc]
  rw [e0]
  rcases h5 with h5 | ⟨h5, hn⟩
  · rw [if_pos h5]
    rw [h5] at I1
    refine ⟨_, _, rfl, .fresh I hw (c := c) ?_, fun x e => (by cases e)⟩
    rw [h5]
    exact ⟨⟨fun a k k' hk hk' => by rw [hk] at hk'; cases hk'; exact ⟨rfl, rfl⟩, rfl, fun _ _ _ => rfl⟩,
      fun a k hk => ⟨k, hk⟩, fun _ => ⟨I1, rfl, rfl⟩, fun x e => (by cases e)⟩
  · rw [if_neg hn]
    obtain ⟨s', r, e, G, hb⟩ := get_give I1 w ok (a := a) (by rw [h1]; exact ha) hn hm h5
    rw [h6] at G
    refine ⟨s', r, e, .fresh I hw G, fun x ex => ?_⟩
    obtain ⟨x1, x2, x3⟩ := hb x ex
    exact ⟨x1, x2.trans h2, x3⟩

/-- The raw strings the client has left after giving one away, or keeping it. -/
def passed (cli : Nat → Bool) (u : UStr) (copy : Bool) : Nat → Bool := if copy then cli else disown cli u

/-- Legal arguments of the constructors. -/
def Args (s : St) (cli : Nat → Bool) (u : UStr) (copy : Bool) : Prop :=
  (copy = true → ∃ c, s.txt u = some c) ∧ (copy = false → Mine cli u)

theorem Args.readable (I : Inv h s ext cli) {u : UStr} {copy : Bool} (ha : Args s cli u copy) :
    ∃ c, s.txt u = some c := by
  cases copy with
  | true => exact ha.1 rfl
  | false => exact I.mine_readable (ha.2 rfl)

theorem get_spec (I : Inv h s ext cli) {w : Where} (hw : Unused s w) (ok : Bool) {a : Nat}
    (ha : s.cells a = none) {u : UStr} (hn : u ≠ .null) {copy : Bool} (hu : Args s cli u copy) {c : Str}
    (hc : s.txt u = some c) :
    ∃ s' r, get h w ok s a u copy = some (s', r) ∧ Got h s ext cli (passed cli u copy) c false s' r ∧
      (∀ x, r = some x → x = a ∧ s'.tbl = s.tbl ∧ ∃ k, s'.cells a = some k ∧ k.bit = false) := by
  cases copy with
  | true => exact get_copy I hw ok ha hc
  | false => exact get_give I w ok ha hn (hu.2 rfl) hc

/-- The end of the calls that do not use the raw string. -/
theorem discard (I : Inv h s ext cli) {u : UStr} {copy : Bool} (hu : copy = false → Mine cli u) :
    ∃ s', (if copy then some s else deinit s u) = some s' ∧ Inv h s' ext (passed cli u copy) ∧
      s'.cells = s.cells ∧ s'.tbl = s.tbl ∧ (∀ a k, s.cells a = some k → s'.txt k.raw = s.txt k.raw) ∧
      Frame s cli s' (passed cli u copy) := by
  cases copy with
  | true =>
    exact ⟨s, rfl, I, rfl, rfl, fun _ _ _ => rfl,
      ⟨fun a k k' hk hk' => by rw [hk] at hk'; cases hk'; exact ⟨rfl, rfl⟩, rfl, fun _ _ _ => rfl⟩⟩
  | false =>
    obtain ⟨s', e, I', h1, h2, _, h4, F⟩ := I.deinit' (hu rfl)
    exact ⟨s', e, I', h1, h2, h4, F⟩

/-- A string that is there is retained and returned. -/
theorem retain_got (I : Inv h s ext cli) {x : Nat} {k : Cell} (hk : s.cells x = some k) {c : Str}
    (hc : s.text x = some c) (hi : k.bit = true ∨ c = [] ∧ x = s.empty) (int : Bool) {u : UStr} {copy : Bool}
    (hu : copy = false → Mine cli u) :
    ∃ s' s'', retain s x = some s' ∧ s'.empty = s.empty ∧ (if copy then some s' else deinit s' u) = some s'' ∧
      Got h s ext cli (passed cli u copy) c int s'' (some x) := by
  obtain ⟨s'', e, I', h1, h2, h4, F⟩ := discard (I.retain hk) hu
  refine ⟨{ s with cells := set s.cells x (some { k with rc := k.rc + 1 }) }, s'', by unfold SBuf.retain; rw [hk]; rfl,
    rfl, e, ⟨?_, ?_, fun e => (by cases e), ?_⟩⟩
  · refine ⟨fun a l l' hl hl' => ?_, F.empty, F.mine⟩
    by_cases hax : a = x
    · subst hax
      rw [hk] at hl; cases hl
      obtain ⟨e1, e2⟩ := F.cells a _ l' (set_same _ _ _) hl'
      exact ⟨e1, e2.trans (txt_cells s _ s.tbl _)⟩
    · obtain ⟨e1, e2⟩ := F.cells a l l' (by show set _ _ _ a = _; rw [set_other _ _ hax]; exact hl) hl'
      exact ⟨e1, e2.trans (txt_cells s _ s.tbl _)⟩
  · intro a l hl
    rw [h1]
    by_cases hax : a = x
    · subst hax; exact ⟨_, set_same _ _ _⟩
    · exact ⟨l, by show set _ _ _ a = _; rw [set_other _ _ hax]; exact hl⟩
  · intro y e; cases e
    have hx : s''.cells x = some { k with rc := k.rc + 1 } := by rw [h1]; exact set_same _ _ _
    refine ⟨I', ?_, fun _ => hi.imp_left fun hb => ?_⟩
    · rw [text_eq hx]
      have := h4 x _ (set_same _ _ _)
      rw [this]
      exact (txt_cells s _ s.tbl _).trans ((text_eq hk).symm.trans hc)
    · rw [h2]
      exact (I.tbl x).2 ⟨k, hk, hb⟩

theorem empty_got (I : Inv h s ext cli) (int : Bool) {u : UStr} {copy : Bool} (hu : copy = false → Mine cli u) :
    ∃ s' r, ((emptyStr s).bind fun (s, r) => (if copy then some s else deinit s u).map fun s => (s, r)) =
      some (s', r) ∧ Got h s ext cli (passed cli u copy) [] int s' r := by
  obtain ⟨k, hk, hr, _⟩ := I.emp
  obtain ⟨s', s'', e1, e2, e3, G⟩ := retain_got I hk (c := []) (by rw [text_eq hk, hr]; rfl) (.inr ⟨rfl, rfl⟩) int hu
  refine ⟨s'', some s.empty, ?_, G⟩
  unfold emptyStr
  rw [e1]
  simp only [Option.map_some, Option.bind_some, e3, e2]

theorem getIntern_spec (I : Inv h s ext cli) {w : Where} (hw : Unused s w) (put ok : Bool) {a : Nat}
    (ha : s.cells a = none) {u : UStr} (hn : u ≠ .null) {copy : Bool} (hu : Args s cli u copy) {c : Str}
    (hc : s.txt u = some c) (hne : c ≠ []) :
    ∃ s' r, getIntern h w put ok s a u copy = some (s', r) ∧ Got h s ext cli (passed cli u copy) c true s' r := by
  have hi : (initCell h u c).hash = h c := by simp [initCell, hn]
  unfold getIntern
  simp only [hc, Option.bind_some, hi]
  cases put with
  | false =>
    obtain ⟨s', e, I', h1, h2, _, F⟩ := discard I hu.2
    simp only [Bool.not_false, if_true, e, Option.map_some]
    exact ⟨_, _, rfl, ⟨F, fun b k hk => ⟨k, by rw [h1, hk]⟩, fun _ => ⟨I', h1, h2⟩, fun x e => (by cases e)⟩⟩
  | true =>
    obtain ⟨r, e, hs, hno⟩ := I.find c (bs := s.tbl) fun _ h => h
    simp only [Bool.not_true, Bool.false_eq_true, if_false, e, Option.bind_some]
    cases r with
    | some b =>
      obtain ⟨hb, ht⟩ := hs b rfl
      obtain ⟨k, hk, hbit⟩ := (I.tbl b).1 hb
      obtain ⟨s', s'', e1, _, e3, G⟩ := retain_got I hk ht (.inl hbit) true hu.2
      simp only [e1, Option.bind_some, e3, Option.map_some]
      exact ⟨_, _, rfl, G⟩
    | none =>
      obtain ⟨s', r, e1, G, hb⟩ := get_spec I hw ok ha hn hu hc
      simp only [e1, Option.bind_some]
      cases r with
      | none => exact ⟨_, _, rfl, ⟨G.frame, G.stay, G.null, fun x e => (by cases e)⟩⟩
      | some x =>
        obtain ⟨rfl, ht, k, hk, hbit⟩ := hb x rfl
        obtain ⟨I', htx, _⟩ := G.ptr x rfl
        simp only [hk, Option.map_some]
        have htk : s'.txt k.raw = some c := by rw [← text_eq hk]; exact htx
        have hnot : ∀ b, b ∈ s'.tbl → s'.text b ≠ some c := by
          intro b hb e
          rw [ht] at hb
          obtain ⟨l, hl, _⟩ := (I.tbl b).1 hb
          obtain ⟨l', hl'⟩ := G.stay b l hl
          obtain ⟨e1, e2⟩ := G.frame.cells b l l' hl hl'
          rw [text_eq hl', e1, e2, ← text_eq hl] at e
          exact hno rfl b hb e
        refine ⟨_, _, rfl, ⟨⟨fun b l l' hl hl' => ?_, G.frame.empty, G.frame.mine⟩, fun b l hl => ?_,
          fun e => (by cases e), fun y e => ?_⟩⟩
        · have : b ≠ x := by rintro rfl; rw [ha] at hl; cases hl
          have hl' : set _ _ _ b = _ := hl'
          rw [set_other _ _ this] at hl'
          obtain ⟨e1, e2⟩ := G.frame.cells b l l' hl hl'
          exact ⟨e1, (txt_cells s' _ _ _).trans e2⟩
        · have : b ≠ x := by rintro rfl; rw [ha] at hl; cases hl
          obtain ⟨l', hl'⟩ := G.stay b l hl
          exact ⟨l', by show set _ _ _ b = _; rw [set_other _ _ this]; exact hl'⟩
        · cases e
          refine ⟨I'.intern hk hbit htk hne hnot, ?_, fun _ => .inl (.head _)⟩
          rw [text_eq (set_same _ _ _)]
          exact (txt_cells s' _ _ _).trans htk

theorem opt_spec (I : Inv h s ext cli) {w : Where} (hw : Unused s w) (put ok : Bool) {a : Nat}
    (ha : s.cells a = none) {u : UStr} {copy : Bool} (hu : Args s cli u copy) (int : Bool) :
    ∃ s' r c, opt h w put ok s a u copy int = some (s', r) ∧ s.txt u = some c ∧
      Got h s ext cli (passed cli u copy) c int s' r ∧ (u = .null → r = none) := by
  obtain ⟨c, hc⟩ := hu.readable I
  unfold opt
  by_cases hn : u = .null
  · rw [if_pos hn]
    obtain ⟨s', e, I', h1, h2, _, F⟩ := discard I hu.2
    rw [e]
    exact ⟨_, _, c, rfl, hc, ⟨F, fun b k hk => ⟨k, by rw [h1, hk]⟩, fun _ => ⟨I', h1, h2⟩,
      fun x e => (by cases e)⟩, fun _ => rfl⟩
  · rw [if_neg hn, hc, Option.bind_some]
    by_cases h0 : c = []
    · subst h0
      rw [if_pos rfl]
      obtain ⟨s', r, e, G⟩ := empty_got I int hu.2
      exact ⟨s', r, [], e, rfl, G, fun e => absurd e hn⟩
    · rw [if_neg h0]
      cases int with
      | true =>
        obtain ⟨s', r, e, G⟩ := getIntern_spec I hw put ok ha hn hu hc h0
        exact ⟨s', r, c, e, rfl, G, fun e => absurd e hn⟩
      | false =>
        obtain ⟨s', r, e, G, _⟩ := get_spec I hw ok ha hn hu hc
        exact ⟨s', r, c, e, rfl, G, fun e => absurd e hn⟩

theorem string_spec (I : Inv h s ext cli) (ok : Bool) {a : Nat} (ha : s.cells a = none) {u : UStr}
    (hu : Mine cli u) (h0 : ∀ b, u = .buf b → s.bufs b ≠ some []) :
    ∃ s' r c, string h ok s a u = some (s', r) ∧ s.txt u = some c ∧
      Got h s ext cli (disown cli u) c false s' r ∧ (u = .null → r = none) := by
  obtain ⟨c, hc⟩ := I.mine_readable hu
  unfold string
  by_cases hn : u = .null
  · rw [if_pos hn]; subst hn
    exact ⟨_, _, c, rfl, hc, ⟨⟨fun a k k' hk hk' => by rw [hk] at hk'; cases hk'; exact ⟨rfl, rfl⟩, rfl,
      fun _ _ _ => rfl⟩, fun b k hk => ⟨k, hk⟩, fun _ => ⟨I, rfl, rfl⟩, fun x e => (by cases e)⟩, fun _ => rfl⟩
  · rw [if_neg hn, hc, Option.bind_some]
    by_cases hc0 : c = []
    · subst hc0
      rw [if_pos rfl]
      have hd : disown cli u = cli := by
        cases u with
        | null => rfl
        | inl c => rfl
        | buf b => exact absurd hc (h0 b rfl)
      obtain ⟨s', r, e, G⟩ := empty_got I false (u := u) (copy := true) (fun e => by cases e)
      rw [hd]
      refine ⟨s', r, [], ?_, rfl, G, fun e => absurd e hn⟩
      rw [← e]
      cases emptyStr s with
      | none => rfl
      | some p => rfl
    · rw [if_neg hc0]
      obtain ⟨s', r, e, G, _⟩ := get_give I .no ok ha hn hu hc
      exact ⟨s', r, c, e, rfl, G, fun e => absurd e hn⟩

/-- `cowl_string` of a new raw string. -/
theorem string_fresh (I : Inv h s ext cli) {w : Where} (hw : Unused s w) (ok : Bool) {a : Nat}
    (ha : s.cells a = none) (c : Str) (h0 : c = [] → ∀ b, w ≠ .at' b) :
    ∃ s' r, string h ok (s.fresh w c).1 a (s.fresh w c).2 = some (s', r) ∧ Got h s ext cli cli c false s' r := by
  obtain ⟨I1, hm, h1, h2, h3, h4, h5, h6⟩ := I.fresh hw c
  have hz : ∀ b, (s.fresh w c).2 = .buf b → (s.fresh w c).1.bufs b ≠ some [] := by
    intro b e
    cases w with
    | no => cases e
    | inl => cases e
    | at' b' =>
      have e : b' = b := UStr.buf.inj e
      rw [← e]
      show set _ _ _ b' ≠ _
      rw [set_same]
      rintro e
      exact h0 (Option.some.inj e) b' rfl
  obtain ⟨s', r, d, e, hd, G, hnull⟩ := string_spec I1 ok (a := a) (by rw [h1]; exact ha) hm hz
  rw [h6] at G
  refine ⟨s', r, e, .fresh I hw (c := c) ?_⟩
  rcases h5 with h5 | ⟨h5, _⟩
  · have hr := hnull h5
    exact ⟨G.frame, G.stay, G.null, fun x e => by rw [hr] at e; cases e⟩
  · rw [hd] at h5; cases h5; exact G

/-! ## Releasing -/

theorem decr_eq {a : Nat} {k : Cell} (hk : s.cells a = some k) (hr : 0 < k.rc) : decr s a =
    some ({ s with cells := set s.cells a (some { k with rc := k.rc - 1 }) }, k.rc - 1) := by
  unfold decr; rw [hk, Option.bind_some, if_neg (by omega)]

theorem find_cells (f : Nat → Option Cell) (hf : ∀ b ∈ s.tbl, (f b).map (fun k => (k.hash, k.raw)) =
    (s.cells b).map fun k => (k.hash, k.raw)) (hs : Nat) (c : Str) : ∀ {bs : List Nat}, (∀ b ∈ bs, b ∈ s.tbl) →
    ({ s with cells := f } : St).find hs c bs = s.find hs c bs
  | [], _ => rfl
  | b :: bs, hbs => by
    have ih := find_cells f hf hs c (bs := bs) fun x hx => hbs x (.tail _ hx)
    have h1 := hf b (hbs b (.head _))
    unfold St.find
    show (match f b with | none => _ | some k => _) = _
    cases e1 : s.cells b with
    | none => rw [e1] at h1; cases e2 : f b with
      | none => rfl
      | some l => rw [e2] at h1; cases h1
    | some k =>
      rw [e1] at h1
      cases e2 : f b with
      | none => rw [e2] at h1; cases h1
      | some l =>
        rw [e2] at h1
        have h1 := Option.some.inj h1
        have h2 : l.hash = k.hash := congrArg _root_.Prod.fst h1
        have h3 : l.raw = k.raw := congrArg _root_.Prod.snd h1
        dsimp only
        rw [h2, h3, ih, txt_cells s f s.tbl]

/-- `cowl_string_free` of a string whose last reference has been given up. -/
theorem free_last (I : Inv h s ext cli) {a : Nat} {k : Cell} (hk : s.cells a = some k) (hne : a ≠ s.empty) :
    ∃ s', free { s with cells := set s.cells a (some { k with rc := k.rc - 1 }) } a = some s' ∧
      Inv h s' (set ext a 0) cli ∧ s'.cells = set s.cells a none ∧ Frame s cli s' cli := by
  obtain ⟨c, hc⟩ := I.readable hk
  have tx : ∀ v, ({ s with cells := set s.cells a (some { k with rc := k.rc - 1 }) } : St).txt v = s.txt v :=
    txt_cells s _ s.tbl
  have hrem : (if k.bit then remove { s with cells := set s.cells a (some { k with rc := k.rc - 1 }) } a
      else some { s with cells := set s.cells a (some { k with rc := k.rc - 1 }) }) =
      some { s with cells := set s.cells a (some { k with rc := k.rc - 1 }), tbl := s.tbl.erase a } := by
    by_cases hb : k.bit = true
    · rw [if_pos hb]
      have hat : a ∈ s.tbl := (I.tbl a).2 ⟨k, hk, hb⟩
      unfold remove
      rw [show ({ s with cells := set s.cells a (some { k with rc := k.rc - 1 }) } : St).cells a = some { k with rc := k.rc - 1 }
        from set_same _ _ _, Option.bind_some]
      dsimp only
      rw [tx, hc, Option.bind_some, find_cells _ ?_ _ _ (fun _ h => h), I.hash a k c hk hc]
      · obtain ⟨r, e, h1, h2⟩ := I.find c (bs := s.tbl) fun _ h => h
        rw [e]
        cases r with
        | none => exact absurd ((text_eq hk).trans hc) (h2 rfl a hat)
        | some b =>
          obtain ⟨hb', ht⟩ := h1 b rfl
          have := I.tuniq b a c hb' hat ht ((text_eq hk).trans hc)
          rw [this]; rfl
      · intro b hb'
        by_cases hba : b = a
        · subst hba; rw [set_same, hk]; rfl
        · rw [set_other _ _ hba]
    · rw [if_neg hb]
      have : a ∉ s.tbl := by
        intro h1; obtain ⟨x, hx, e⟩ := (I.tbl a).1 h1
        rw [hk] at hx; cases hx; exact hb e
      rw [List.erase_of_not_mem this]
  have I1 := I.delCell hk hne
  have hm : Mine (own cli k.raw) k.raw := by
    cases e : k.raw with
    | null => trivial
    | inl c => trivial
    | buf b => exact set_same _ _ _
  obtain ⟨s2, e2, I2, h1, h2, h3, h4, F⟩ := I1.deinit' hm
  have hd : disown (own cli k.raw) k.raw = cli := by
    cases e : k.raw with
    | null => rfl
    | inl c => rfl
    | buf b =>
      show set (set cli b true) b false = cli
      rw [set_set]
      refine set_eq ?_
      cases e' : cli b with
      | false => rfl
      | true => exact absurd e (I.excl a k b e' hk)
  rw [hd] at I2 F
  refine ⟨s2, ?_, I2, h1, ⟨fun b l l' hl hl' => ?_, h3, fun b hb hb' => F.mine b (mine_own.2 (.inl hb)) hb'⟩⟩
  · unfold free
    rw [show ({ s with cells := set s.cells a (some { k with rc := k.rc - 1 }) } : St).cells a = some { k with rc := k.rc - 1 }
        from set_same _ _ _, Option.bind_some]
    dsimp only
    rw [hrem, Option.bind_some]
    revert e2
    cases k.raw with
    | null => intro e2; cases e2; simp [deinit]
    | inl c => intro e2; cases e2; simp [deinit]
    | buf b =>
      intro e2
      simp only [deinit] at e2 ⊢
      cases e3 : s.bufs b with
      | none => rw [e3] at e2; cases e2
      | some d => rw [e3] at e2; cases e2; simp
  · have hba : b ≠ a := by
      rintro rfl; rw [h1] at hl'; have hl' : set _ _ _ b = _ := hl'; rw [set_same] at hl'; cases hl'
    obtain ⟨e1, e2⟩ := F.cells b l l' (by show set _ _ _ b = _; rw [set_other _ _ hba]; exact hl) hl'
    exact ⟨e1, e2.trans (txt_cells s _ _ _)⟩

/-- `cowl_release`. -/
theorem release_spec (I : Inv h s ext cli) {a : Nat} (hx : 0 < ext a) :
    ∃ s', release s a = some s' ∧ Inv h s' (set ext a (ext a - 1)) cli ∧ Frame s cli s' cli := by
  obtain ⟨k, hk⟩ : ∃ k, s.cells a = some k := by
    cases e : s.cells a with
    | none => rw [I.dead a e] at hx; cases hx
    | some k => exact ⟨k, rfl⟩
  unfold release
  rw [decr_eq hk (I.pos a k hk), Option.bind_some]
  dsimp only
  by_cases hr : k.rc - 1 = 0
  · rw [if_neg (by simp [hr])]
    have hc := I.count a k hk
    have hne : a ≠ s.empty := by rintro e; rw [if_pos e] at hc; omega
    rw [if_neg hne] at hc
    have h0 : ext a - 1 = 0 := by omega
    obtain ⟨s', e, I', _, F⟩ := free_last I hk hne
    exact ⟨s', e, by rw [h0]; exact I', F⟩
  · rw [if_pos hr]
    refine ⟨_, rfl, I.decr hk hx hr, ⟨fun b l l' hl hl' => ?_, rfl, fun _ _ _ => rfl⟩⟩
    have hl' : set _ _ _ b = _ := hl'
    by_cases hba : b = a
    · subst hba; rw [set_same] at hl'; cases hl'; rw [hk] at hl; cases hl
      exact ⟨rfl, txt_cells s _ s.tbl _⟩
    · rw [set_other _ _ hba, hl] at hl'; cases hl'
      exact ⟨rfl, txt_cells s _ s.tbl _⟩

/-- Lookup of a string that has lost its text. -/
theorem Inv.find_null (I : Inv h s ext cli) {a : Nat} {k : Cell} (hk : s.cells a = some k) (hb : k.bit = true)
    {k' : Cell} (hh : k'.hash = k.hash) (hr : k'.raw = .null) :
    ∀ {bs : List Nat}, (∀ b ∈ bs, b ∈ s.tbl) → a ∈ bs →
      ({ s with cells := set s.cells a (some k') } : St).find k.hash [] bs = some (some a)
  | [], _, ha => by cases ha
  | b :: bs, hbs, ha => by
    unfold St.find
    by_cases hba : b = a
    · subst hba
      rw [show ({ s with cells := set s.cells b (some k') } : St).cells b = some k' from set_same _ _ _]
      dsimp only
      rw [if_pos hh, hr]; rfl
    · obtain ⟨l, hl, hbit⟩ := (I.tbl b).1 (hbs b (.head _))
      have ha' : a ∈ bs := (List.mem_cons.1 ha).resolve_left (Ne.symm hba)
      have ih := I.find_null hk hb hh hr (bs := bs) (fun x hx => hbs x (.tail _ hx)) ha'
      rw [show ({ s with cells := set s.cells a (some k') } : St).cells b = some l from
        (set_other _ _ hba).trans hl]
      dsimp only
      rw [ih, txt_cells s _ s.tbl]
      obtain ⟨d, hd⟩ := I.readable hl
      rw [hd]
      dsimp only
      rw [if_neg (I.full b l d hl hd hbit)]
      split <;> rfl

/-- `cowl_string_release_copying_raw`. -/
theorem releaseRaw_spec (I : Inv h s ext cli) {w : Where} (hw : Unused s w) {a : Nat} (hx : 0 < ext a) :
    ∃ s' u c, releaseRaw w s a = some (s', u) ∧ s.text a = some c ∧
      Inv h s' (set ext a (ext a - 1)) (own cli u) ∧ Frame s cli s' cli ∧ Mine (own cli u) u ∧
      (∀ b, u = .buf b → cli b = false) ∧
      (u = .null ∨ s'.txt u = some c ∧ u ≠ .null) ∧ (u = .null → w = .no ∧ s'.cells a ≠ none) := by
  obtain ⟨k, hk⟩ : ∃ k, s.cells a = some k := by
    cases e : s.cells a with
    | none => rw [I.dead a e] at hx; cases hx
    | some k => exact ⟨k, rfl⟩
  obtain ⟨c, hc⟩ := I.readable hk
  have hmo : ∀ u, Mine (own cli u) u := by
    intro u
    cases u with
    | null => trivial
    | inl c => trivial
    | buf b => exact set_same _ _ _
  unfold releaseRaw
  rw [decr_eq hk (I.pos a k hk), Option.bind_some]
  dsimp only
  rw [set_same, Option.bind_some]
  by_cases hr : k.rc - 1 = 0
  · rw [if_neg (by simp [hr])]
    have hcount := I.count a k hk
    have hne : a ≠ s.empty := by rintro e; rw [if_pos e] at hcount; omega
    rw [if_neg hne] at hcount
    have h0 : ext a - 1 = 0 := by omega
    rw [h0, set_set]
    dsimp only
    have I1 := I.delCell hk hne
    have hfree : free { s with cells := set s.cells a (some { k with rc := k.rc - 1, raw := .null }) } a =
        some { s with cells := set s.cells a none, tbl := s.tbl.erase a } := by
      unfold free
      rw [show ({ s with cells := set s.cells a (some { k with rc := k.rc - 1, raw := .null }) } : St).cells a =
        some { k with rc := k.rc - 1, raw := .null } from set_same _ _ _, Option.bind_some]
      dsimp only
      by_cases hb : k.bit = true
      · rw [if_pos hb]
        have hat : a ∈ s.tbl := (I.tbl a).2 ⟨k, hk, hb⟩
        unfold remove
        rw [show ({ s with cells := set s.cells a (some { k with rc := k.rc - 1, raw := .null }) } : St).cells a =
          some { k with rc := k.rc - 1, raw := .null } from set_same _ _ _, Option.bind_some]
        dsimp only [St.txt]
        rw [Option.bind_some, I.find_null (k' := { k with rc := k.rc - 1, raw := .null }) hk hb rfl rfl (fun _ h => h) hat]
        simp [deinit]
      · rw [if_neg hb]
        have : a ∉ s.tbl := by
          intro h1; obtain ⟨x, hx, e⟩ := (I.tbl a).1 h1
          rw [hk] at hx; cases hx; exact hb e
        rw [List.erase_of_not_mem this]
        simp [deinit]
    rw [hfree]
    refine ⟨_, k.raw, c, rfl, (text_eq hk).trans hc, I1, ⟨fun b l l' hl hl' => ?_, rfl, fun _ _ _ => rfl⟩,
      hmo _, fun b e => ?_, .inr ⟨(txt_cells s _ _ _).trans hc, I.nonnull a k hk⟩,
      fun e => absurd e (I.nonnull a k hk)⟩
    · have hl' : set _ _ _ b = _ := hl'
      have hba : b ≠ a := by rintro rfl; rw [set_same] at hl'; cases hl'
      rw [set_other _ _ hba, hl] at hl'; cases hl'
      exact ⟨rfl, txt_cells s _ _ _⟩
    · cases e' : cli b with
      | false => rfl
      | true => exact absurd e (I.excl a k b e' hk)
  · rw [if_pos hr]
    have I1 := I.decr hk hx hr
    unfold dup
    dsimp only
    rw [show ({ s with cells := set s.cells a (some { k with rc := k.rc - 1 }) } : St).txt k.raw = some c from
      (txt_cells s _ s.tbl _).trans hc, Option.map_some]
    have hw1 : Unused { s with cells := set s.cells a (some { k with rc := k.rc - 1 }) } w := by
      cases w with
      | no => trivial
      | inl => trivial
      | at' b => exact hw
    obtain ⟨I2, hm, h1, h2, h3, h4, h5, h6⟩ := I1.fresh hw1 c
    refine ⟨(St.fresh _ w c).1, (St.fresh _ w c).2, c, rfl, (text_eq hk).trans hc, I2, ⟨fun b l l' hl hl' => ?_, h3, fun b hb _ => ?_⟩, hm,
      fun b e => ?_, h5, fun e => ⟨?_, ?_⟩⟩
    · rw [h1] at hl'
      have hl' : set _ _ _ b = _ := hl'
      by_cases hba : b = a
      · subst hba; rw [set_same] at hl'; cases hl'; rw [hk] at hl; cases hl
        exact ⟨rfl, (h4 b _ (set_same _ _ _)).trans (txt_cells s _ s.tbl _)⟩
      · rw [set_other _ _ hba, hl] at hl'; cases hl'
        exact ⟨rfl, (h4 b l ((set_other _ _ hba).trans hl)).trans (txt_cells s _ s.tbl _)⟩
    · cases w with
      | no => rfl
      | inl => rfl
      | at' b' =>
        refine set_other _ _ ?_
        rintro rfl; exact (I.live b).2 (.inl hb) hw
    · cases w with
      | no => cases e
      | inl => cases e
      | at' b' =>
        have e : b' = b := UStr.buf.inj e
        rw [← e]
        cases e' : cli b' with
        | false => rfl
        | true => exact absurd hw ((I.live b').2 (.inl e'))
    · cases w with
      | no => rfl
      | inl => cases e
      | at' b' => cases e
    · rw [h1]; show set _ _ _ a ≠ none; rw [set_same]; exact fun e => by cases e

/-- `cowl_string_intern`. -/
theorem intern_spec (I : Inv h s ext cli) (put : Bool) {a : Nat} (ha : s.cells a ≠ none) :
    ∃ s' r c, intern put s a = some (s', r) ∧ s.text a = some c ∧ Inv h s' ext cli ∧ Frame s cli s' cli ∧
      (∀ b k, s.cells b = some k → ∃ k', s'.cells b = some k') ∧
      (r = none → s' = s) ∧ ∀ x, r = some x → s'.text x = some c ∧ (x ∈ s'.tbl ∨ c = [] ∧ x = s.empty) := by
  obtain ⟨k, hk⟩ := Option.ne_none_iff_exists'.1 ha
  obtain ⟨c, hc⟩ := I.readable hk
  have F : Frame s cli s cli :=
    ⟨fun a k k' hk hk' => by rw [hk] at hk'; cases hk'; exact ⟨rfl, rfl⟩, rfl, fun _ _ _ => rfl⟩
  have S : ∀ b k, s.cells b = some k → ∃ k', s.cells b = some k' := fun b k hk => ⟨k, hk⟩
  have htx : s.text a = some c := (text_eq hk).trans hc
  unfold intern
  rw [hk, Option.bind_some]
  by_cases hb : k.bit = true
  · rw [if_pos hb]
    exact ⟨s, some a, c, rfl, htx, I, F, S, fun e => (by cases e), fun x e => by
      cases e; exact ⟨htx, .inl ((I.tbl a).2 ⟨k, hk, hb⟩)⟩⟩
  · rw [if_neg hb, hc, Option.bind_some]
    have hb : k.bit = false := by simpa using hb
    by_cases h0 : c = []
    · subst h0
      rw [if_pos (show ([] : Str).length = 0 from rfl)]
      obtain ⟨ke, he, her, _⟩ := I.emp
      exact ⟨s, some s.empty, [], rfl, htx, I, F, S, fun e => (by cases e), fun x e => by
        cases e; exact ⟨by rw [text_eq he, her]; rfl, .inr ⟨rfl, rfl⟩⟩⟩
    · rw [if_neg (by simpa using h0)]
      cases put with
      | false => exact ⟨s, none, c, rfl, htx, I, F, S, fun _ => rfl, fun x e => (by cases e)⟩
      | true =>
        rw [if_neg (by decide)]
        obtain ⟨r, e, h1, h2⟩ := I.find c (bs := s.tbl) fun _ h => h
        rw [← I.hash a k c hk hc] at e
        rw [e]
        cases r with
        | some b =>
          obtain ⟨hbt, ht⟩ := h1 b rfl
          exact ⟨s, some b, c, rfl, htx, I, F, S, fun e => (by cases e), fun x e => by cases e; exact ⟨ht, .inl hbt⟩⟩
        | none =>
          refine ⟨_, some a, c, rfl, htx, I.intern hk hb hc h0 (h2 rfl), ⟨fun b l l' hl hl' => ?_, rfl,
            fun _ _ _ => rfl⟩, fun b l hl => ?_, fun e => (by cases e), fun x e => ?_⟩
          · have hl' : set _ _ _ b = _ := hl'
            by_cases hba : b = a
            · subst hba; rw [set_same] at hl'; cases hl'; rw [hk] at hl; cases hl
              exact ⟨rfl, txt_cells s _ _ _⟩
            · rw [set_other _ _ hba, hl] at hl'; cases hl'
              exact ⟨rfl, txt_cells s _ _ _⟩
          · show ∃ k', set _ _ _ b = _
            by_cases hba : b = a
            · subst hba; exact ⟨_, set_same _ _ _⟩
            · exact ⟨l, (set_other _ _ hba).trans hl⟩
          · cases e
            refine ⟨?_, .inl (.head _)⟩
            rw [text_eq (set_same _ _ _)]
            exact (txt_cells s _ _ _).trans hc

end Cowl.SBuf
