import Verif.FuncOwnSpec
import Verif.OwnOps
/-!
# Lemmas on the memory of the functional reader: what a call leaves alone
-/
namespace Cowl.YOwn
open Cowl.Own

/-- Nothing goes away; only the objects in the list change, and only they get new references, or
objects that are new. -/
structure Grow (s s' : St) (F : List Nat) : Prop where
  same : ∀ b, b ∉ F → s.live b = true → s'.cell b = s.cell b
  refs : ∀ b x, x ∈ refsAt s' b → x ∈ refsAt s b ∨ x ∈ F ∨ s.live x = false
  live : ∀ b, s.live b = true → s'.live b = true

/-- Nothing is added. -/
def Shrink (s s' : St) : Prop := ∀ b c, s'.cell b = some c → s.cell b = some c

/-- What is still there is the same, but for the objects in the list. -/
structure Moves (s s' : St) (F : List Nat) : Prop where
  same : ∀ b, b ∉ F → s.live b = true → s'.live b = true → s'.cell b = s.cell b
  refs : ∀ b x, x ∈ refsAt s' b → x ∈ refsAt s b ∨ x ∈ F ∨ s.live x = false

theorem Grow.refl (s : St) (F : List Nat) : Grow s s F := ⟨fun _ _ _ => rfl, fun _ _ h => .inl h, fun _ h => h⟩

theorem Grow.trans {s s' s'' : St} {F : List Nat} (h : Grow s s' F) (h' : Grow s' s'' F) : Grow s s'' F where
  same b hb hl := (h'.same b hb (h.live b hl)).trans (h.same b hb hl)
  refs b x hx := by
    rcases h'.refs b x hx with hx | hx | hx
    · exact h.refs b x hx
    · exact .inr (.inl hx)
    · refine .inr (.inr ?_)
      rcases hl : s.live x with _ | _
      · rfl
      · rw [h.live x hl] at hx; exact absurd hx (by simp)
  live b hb := h'.live b (h.live b hb)

theorem Grow.mono {s s' : St} {F G : List Nat} (h : Grow s s' F) (hs : ∀ x ∈ F, x ∈ G) : Grow s s' G where
  same b hb hl := h.same b (fun hf => hb (hs b hf)) hl
  refs b x hx := (h.refs b x hx).imp_right (.imp_left (hs x))
  live := h.live

theorem Shrink.refl (s : St) : Shrink s s := fun _ _ h => h

theorem Shrink.trans {s s' s'' : St} (h : Shrink s s') (h' : Shrink s' s'') : Shrink s s'' :=
  fun b c hc => h b c (h' b c hc)

theorem Shrink.refs {s s' : St} (h : Shrink s s') {b x : Nat} (hx : x ∈ refsAt s' b) : x ∈ refsAt s b := by
  obtain ⟨c, hc⟩ := live_iff_cell.mp (mem_refsAt_live hx)
  rw [refsAt_some hc] at hx
  rw [refsAt_some (h b c hc)]
  exact hx

theorem Grow.shrink {s s' s'' : St} {F : List Nat} (h : Grow s s' F) (h' : Shrink s' s'') : Moves s s'' F where
  same b hb hl hl' := by
    obtain ⟨c, hc⟩ := live_iff_cell.mp hl'
    rw [hc, ← h.same b hb hl]
    exact (h' b c hc).symm
  refs b x hx := h.refs b x (h'.refs hx)

theorem Grow.moves {s s' : St} {F : List Nat} (h : Grow s s' F) : Moves s s' F := h.shrink (.refl _)

theorem Shrink.moves {s s' : St} (h : Shrink s s') : Moves s s' [] := (Grow.refl s []).shrink h

/-! ## Calls -/

theorem grow_new {s : St} {a : Nat} {c : Cell} (h : s.cell a = none) : Grow s (s.new a c) c.refs where
  same b _ hl := by
    have : b ≠ a := fun e => by rw [e, dead_iff_cell.mpr h] at hl; exact absurd hl (by simp)
    show (if b = a then some c else s.cell b) = _
    rw [if_neg this]
  refs b x hx := by
    rw [refsAt_new] at hx
    by_cases e : b = a
    · rw [if_pos e] at hx; exact .inr (.inl hx)
    · rw [if_neg e] at hx; exact .inl hx
  live b hl := by
    rw [live_new]
    by_cases e : b = a
    · simp [e]
    · simp [e, hl]

theorem grow_same {s s' : St} {F : List Nat} (h : ∀ b, s'.cell b = s.cell b) : Grow s s' F where
  same b _ _ := h b
  refs b x hx := .inl (by unfold refsAt at hx ⊢; rw [h] at hx; exact hx)
  live b hl := by unfold St.live at hl ⊢; rw [h]; exact hl

/-- The bit of an object changes. -/
theorem grow_bit {s s' : St} {a : Nat} {F : List Nat} (hc : ∀ b, b ≠ a → s'.cell b = s.cell b)
    (hr : ∀ b, refsAt s' b = refsAt s b) (ha : s'.live a = true) (h : a ∈ F ∨ s.live a = false) :
    Grow s s' F where
  same b hb hl := hc b fun e => by
    subst e
    rcases h with h | h
    · exact hb h
    · rw [h] at hl; exact absurd hl (by simp)
  refs b x hx := .inl (by rw [hr] at hx; exact hx)
  live b hl := by
    by_cases e : b = a
    · rw [e]; exact ha
    · unfold St.live at hl ⊢; rw [hc b e]; exact hl

/-- A pointer is returned, or NULL; the caller owns a reference to it. What is used is in the list, and
the result is no vector that was there before. -/
structure Gets (s s' : St) (r : Option Nat) (F : List Nat) : Prop where
  inv : Inv s' []
  ext : ∀ b, s'.ext b = s.ext b + if r = some b then 1 else 0
  moves : Moves s s' F
  kind : ∀ a, r = some a → ¬ IsVec s a

/-- A new composite is returned that holds what is in the list. -/
structure Makes (s s' : St) (r : Nat) (F : List Nat) : Prop where
  gets : Gets s s' (some r) F
  holds : ∀ x ∈ F, x ∈ refsAt s' r

/-- A vector that is not empty. -/
def Full (s : St) (a : Nat) : Prop := ∃ b items, s.cell a = some (.vec b items) ∧ items ≠ []

theorem Full.isVec {s : St} {a : Nat} (h : Full s a) : IsVec s a := by
  obtain ⟨b, l, h, _⟩ := h; exact ⟨b, l, h⟩

theorem not_vec {s : St} {a : Nat} (h : s.cell a = none) : ¬ IsVec s a := by
  rintro ⟨b, l, hc⟩; rw [h] at hc; exact absurd hc (by simp)

theorem makes_new {s : St} (hi : Inv s []) {a : Nat} {c : Cell} (h : s.cell a = none)
    (hr : ∀ f ∈ c.refs, s.live f = true) (hw : c.releases = some c.refs) : Makes s (s.new a c) a c.refs where
  gets := ⟨inv_new hi h hr hw, (made_new hi h hr hw).ext, (grow_new h).moves,
    fun b e => by cases e; exact not_vec h⟩
  holds x hx := by rw [refsAt_new, if_pos rfl]; exact hx

theorem make_raw {s : St} (hi : Inv s []) {a : Nat} {t : OType} {fs : List Nat} {opt : Option Nat} {u : Nat}
    (hm : s.cell a = none) (hf : ∀ x ∈ fs, s.live x = true) (ho : ∀ x ∈ opt, s.live x = true)
    (ht : t ≠ .literal) (hn : fs.length = t.fieldCount) :
    ∃ s', s.make (some a) t (fs.map some) opt u = some (s', some a) ∧ Grow s s' (fs ++ opt.toList) ∧
      Makes s s' a (fs ++ opt.toList) := by
  have hr : ∀ x ∈ fs ++ opt.toList, s.live x = true := by
    intro x hx
    rcases List.mem_append.mp hx with hx | hx
    · exact hf x hx
    · exact ho x (by simpa using hx)
  refine ⟨s.new a (.comp t opt.isSome (fs ++ opt.toList) u), ?_, grow_new hm,
    makes_new hi hm hr (releases_opt ht hn)⟩
  simp only [St.make, notNull_some, List.all_eq_true.mpr hr, if_true]

theorem annot_raw {s : St} (hi : Inv s []) {a : Nat} {t : OType} {fs : List Nat} {opt : Option Nat}
    (hm : s.cell a = none) (hf : ∀ x ∈ fs, s.live x = true) (ho : ∀ x ∈ opt, Full s x)
    (ht : t ≠ .literal) (hn : fs.length = t.fieldCount) :
    ∃ s', s.makeAnnot (some a) t (fs.map some) opt = some (s', some a) ∧ Grow s s' (fs ++ opt.toList) ∧
      Makes s s' a (fs ++ opt.toList) := by
  cases opt with
  | none => exact make_raw (u := 0) hi hm hf (by simp) ht hn
  | some v =>
    obtain ⟨b, items, hv, hne⟩ := ho v rfl
    obtain ⟨s', h1, h2, h3⟩ := make_raw (u := 0) (opt := some v) hi hm hf
      (by intro x hx; cases hx; exact live_iff_cell.mpr ⟨_, hv⟩) ht hn
    refine ⟨s', ?_, h2, h3⟩
    have : items.isEmpty = false := by cases items with | nil => exact absurd rfl hne | cons => rfl
    simp only [St.makeAnnot, hv, this]
    exact h1

theorem make_ok {s : St} (hi : Inv s []) {a : Nat} {k : Ctor} {xs : List Nat} {p : Option Nat}
    (hm : s.cell a = none) (hk : k ∈ ctors) (hl : xs.length = k.n) (hx : ∀ x ∈ xs, s.live x = true)
    (hp : ∀ x ∈ p, s.live x = true) (ha : k.form = .annot → ∀ x ∈ p, Full s x) (hn : k.form = .plain → p = none) :
    ∃ s', s.step (.make (some a) k xs p 0) = some (s', some a) ∧ Makes s s' a (xs ++ p.toList) := by
  obtain ⟨kn, kt⟩ := ctors_ok k hk
  unfold St.step
  dsimp only
  cases hf : k.form with
  | plain =>
    obtain ⟨s', h1, _, h3⟩ := make_raw (u := 0) (opt := none) hi hm hx (by simp) kt (hl.trans kn)
    rw [hn hf]
    exact ⟨s', h1, h3⟩
  | opt =>
    obtain ⟨s', h1, _, h3⟩ := make_raw (u := 0) hi hm hx hp kt (hl.trans kn)
    exact ⟨s', h1, h3⟩
  | uint =>
    obtain ⟨s', h1, _, h3⟩ := make_raw (u := 0) hi hm hx hp kt (hl.trans kn)
    exact ⟨s', h1, h3⟩
  | annot =>
    obtain ⟨s', h1, _, h3⟩ := annot_raw hi hm hx (ha hf) kt (hl.trans kn)
    exact ⟨s', h1, h3⟩

theorem chain_ok {s : St} (hi : Inv s []) {a x y : Nat} {p : Option Nat} (hm : s.cell a = none)
    (hx : IsVec s x) (hy : s.live y = true) (hp : ∀ z ∈ p, Full s z) :
    ∃ s', s.step (.chain (some a) x y p) = some (s', some a) ∧ Makes s s' a ([x, y] ++ p.toList) := by
  obtain ⟨b, items, hc⟩ := hx
  obtain ⟨s₁, g1, g2, g3, g4, _, g6⟩ := setBit_spec hi hc rfl
  have hlx : s.live x = true := live_iff_cell.mpr ⟨_, hc⟩
  have gl : Grow s s₁ ([x, y] ++ p.toList) :=
    grow_bit (fun b hb => by rw [g3, if_neg hb]) g6 (live_iff_cell.mpr ⟨_, by rw [g3, if_pos rfl]⟩) (.inl (by simp))
  have hm1 : s₁.cell a = none := by
    have : a ≠ x := fun e => by rw [e, hc] at hm; exact absurd hm (by simp)
    rw [g3, if_neg this]; exact hm
  obtain ⟨s₂, k1, k2, k3⟩ := annot_raw (t := .aSubObjProp) (fs := [x, y]) (opt := p) g2 hm1
    (by
      intro z hz
      simp only [List.mem_cons, List.not_mem_nil, or_false] at hz
      rcases hz with rfl | rfl
      · exact gl.live _ hlx
      · exact gl.live _ hy)
    (by
      intro z hz
      obtain ⟨b', l', h, hne⟩ := hp z hz
      by_cases e : z = x
      · refine ⟨true, items, by rw [g3, if_pos e]; rfl, ?_⟩
        rw [e, hc] at h
        obtain ⟨_, rfl⟩ : _ ∧ items = l' := by simpa using h
        exact hne
      · exact ⟨b', l', by rw [g3, if_neg e]; exact h, hne⟩) (by decide) rfl
  refine ⟨s₂, ?_, ⟨k3.gets.inv, fun b => by rw [k3.gets.ext, g4], (gl.trans k2).moves,
    fun b e => by cases e; exact not_vec hm⟩, k3.holds⟩
  show s.chain (some a) x y p = _
  unfold St.chain
  rw [g1]
  exact k1

/-- The argument of `HasKey`. -/
theorem keyArg_ok {s : St} (hi : Inv s []) {m : Nat} {p : Option Nat} (hm : s.cell m = none)
    (hp : ∀ x ∈ p, s.live x = true) :
    ∃ s' r, s.keyArg (some m) p = some (s', some r) ∧ Made s s' (some r) ∧ Grow s s' p.toList ∧
      (r = m ∨ p = some r) ∧ (∀ x ∈ p, x = r) := by
  cases p with
  | some v =>
    obtain ⟨s', h1, h2, h3, h4, h5⟩ := retain_spec hi (hp v rfl)
    obtain ⟨s₂, r₂, e1, e2, _⟩ := keyArg_spec (m := some m) hi (by rintro b e; cases e; exact hm) hp
    have : s.keyArg (some m) (some v) = some (s', some v) := by simp only [St.keyArg, h1]; rfl
    rw [this] at e1
    obtain ⟨rfl, rfl⟩ := Prod.mk.inj (Option.some.inj e1)
    exact ⟨s', v, this, e2, grow_same fun b => by rw [h3], .inr rfl, fun x hx => by cases hx; rfl⟩
  | none =>
    have : s.keyArg (some m) none = some (s.new m (.vec false []), some m) := by
      simp [St.keyArg, St.vector]
    exact ⟨_, m, this, made_new hi hm (by simp [Cell.refs]) rfl, (grow_new hm).mono (by simp [Cell.refs]),
      .inl rfl, by simp⟩

theorem shrink_release {s : St} (hi : Inv s []) {a : Nat} (h : 0 < s.ext a) :
    ∃ s', s.release a = some s' ∧ Inv s' [] ∧ Shrink s s' ∧
      ∀ b, s'.ext b = if b = a then s.ext b - 1 else s.ext b := by
  obtain ⟨s', h1, h2, h3, h4, _⟩ := release_spec hi h
  exact ⟨s', h1, h2, h3, h4⟩

theorem hasKey_ok {s : St} (hi : Inv s []) {m₁ m₂ a x : Nat} {o d p : Option Nat}
    (h1 : s.cell m₁ = none) (h2 : s.cell m₂ = none) (ha : s.cell a = none) (h12 : m₁ ≠ m₂) (h1a : m₁ ≠ a)
    (h2a : m₂ ≠ a) (hx : s.live x = true) (ho : ∀ y ∈ o, s.live y = true) (hd : ∀ y ∈ d, s.live y = true)
    (hp : ∀ z ∈ p, Full s z) :
    ∃ s', s.step (.hasKey (some m₁) (some m₂) (some a) x o d p) = some (s', some a) ∧
      Makes s s' a ([x] ++ o.toList ++ d.toList ++ p.toList) := by
  obtain ⟨s₁, r₁, e1, e2, e3, e4, e5⟩ := keyArg_ok hi h1 ho
  have dead1 : ∀ c, s.cell c = none → c ≠ m₁ → s₁.cell c = none := fun c hc hne => e2.none c hc fun e => by
    rcases e4 with e4 | e4
    · exact hne (by rw [← e4]; exact (Option.some.inj e).symm)
    · have := ho c (by rw [e4, e]; rfl)
      rw [dead_iff_cell.mpr hc] at this; exact absurd this (by simp)
  obtain ⟨s₂, r₂, f1, f2, f3, f4, f5⟩ := keyArg_ok (p := d) e2.inv (dead1 m₂ h2 h12.symm) (fun y hy => e2.live (hd y hy))
  have ha2 : s₂.cell a = none := f2.none a (dead1 a ha h1a.symm) fun e => by
    rcases f4 with f4 | f4
    · exact h2a (by rw [← f4]; exact (Option.some.inj e))
    · have := hd a (by rw [f4, e]; rfl)
      rw [dead_iff_cell.mpr ha] at this; exact absurd this (by simp)
  have l1 : s₂.live r₁ = true := f2.live (live_of_ext e2.inv (by rw [e2.ext]; simp))
  have l2 : s₂.live r₂ = true := live_of_ext f2.inv (by rw [f2.ext]; simp)
  obtain ⟨s₃, g1, g2, g3⟩ := annot_raw (t := .aHasKey) (fs := [x, r₁, r₂]) (opt := p) f2.inv ha2
    (by
      intro z hz
      simp only [List.mem_cons, List.not_mem_nil, or_false] at hz
      rcases hz with rfl | rfl | rfl
      · exact f2.live (e2.live hx)
      · exact l1
      · exact l2)
    (by
      intro z hz
      obtain ⟨b, l, h, hne⟩ := hp z hz
      exact ⟨b, l, f2.more _ _ (e2.more _ _ h), hne⟩) (by decide) rfl
  have x3 : ∀ b, s₃.ext b = s.ext b + (if r₁ = b then 1 else 0) + (if r₂ = b then 1 else 0) + (if a = b then 1 else 0) :=
    fun b => by rw [g3.gets.ext, f2.ext, e2.ext]; simp
  obtain ⟨s₄, k1, k2, k3, k4⟩ := shrink_release g3.gets.inv (a := r₁) (by rw [x3]; simp; omega)
  obtain ⟨s₅, n1, n2, n3, n4⟩ := shrink_release k2 (a := r₂) (by
    rw [k4, x3]
    by_cases e : r₂ = r₁
    · rw [if_pos e]; simp [e]; omega
    · rw [if_neg e]; simp; omega)
  have hext : ∀ b, s₅.ext b = s.ext b + if some a = some b then 1 else 0 := by
    intro b
    rw [n4, k4, x3]
    by_cases p1 : b = r₁ <;> by_cases p2 : b = r₂
    · subst p1; subst p2; simp
    · have : r₂ ≠ b := fun h => p2 h.symm
      subst p1; simp [p2, this]
    · have : r₁ ≠ b := fun h => p1 h.symm
      subst p2; simp [p1, this]
    · have q1 : r₁ ≠ b := fun h => p1 h.symm
      have q2 : r₂ ≠ b := fun h => p2 h.symm
      simp [p1, p2, q1, q2]
  refine ⟨s₅, ?_, ⟨n2, hext, ⟨?_, ?_⟩, fun b e => by cases e; exact not_vec ha⟩, ?_⟩
  · show s.hasKey (some m₁) (some m₂) (some a) x o d p = _
    unfold St.hasKey
    rw [e1]; dsimp only
    rw [f1]; dsimp only
    have g1' : s₂.makeAnnot (some a) .aHasKey [some x, some r₁, some r₂] p = some (s₃, some a) := g1
    rw [g1']; dsimp only [St.releaseOpt]
    rw [k1]; dsimp only
    rw [n1]; rfl
  · intro b hb hl hl'
    obtain ⟨c, hc⟩ := live_iff_cell.mp hl'
    obtain ⟨c', hc'⟩ := live_iff_cell.mp hl
    have q := k3 b c (n3 b c hc)
    have : s₃.cell b = some c' := by
      rw [← hc', ← e3.same b (by simp at hb ⊢; exact hb.2.1) hl,
        ← f3.same b (by simp at hb ⊢; exact hb.2.2.1) (e3.live b hl)]
      -- the composite is new
      have hba : b ≠ a := fun e => by rw [e, dead_iff_cell.mpr ha] at hl; exact absurd hl (by simp)
      have hlb := f3.live b (e3.live b hl)
      obtain ⟨c₂, hc₂⟩ := live_iff_cell.mp hlb
      have : s₃ = s₂.new a (.comp .aHasKey p.isSome ([x, r₁, r₂] ++ p.toList) 0) := by
        have hz : s₂.make (some a) .aHasKey ([x, r₁, r₂].map some) p 0 = some (s₃, some a) := by
          cases hp' : p with
          | none => rw [hp'] at g1; exact g1
          | some v =>
            obtain ⟨b, l, h, hne⟩ := hp v hp'
            have hv := f2.more _ _ (e2.more _ _ h)
            have : l.isEmpty = false := by cases l with | nil => exact absurd rfl hne | cons => rfl
            rw [hp'] at g1
            simp only [St.makeAnnot, hv, this] at g1
            exact g1
        simp only [St.make, notNull_some] at hz
        split at hz
        · exact (Prod.mk.inj (Option.some.inj hz)).1.symm
        · exact absurd hz (by simp)
      rw [this]
      show (if b = a then _ else s₂.cell b) = _
      rw [if_neg hba]
    rw [hc, hc', ← q, this]
  · intro b y hy
    have hy := k3.refs (n3.refs hy)
    rcases g3.gets.moves.refs b y hy with h | h | h
    · rcases f3.refs b y h with h | h | h
      · rcases e3.refs b y h with h | h | h
        · exact .inl h
        · exact .inr (.inl (by simp at h ⊢; simp [h]))
        · exact .inr (.inr h)
      · exact .inr (.inl (by simp at h ⊢; simp [h]))
      · refine .inr (.inr ?_)
        rcases hl : s.live y with _ | _
        · rfl
        · rw [e3.live y hl] at h; exact absurd h (by simp)
    · have key : ∀ {q : Option Nat} {m r : Nat}, s.cell m = none → (r = m ∨ q = some r) →
          (r ∈ q.toList ∨ s.live r = false) := by
        rintro q m r hm (rfl | rfl)
        · exact .inr (dead_iff_cell.mpr hm)
        · exact .inl (by simp)
      simp only [List.cons_append, List.nil_append, List.mem_cons] at h
      rcases h with rfl | rfl | rfl | h
      · exact .inr (.inl (by simp))
      · rcases key h1 e4 with h | h
        · exact .inr (.inl (by simp at h ⊢; simp [h]))
        · exact .inr (.inr h)
      · rcases key h2 f4 with h | h
        · exact .inr (.inl (by simp at h ⊢; simp [h]))
        · exact .inr (.inr h)
      · exact .inr (.inl (by simp at h ⊢; simp [h]))
    · refine .inr (.inr ?_)
      rcases hl : s.live y with _ | _
      · rfl
      · rw [f2.live (e2.live hl)] at h; exact absurd h (by simp)
  · intro y hy
    have hla : s₅.live a = true := live_of_ext n2 (by rw [hext]; simp)
    obtain ⟨c, hc⟩ := live_iff_cell.mp hla
    have q := k3 a c (n3 a c hc)
    rw [refsAt_some hc, ← refsAt_some q]
    apply g3.holds
    simp only [List.append_assoc, List.mem_append, List.mem_singleton] at hy
    rcases hy with rfl | hy | hy | hy
    · simp
    · have := e5 y (by simpa using hy); simp [this]
    · have := f5 y (by simpa using hy); simp [this]
    · simp at hy ⊢; simp [hy]

/-! ## Strings, entities and literals -/

theorem getLeaf_ok {s : St} (hi : Inv s []) {l : Leaf} (hb : ∀ a, l.block = some a → s.cell a = none)
    (hf : l.Fair s) :
    ∃ s' r, getLeaf s l = some (s', r) ∧ Gets s s' r [] ∧ Made s s' r ∧ Grow s s' [] ∧
      (r = none ↔ l = .null) ∧ (∀ a, r = some a → s.cell a = none → l.block = some a) := by
  cases l with
  | null =>
    have hm : Made s s none := made_same hi rfl rfl
    exact ⟨s, none, rfl, ⟨hi, hm.ext, (Grow.refl s []).moves, by simp⟩, hm, .refl s [], by simp, by simp⟩
  | fresh m o =>
    have h := makes_new hi (c := .leaf o) (hb m rfl) (by simp [Cell.refs]) rfl
    exact ⟨_, some m, rfl, h.gets, made_new hi (hb m rfl) (by simp [Cell.refs]) rfl, grow_new (hb m rfl), by simp,
      fun a e _ => e⟩
  | shared a =>
    obtain ⟨o, hc⟩ := hf
    have hl : s.live a = true := live_iff_cell.mpr ⟨_, hc⟩
    obtain ⟨s', h1, h2, h3, h4, _⟩ := retain_spec hi hl
    have hx : ∀ b, s'.ext b = s.ext b + if some a = some b then 1 else 0 := fun b => by
      rw [h4]
      by_cases e : b = a
      · subst e; simp
      · have e' : ¬ a = b := fun h => e h.symm
        simp [e, e']
    refine ⟨s', some a, by simp [getLeaf, hc, St.step, h1], ⟨h2, hx, (grow_same fun b => by rw [h3]).moves, ?_⟩,
      ⟨h2, fun b c h => by rw [h3]; exact h, fun b h _ => by rw [h3]; exact h, hx⟩,
      grow_same fun b => by rw [h3], by simp, ?_⟩
    · rintro b e ⟨_, _, hv⟩; cases e; rw [hc] at hv; exact absurd hv (by simp)
    · intro b e hn; cases e; rw [hc] at hn; exact absurd hn (by simp)

theorem retain_ok {s : St} (hi : Inv s []) {a : Nat} (hl : s.live a = true) :
    ∃ s', s.step (.retain a) = some (s', some a) ∧ Made s s' (some a) ∧ Grow s s' [] := by
  obtain ⟨s', h1, h2, h3, h4, _⟩ := retain_spec hi hl
  refine ⟨s', by simp [St.step, h1], ⟨h2, fun b c h => by rw [h3]; exact h, fun b h _ => by rw [h3]; exact h,
    fun b => ?_⟩, grow_same fun b => by rw [h3]⟩
  rw [h4]
  by_cases e : b = a
  · subst e; simp
  · have e' : ¬ a = b := fun h => e h.symm
    simp [e, e']

/-- A literal is made. -/
theorem literal_ok {s : St} (hi : Inv s []) {a v t : Nat} {isLang : Bool} (hm : s.cell a = none)
    (hv : s.live v = true) (ht : s.live t = true) :
    ∃ s', s.step (.literal (some a) v t isLang) = some (s', some a) ∧ Made s s' (some a) ∧ Grow s s' [v, t] := by
  obtain ⟨s₁, h1, h2, h3, h4⟩ := make_spec (m := some a) (t := .literal) (fs := [v, t]) (opt := none) (u := 0) hi
    (by rintro b e; cases e; exact hm) (by simp [hv, ht]) (by simp) rfl
  have hs : s₁ = s.new a (.comp .literal false [v, t] 0) := by
    simp only [St.make, notNull_some] at h1
    split at h1
    · exact (Prod.mk.inj (Option.some.inj h1)).1.symm
    · exact absurd h1 (by simp)
  have hg : Grow s s₁ [v, t] := by rw [hs]; exact grow_new hm
  obtain ⟨s', k1, k2, _⟩ := literal_spec (m := some a) (isLang := isLang) hi (by rintro b e; cases e; exact hm) hv ht
    (by simp)
  refine ⟨s', k1, k2, ?_⟩
  have h1' : s.make (some a) .literal [some v, some t] none 0 = some (s₁, some a) := h1
  unfold St.literal at k1
  rw [h1'] at k1
  dsimp only at k1
  cases isLang with
  | false =>
    simp only [Bool.false_eq_true, if_false] at k1
    obtain ⟨rfl, _⟩ := Prod.mk.inj (Option.some.inj k1)
    exact hg
  | true =>
    obtain ⟨s₂, g1, g2, g3, g4, g5, g6⟩ := setBit_spec h2.inv (h4 a rfl) rfl
    simp only [if_true, g1] at k1
    obtain ⟨rfl, _⟩ := Prod.mk.inj (Option.some.inj k1)
    have hl₂ : ∀ b, s₁.live b = true → s₂.live b = true := fun b hl => by
      by_cases e : b = a
      · rw [e]; exact live_iff_cell.mpr ⟨_, by rw [g3, if_pos rfl]⟩
      · obtain ⟨c, hc⟩ := live_iff_cell.mp hl
        exact live_iff_cell.mpr ⟨c, by rw [g3, if_neg e]; exact hc⟩
    refine ⟨fun b hb hl => ?_, fun b x hx => ?_, fun b hl => hl₂ b (hg.live b hl)⟩
    · have : b ≠ a := fun e => by rw [e, dead_iff_cell.mpr hm] at hl; exact absurd hl (by simp)
      rw [g3, if_neg this]; exact hg.same b hb hl
    · rw [g6] at hx; exact hg.refs b x hx

/-- Two local references are released. -/
theorem release_pair {s s₁ s₂ s₃ : St} {v t a : Nat} (h1 : Made s s₁ (some v)) (h2 : Made s₁ s₂ (some t))
    (h3 : Made s₂ s₃ (some a)) :
    ∃ s₄ s₅, s₃.release v = some s₄ ∧ s₄.release t = some s₅ ∧ Inv s₅ [] ∧ Shrink s₃ s₅ ∧
      ∀ b, s₅.ext b = s.ext b + if some a = some b then 1 else 0 := by
  have x3 : ∀ b, s₃.ext b = s.ext b + (if v = b then 1 else 0) + (if t = b then 1 else 0) + (if a = b then 1 else 0) :=
    fun b => by rw [h3.ext, h2.ext, h1.ext]; simp
  obtain ⟨s₄, k1, k2, k3, k4⟩ := shrink_release h3.inv (a := v) (by rw [x3]; simp; omega)
  obtain ⟨s₅, n1, n2, n3, n4⟩ := shrink_release k2 (a := t) (by
    rw [k4, x3]
    by_cases e : t = v
    · rw [if_pos e]; simp [e]; omega
    · rw [if_neg e]; simp; omega)
  refine ⟨s₄, s₅, k1, n1, n2, k3.trans n3, fun b => ?_⟩
  rw [n4, k4, x3]
  by_cases p1 : b = v <;> by_cases p2 : b = t
  · subst p1; subst p2; simp
  · have : t ≠ b := fun h => p2 h.symm
    subst p1; simp [p2, this]
  · have : v ≠ b := fun h => p1 h.symm
    subst p2; simp [p1, this]
  · have q1 : v ≠ b := fun h => p1 h.symm
    have q2 : t ≠ b := fun h => p2 h.symm
    simp [p1, p2, q1, q2]

/-- `cowl_literal` on objects that are there. -/
theorem litRun_ok {s : St} (hi : Inv s []) {c : Choice} {a v : Nat} {t : Option Nat} (hm : c.m₁ = some a)
    (hb : Blocks s [c.m₁, c.value.bind Leaf.block, c.tag.bind Leaf.block])
    (hval : ∀ l ∈ c.value, l.Fair s) (htag : ∀ l ∈ c.tag, l.Fair s) (hlit : t = none → c.tag ≠ none)
    (hplain : c.bare = false) (hv : s.live v = true)
    (ht : ∀ x ∈ t, s.live x = true) :
    ∃ s' r F, litRun s c v t = some (s', r) ∧ Gets s s' r F ∧ ∀ x ∈ F, x = v ∨ t = some x ∨ ¬ IsVec s x := by
  obtain ⟨p1, p2⟩ := hb
  have q1 := List.pairwise_cons.mp p2
  have q2 := List.pairwise_cons.mp q1.2
  have ha : s.cell a = none := p1 c.m₁ (by simp) a hm
  -- the text
  obtain ⟨s₁, r₁, e1, e2, e3, e4, e5, e6, e7⟩ : ∃ s₁ r₁,
      litText s c v = some (s₁, r₁) ∧
      Inv s₁ [] ∧ Made s s₁ r₁ ∧ Grow s s₁ [] ∧ (∀ x, r₁ = some x → x = v ∨ ¬ IsVec s x) ∧
      (∀ x, r₁ = some x → s.cell x = none → c.value.bind Leaf.block = some x) ∧ True := by
    unfold litText
    cases hc : c.value with
    | none =>
      obtain ⟨s₁, h1, h2, h3⟩ := retain_ok hi hv
      refine ⟨s₁, some v, h1, h2.inv, h2, h3, fun x e => .inl (Option.some.inj e).symm, fun x e hn => ?_, trivial⟩
      cases e
      rw [dead_iff_cell.mpr hn] at hv; exact absurd hv (by simp)
    | some l =>
      obtain ⟨s₁, r, h1, h2, h3, h4, h5, h6⟩ := getLeaf_ok hi (l := l)
        (fun x hx => p1 (c.value.bind Leaf.block) (by simp) x (by rw [hc]; exact hx)) (hval l (by rw [hc]; rfl))
      exact ⟨s₁, r, h1, h2.inv, h3, h4, fun x e => .inr (h2.kind x e), fun x e hn => h6 x e hn, trivial⟩
  cases r₁ with
  | none =>
    refine ⟨s₁, none, [], ?_, ⟨e2, e3.ext, e4.moves, by simp⟩, by simp⟩
    unfold litRun
    rw [hplain, if_neg Bool.false_ne_true, e1]
  | some v' =>
    have lv1 : s₁.live v' = true := live_of_ext e2 (by rw [e3.ext]; simp)
    have dead1 : ∀ x, s.cell x = none → c.value.bind Leaf.block ≠ some x → s₁.cell x = none := fun x hx hne =>
      e3.none x hx fun e => hne (e6 x e hx)
    -- the tag
    obtain ⟨s₂, r₂, f1, f2, f3, f4, f5, f6, f7⟩ : ∃ s₂ r₂,
        litTag s₁ c t = some (s₂, r₂) ∧
        Inv s₂ [] ∧ Made s₁ s₂ r₂ ∧ Grow s₁ s₂ [] ∧ (∀ x, r₂ = some x → t = some x ∨ ¬ IsVec s x) ∧
        (∀ x, r₂ = some x → s₁.cell x = none → c.tag.bind Leaf.block = some x) ∧ True := by
      unfold litTag
      cases hc : c.tag with
      | none =>
        cases ht' : t with
        | none => exact absurd hc (hlit ht')
        | some y =>
          have hy := ht y (by rw [ht']; rfl)
          obtain ⟨s₂, h1, h2, h3⟩ := retain_ok e2 (e4.live y hy)
          refine ⟨s₂, some y, h1, h2.inv, h2, h3, fun x e => .inl e, fun x e hn => ?_, trivial⟩
          cases e
          have := e4.live y hy
          rw [dead_iff_cell.mpr hn] at this; exact absurd this (by simp)
      | some l =>
        have hfair : l.Fair s₁ := by
          have := htag l (by rw [hc]; rfl)
          cases l with
          | shared x => obtain ⟨o, ho⟩ := this; exact ⟨o, e3.more _ _ ho⟩
          | _ => trivial
        obtain ⟨s₂, r, h1, h2, h3, h4, h5, h6⟩ := getLeaf_ok e2 (l := l)
          (fun x hx => dead1 x (p1 (c.tag.bind Leaf.block) (by simp) x (by rw [hc]; exact hx))
            (fun e => q2.1 (c.tag.bind Leaf.block) (by simp) x e (by rw [hc]; exact hx))) hfair
        refine ⟨s₂, r, h1, h2.inv, h3, h4, fun x e => .inr ?_, fun x e hn => h6 x e hn, trivial⟩
        rintro ⟨b, i, hx⟩
        exact h2.kind x e ⟨b, i, e3.more _ _ hx⟩
    cases r₂ with
    | none =>
      obtain ⟨s₃, k1, k2, k3, k4⟩ := shrink_release f2 (a := v') (by rw [f3.ext, e3.ext]; simp)
      refine ⟨s₃, none, [], ?_, ⟨k2, fun b => ?_, (e4.trans f4).shrink k3, by simp⟩, by simp⟩
      · unfold litRun
        rw [hplain, if_neg Bool.false_ne_true, e1]
        dsimp only
        rw [f1]
        dsimp only
        rw [k1]
        rfl
      · rw [k4, f3.ext, e3.ext]
        by_cases e : b = v'
        · subst e; simp
        · have e' : ¬ v' = b := fun h => e h.symm
          simp [e, e']
    | some t' =>
      have lt2 : s₂.live t' = true := live_of_ext f2 (by rw [f3.ext]; simp)
      have hne1 : c.value.bind Leaf.block ≠ some a := q1.1 _ (by simp) a hm
      have hne2 : c.tag.bind Leaf.block ≠ some a := q1.1 _ (by simp) a hm
      have ha1 := dead1 a ha hne1
      have ha2 : s₂.cell a = none := f3.none a ha1 fun e => hne2 (f6 a e ha1)
      obtain ⟨s₃, g1, g2, g3⟩ := literal_ok (isLang := c.isLang) f2 ha2 (f4.live _ lv1) lt2
      obtain ⟨s₄, s₅, n1, n2, n3, n4, n5⟩ := release_pair e3 f3 g2
      refine ⟨s₅, some a, [v', t'], ?_, ⟨n3, n5, ?_, ?_⟩, ?_⟩
      · unfold litRun
        rw [hplain, if_neg Bool.false_ne_true, e1]
        dsimp only
        rw [f1]
        dsimp only
        rw [hm, g1]
        dsimp only
        rw [n1]
        dsimp only
        rw [n2]
        rfl
      · exact (((e4.mono (by simp)).trans (f4.mono (by simp))).trans g3).shrink n4
      · intro b e; cases e; exact not_vec ha
      · intro x hx
        simp only [List.mem_cons, List.not_mem_nil, or_false] at hx
        rcases hx with rfl | rfl
        · rcases e5 x rfl with h | h
          · exact .inl h
          · exact .inr (.inr h)
        · exact .inr (f5 x rfl)

end Cowl.YOwn
