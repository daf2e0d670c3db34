import Verif.OwnLemmas
/-!
# Lemmas on the calls that create vectors, literals and composites
-/
namespace Cowl.Own

/-- A pointer is returned, and the caller owns a reference to it; what was there is still there,
as it was. -/
structure Made (s s' : St) (r : Option Nat) : Prop where
  inv : Inv s' []
  more : ∀ b c, s.cell b = some c → s'.cell b = some c
  none : ∀ b, s.cell b = none → r ≠ some b → s'.cell b = none
  ext : ∀ b, s'.ext b = s.ext b + if r = some b then 1 else 0

/-- A pointer is returned, and the caller owns a reference to it; the objects that are still
there are as they were, but for the target. -/
structure Done (s s' : St) (r target : Option Nat) : Prop where
  inv : Inv s' []
  keep : ∀ b, target ≠ some b → s.live b = true → s'.live b = true → s'.cell b = s.cell b
  ext : ∀ b, s'.ext b = s.ext b + if r = some b then 1 else 0

theorem Made.done {s s' : St} {r t : Option Nat} (h : Made s s' r) : Done s s' r t where
  inv := h.inv
  keep b _ hb _ := by
    obtain ⟨c, hc⟩ := live_iff_cell.mp hb
    rw [hc, h.more b c hc]
  ext := h.ext

theorem Made.live {s s' : St} {r : Option Nat} (h : Made s s' r) {b : Nat} (hb : s.live b = true) :
    s'.live b = true := by
  obtain ⟨c, hc⟩ := live_iff_cell.mp hb
  exact live_iff_cell.mpr ⟨c, h.more b c hc⟩

theorem Made.vec {s s' : St} {r : Option Nat} (h : Made s s' r) {b : Nat} (hb : IsVec s b) : IsVec s' b := by
  obtain ⟨o, l, hc⟩ := hb
  exact ⟨o, l, h.more b _ hc⟩

theorem made_same {s s' : St} (hi : Inv s' []) (hc : s'.cell = s.cell) (he : s'.ext = s.ext) :
    Made s s' none where
  inv := hi
  more b c h := by rw [hc]; exact h
  none b h _ := by rw [hc]; exact h
  ext b := by rw [he]; simp

theorem made_new {s : St} (hi : Inv s []) {a : Nat} {c : Cell} (h : s.cell a = none)
    (hr : ∀ f ∈ c.refs, s.live f = true) (hw : c.releases = some c.refs) :
    Made s (s.new a c) (some a) where
  inv := inv_new hi h hr hw
  more b d hd := by
    show (if b = a then some c else s.cell b) = some d
    have : b ≠ a := fun e => by rw [e, h] at hd; simp at hd
    simp [this, hd]
  none b hb hr := by
    show (if b = a then some c else s.cell b) = Option.none
    have : b ≠ a := fun e => hr (by rw [e])
    simp [this, hb]
  ext b := by
    show (if b = a then 1 else s.ext b) = _
    have h0 := (hi.dead a (dead_iff_cell.mpr h)).1
    by_cases e : b = a
    · subst e; simp [h0]
    · have e' : ¬ a = b := fun h => e h.symm
      simp [e, e']

theorem notNull_some (l : List Nat) : notNull (l.map some) = some l := by
  induction l with
  | nil => rfl
  | cons a l ih => rw [List.map_cons, notNull, ih]; rfl

theorem releases_comp {t : OType} {bit : Bool} {fs : List Nat} {u : Nat} (ht : t ≠ .literal)
    (h : fs.length = nFields t bit) : (Cell.comp t bit fs u).releases = some fs := by
  have h1 : ¬ fs.length < nFields t bit := by omega
  have h2 : fs.take (nFields t bit) = fs := List.take_of_length_le (by omega)
  simp only [Cell.releases, if_neg ht, if_neg h1, h2]

theorem releases_opt {t : OType} {fs : List Nat} {opt : Option Nat} {u : Nat} (ht : t ≠ .literal)
    (h : fs.length = t.fieldCount) :
    (Cell.comp t opt.isSome (fs ++ opt.toList) u).releases = some (fs ++ opt.toList) := by
  apply releases_comp ht
  cases opt <;> simp [nFields, h]

theorem make_spec {s : St} (hi : Inv s []) {m : Option Nat} {t : OType} {fs : List Nat} {opt : Option Nat}
    {u : Nat} (hm : ∀ a, m = some a → s.cell a = none) (hf : ∀ x ∈ fs, s.live x = true)
    (ho : ∀ x ∈ opt, s.live x = true)
    (hw : (Cell.comp t opt.isSome (fs ++ opt.toList) u).releases = some (fs ++ opt.toList)) :
    ∃ s', s.make m t (fs.map some) opt u = some (s', m) ∧ Made s s' m ∧ s'.lost = s.lost ∧
      (∀ a, m = some a → s'.cell a = some (.comp t opt.isSome (fs ++ opt.toList) u)) := by
  have hr : ∀ x ∈ fs ++ opt.toList, s.live x = true := by
    intro x hx
    rcases List.mem_append.mp hx with hx | hx
    · exact hf x hx
    · exact ho x (by simpa using hx)
  cases m with
  | none => exact ⟨s, rfl, made_same hi rfl rfl, rfl, fun a h => by simp at h⟩
  | some a =>
    refine ⟨s.new a (.comp t opt.isSome (fs ++ opt.toList) u), ?_, made_new hi (hm a rfl) hr hw, rfl, ?_⟩
    · simp only [St.make, notNull_some, List.all_eq_true.mpr hr, if_true]
    · rintro b e
      cases e
      show (if a = a then _ else _) = _
      simp

theorem makeAnnot_spec {s : St} (hi : Inv s []) {m : Option Nat} {t : OType} {fs : List Nat}
    {annot : Option Nat} (hm : ∀ a, m = some a → s.cell a = none) (hf : ∀ x ∈ fs, s.live x = true)
    (ho : ∀ x ∈ annot, IsVec s x) (ht : t ≠ .literal) (hn : fs.length = t.fieldCount) :
    ∃ s', s.makeAnnot m t (fs.map some) annot = some (s', m) ∧ Made s s' m ∧ s'.lost = s.lost := by
  cases annot with
  | none =>
    obtain ⟨s', h1, h2, h3, _⟩ := make_spec (opt := none) (u := 0) hi hm hf (by simp) (releases_opt ht hn)
    exact ⟨s', h1, h2, h3⟩
  | some v =>
    obtain ⟨b, items, hv⟩ := ho v rfl
    have ho' : ∀ x ∈ (if items.isEmpty then none else some v), s.live x = true := by
      intro x hx
      by_cases e : items.isEmpty
      · simp [e] at hx
      · simp [e] at hx
        subst hx
        exact live_iff_cell.mpr ⟨_, hv⟩
    obtain ⟨s', h1, h2, h3, _⟩ := make_spec (u := 0) hi hm hf ho' (releases_opt ht hn)
    refine ⟨s', ?_, h2, h3⟩
    simp only [St.makeAnnot, hv]
    exact h1

/-- With memory, the vector is there; without, NULL is returned, and a buffer may be lost. -/
theorem vector_spec {s : St} (hi : Inv s []) {buf : Bool} {m : Option Nat} {items : List Nat}
    (hm : ∀ a, m = some a → s.cell a = none) (hf : ∀ x ∈ items, s.live x = true) :
    ∃ s' r, s.vector buf m items = some (s', r) ∧ Made s s' r ∧
      (r = none ∨ r = m ∧ s'.lost = s.lost) ∧ (buf = true ∨ items = [] → r = m) ∧
      (m ≠ none ∨ items = [] → s'.lost = s.lost) ∧
      (∀ a, r = some a → s'.cell a = some (.vec false items)) := by
  unfold St.vector
  by_cases hb : (!items.isEmpty && !buf) = true
  · rw [if_pos hb]
    refine ⟨s, none, rfl, made_same hi rfl rfl, .inl rfl, fun h => ?_, fun _ => rfl, fun a h => by simp at h⟩
    simp at hb
    rcases h with h | h
    · rw [h] at hb; simp at hb
    · exact absurd h hb.1
  · rw [if_neg hb]
    cases m with
    | none =>
      have hi' : Inv { s with lost := s.lost + if items.isEmpty then 0 else 1 } [] :=
        ⟨hi.nodup, hi.dom, hi.count, hi.dead, hi.pos, hi.wf, hi.rank⟩
      refine ⟨_, none, rfl, made_same hi' rfl rfl, .inl rfl, fun _ => rfl, fun h => ?_, fun a h => by simp at h⟩
      rcases h with h | h
      · exact absurd rfl h
      · simp [h]
    | some a =>
      dsimp only
      rw [if_pos (List.all_eq_true.mpr hf)]
      refine ⟨_, _, rfl, made_new hi (hm a rfl) hf rfl, .inr ⟨rfl, rfl⟩, fun _ => rfl, fun _ => rfl, ?_⟩
      rintro b e
      cases e
      show (if a = a then _ else _) = _
      simp

/-- A local reference is released in the end. -/
theorem release_made {s s₁ s₂ : St} {r : Option Nat} {v : Nat} (h1 : Made s s₁ (some v))
    (h2 : Made s₁ s₂ r) :
    ∃ s₃, s₂.release v = some s₃ ∧ Done s s₃ r none ∧ s₃.lost = s₂.lost := by
  have hv : 0 < s₂.ext v := by rw [h2.ext, h1.ext]; simp; omega
  obtain ⟨s₃, h3, h4, h5, h6, h7⟩ := release_spec h2.inv hv
  refine ⟨s₃, h3, ⟨h4, fun b _ hb hb' => ?_, fun b => ?_⟩, h7⟩
  · obtain ⟨c, hc⟩ := live_iff_cell.mp hb
    obtain ⟨c', hc'⟩ := live_iff_cell.mp hb'
    have := h5 b c' hc'
    rw [h2.more b c (h1.more b c hc)] at this
    rw [hc', hc]; exact this.symm
  · rw [h6, h2.ext, h1.ext]
    by_cases e : b = v
    · subst e; simp
    · have e' : ¬ v = b := fun h => e h.symm
      simp [e, e']

/-- The pointers are distinct and point to unused blocks. -/
theorem blocks_fresh {s : St} {ms : List (Option Nat)} (h : Blocks s ms) {m : Option Nat} (hm : m ∈ ms) :
    ∀ a, m = some a → s.cell a = none := h.1 m hm

theorem nary_spec {s : St} (hi : Inv s []) {buf : Bool} {m₁ m₂ : Option Nat} {t : OType} {items : List Nat}
    (hb : Blocks s [m₁, m₂]) (ht : t ≠ .literal) (hn : t.fieldCount = 1)
    (hf : ∀ x ∈ items, s.live x = true) :
    ∃ s' r, s.nary buf m₁ m₂ t items = some (s', r) ∧ Done s s' r none ∧
      (r = none ∨ r = m₂) ∧ (buf = true → m₁ ≠ none → r = m₂ ∧ s'.lost = s.lost) ∧
      (m₁ = none → r = none) := by
  obtain ⟨s₁, r, h1, h2, h3, h4, h5, _⟩ := vector_spec (buf := buf) hi (blocks_fresh hb (m := m₁) (by simp)) hf
  unfold St.nary
  rw [h1]
  cases r with
  | none =>
    dsimp only
    refine ⟨s₁, none, rfl, h2.done, .inl rfl, fun hbuf hm => ?_, fun _ => rfl⟩
    exact absurd (h4 (.inl hbuf)).symm hm
  | some v =>
    dsimp only
    have hv : s₁.live v = true := live_of_ext h2.inv (by rw [h2.ext]; simp)
    have hm1 : m₁ = some v := by
      rcases h3 with h | h
      · simp at h
      · exact h.1.symm
    have hm2 : ∀ a, m₂ = some a → s₁.cell a = none := by
      intro a ha
      refine h2.none a (blocks_fresh hb (m := m₂) (by simp) a ha) fun e => ?_
      have := (List.pairwise_cons.mp hb.2).1 m₂ (by simp) v hm1
      rw [ha, e] at this
      exact this rfl
    obtain ⟨s₂, g1, g2, g3, _⟩ := make_spec (fs := [v]) (opt := none) (u := 0) h2.inv hm2 (by simpa using hv)
      (by simp) (releases_opt ht (by simp [hn]))
    obtain ⟨s₃, k1, k2, k3⟩ := release_made h2 g2
    have g1' : s₁.make m₂ t [some v] none 0 = some (s₂, m₂) := g1
    rw [g1']
    dsimp only
    rw [k1]
    refine ⟨s₃, m₂, rfl, k2, .inr rfl, fun _ hm => ⟨rfl, ?_⟩, fun h => ?_⟩
    · rw [k3, g3]; exact h5 (.inl hm)
    · rw [hm1] at h; simp at h

theorem literal_spec {s : St} (hi : Inv s []) {m : Option Nat} {value tag : Nat} {isLang : Bool}
    (hm : ∀ a, m = some a → s.cell a = none) (hv : s.live value = true) (ht : s.live tag = true)
    (hs : isLang = true → m ≠ none) :
    ∃ s', s.literal m value tag isLang = some (s', m) ∧ Made s s' m ∧ s'.lost = s.lost := by
  obtain ⟨s₁, h1, h2, h3, h4⟩ := make_spec (t := .literal) (fs := [value, tag]) (opt := none) (u := 0) hi hm
    (by simp [hv, ht]) (by simp) rfl
  unfold St.literal
  have h1' : s.make m .literal [some value, some tag] none 0 = some (s₁, m) := h1
  rw [h1']
  dsimp only
  cases isLang with
  | false => exact ⟨s₁, rfl, h2, h3⟩
  | true =>
    cases m with
    | none => exact absurd rfl (hs rfl)
    | some a =>
      obtain ⟨s₂, g1, g2, g3, g4, g5, _⟩ := setBit_spec h2.inv (h4 a rfl) rfl
      simp only [if_true, g1]
      refine ⟨s₂, rfl, ⟨g2, fun b c hc => ?_, fun b hb hr => ?_, fun b => ?_⟩, by rw [g5, h3]⟩
      · have : b ≠ a := fun e => by rw [e, hm a rfl] at hc; simp at hc
        rw [g3, if_neg this]; exact h2.more b c hc
      · have : b ≠ a := fun e => hr (by rw [e])
        rw [g3, if_neg this]; exact h2.none b hb hr
      · rw [g4]; exact h2.ext b

theorem ordered_spec {s : St} (hi : Inv s []) {a : Nat} (hm : s.cell a = none) :
    ∃ s', s.orderedEmpty (some a) = some (s', some a) ∧ Made s s' (some a) ∧ s'.lost = s.lost := by
  obtain ⟨s₁, r, h1, h2, h3, h4, h5, h6⟩ := vector_spec (buf := true) (m := some a) (items := []) hi
    (by rintro b e; cases e; exact hm) (by simp)
  obtain rfl : r = some a := h4 (.inl rfl)
  obtain ⟨s₂, g1, g2, g3, g4, g5, _⟩ := setBit_spec h2.inv (h6 a rfl) rfl
  unfold St.orderedEmpty
  rw [h1]
  dsimp only
  rw [g1]
  refine ⟨s₂, rfl, ⟨g2, fun b c hc => ?_, fun b hb hr => ?_, fun b => ?_⟩, by rw [g5]; exact h5 (.inr rfl)⟩
  · have : b ≠ a := fun e => by rw [e, hm] at hc; simp at hc
    rw [g3, if_neg this]; exact h2.more b c hc
  · have : b ≠ a := fun e => hr (by rw [e])
    rw [g3, if_neg this]; exact h2.none b hb hr
  · rw [g4]; exact h2.ext b

theorem keyArg_spec {s : St} (hi : Inv s []) {m arg : Option Nat} (hm : ∀ a, m = some a → s.cell a = none)
    (ha : ∀ x ∈ arg, s.live x = true) :
    ∃ s' r, s.keyArg m arg = some (s', r) ∧ Made s s' r ∧ s'.lost = s.lost ∧
      (r = none ↔ arg = none ∧ m = none) ∧ (∀ b, r = some b → s.cell b = none → m = some b) := by
  cases arg with
  | some v =>
    obtain ⟨s', h1, h2, h3, h4, h5⟩ := retain_spec hi (ha v rfl)
    refine ⟨s', some v, by simp only [St.keyArg, h1]; rfl, ⟨h2, ?_, ?_, ?_⟩, h5, by simp, ?_⟩
    · intro b c hc; rw [h3]; exact hc
    · intro b hb _; rw [h3]; exact hb
    · intro b
      rw [h4]
      by_cases e : b = v
      · subst e; simp
      · have e' : ¬ v = b := fun h => e h.symm
        simp [e, e']
    · intro b e hb
      cases e
      have := ha v rfl
      rw [dead_iff_cell.mpr hb] at this
      exact absurd this (by simp)
  | none =>
    obtain ⟨s₁, r, h1, h2, h3, h4, h5, h6⟩ := vector_spec (buf := true) (items := []) hi hm (by simp)
    have e := h4 (.inl rfl)
    exact ⟨s₁, r, h1, h2, h5 (.inr rfl), by rw [e]; simp, fun b hb _ => by rw [← e]; exact hb⟩

/-- Two local references are released in the end. -/
theorem release_two {s s₁ s₂ s₃ : St} {o d r : Option Nat} (h1 : Made s s₁ o) (h2 : Made s₁ s₂ d)
    (h3 : Made s₂ s₃ r) :
    ∃ s₄ s₅, s₃.releaseOpt o = some s₄ ∧ s₄.releaseOpt d = some s₅ ∧ Done s s₅ r none ∧
      s₅.lost = s₃.lost := by
  have hk : ∀ b, s₃.ext b = s.ext b + (if o = some b then 1 else 0) + (if d = some b then 1 else 0) +
      (if r = some b then 1 else 0) := fun b => by rw [h3.ext, h2.ext, h1.ext]
  have hmore : ∀ b c, s.cell b = some c → s₃.cell b = some c := fun b c hc =>
    h3.more b c (h2.more b c (h1.more b c hc))
  obtain ⟨s₄, g1, g2, g3, g4, g5⟩ : ∃ s₄, s₃.releaseOpt o = some s₄ ∧ Inv s₄ [] ∧
      (∀ b c, s₄.cell b = some c → s₃.cell b = some c) ∧
      (∀ b, s₄.ext b = s.ext b + (if d = some b then 1 else 0) + (if r = some b then 1 else 0)) ∧
      s₄.lost = s₃.lost := by
    cases o with
    | none => exact ⟨s₃, rfl, h3.inv, fun _ _ h => h, fun b => by rw [hk]; simp, rfl⟩
    | some v =>
      obtain ⟨s₄, e1, e2, e3, e4, e5⟩ := release_spec h3.inv (a := v) (by rw [hk]; simp; omega)
      refine ⟨s₄, e1, e2, e3, fun b => ?_, e5⟩
      rw [e4, hk]
      by_cases e : b = v
      · subst e; simp; omega
      · have e' : ¬ v = b := fun h => e h.symm
        simp [e, e']
  obtain ⟨s₅, k1, k2, k3, k4, k5⟩ : ∃ s₅, s₄.releaseOpt d = some s₅ ∧ Inv s₅ [] ∧
      (∀ b c, s₅.cell b = some c → s₄.cell b = some c) ∧
      (∀ b, s₅.ext b = s.ext b + (if r = some b then 1 else 0)) ∧ s₅.lost = s₄.lost := by
    cases d with
    | none => exact ⟨s₄, rfl, g2, fun _ _ h => h, fun b => by rw [g4]; simp, rfl⟩
    | some v =>
      obtain ⟨s₅, e1, e2, e3, e4, e5⟩ := release_spec g2 (a := v) (by rw [g4]; simp; omega)
      refine ⟨s₅, e1, e2, e3, fun b => ?_, e5⟩
      rw [e4, g4]
      by_cases e : b = v
      · subst e; simp
      · have e' : ¬ v = b := fun h => e h.symm
        simp [e, e']
  refine ⟨s₄, s₅, g1, k1, ⟨k2, fun b _ hb hb' => ?_, k4⟩, by rw [k5, g5]⟩
  obtain ⟨c, hc⟩ := live_iff_cell.mp hb
  obtain ⟨c', hc'⟩ := live_iff_cell.mp hb'
  have := g3 b c' (k3 b c' hc')
  rw [hmore b c hc] at this
  rw [hc', hc]; exact this.symm

theorem hasKey_spec {s : St} (hi : Inv s []) {m₁ m₂ m₃ : Option Nat} {cls : Nat} {objs datas annot : Option Nat}
    (hb : Blocks s [m₁, m₂, m₃]) (hc : s.live cls = true) (ho : ∀ x ∈ objs, s.live x = true)
    (hd : ∀ x ∈ datas, s.live x = true) (ha : ∀ x ∈ annot, IsVec s x)
    (hs : m₃.isSome → (objs.isSome ∨ m₁.isSome) ∧ (datas.isSome ∨ m₂.isSome)) :
    ∃ s', s.hasKey m₁ m₂ m₃ cls objs datas annot = some (s', m₃) ∧ Done s s' m₃ none ∧ s'.lost = s.lost := by
  obtain ⟨p1, p2⟩ := hb
  have q1 := List.pairwise_cons.mp p2
  have q2 := List.pairwise_cons.mp q1.2
  obtain ⟨s₁, o, h1, h2, h3, h4, h5⟩ := keyArg_spec hi (m := m₁) (arg := objs) (p1 m₁ (by simp)) ho
  have f2 : ∀ a, m₂ = some a → s₁.cell a = none := fun a e =>
    h2.none a (p1 m₂ (by simp) a e) fun eo => by
      have := h5 a eo (p1 m₂ (by simp) a e)
      exact q1.1 m₂ (by simp) a this e
  obtain ⟨s₂, d, g1, g2, g3, g4, g5⟩ := keyArg_spec h2.inv (m := m₂) (arg := datas) f2
    (fun x hx => h2.live (hd x hx))
  have f3 : ∀ a, m₃ = some a → s₂.cell a = none := fun a e => by
    have ha' := p1 m₃ (by simp) a e
    have h6 : s₁.cell a = none := h2.none a ha' fun eo => q1.1 m₃ (by simp) a (h5 a eo ha') e
    exact g2.none a h6 fun ed => q2.1 m₃ (by simp) a (g5 a ed h6) e
  have hdone : ∀ s₃, Made s₂ s₃ m₃ → s₃.lost = s₂.lost →
      s₂.makeAnnot m₃ .aHasKey [some cls, o, d] annot = some (s₃, m₃) →
      ∃ s', s.hasKey m₁ m₂ m₃ cls objs datas annot = some (s', m₃) ∧ Done s s' m₃ none ∧ s'.lost = s.lost := by
    intro s₃ k2 k3 k1
    obtain ⟨s₄, s₅, e1, e2, e3, e4⟩ := release_two h2 g2 k2
    refine ⟨s₅, ?_, e3, by rw [e4, k3, g3, h3]⟩
    unfold St.hasKey
    rw [h1]; dsimp only
    rw [g1]; dsimp only
    rw [k1]; dsimp only
    rw [e1]; dsimp only
    rw [e2]; rfl
  have ha2 : ∀ x ∈ annot, IsVec s₂ x := fun x hx => g2.vec (h2.vec (ha x hx))
  cases hm3 : m₃ with
  | none =>
    subst hm3
    refine hdone s₂ (made_same g2.inv rfl rfl) rfl ?_
    unfold St.makeAnnot
    cases annot with
    | none => rfl
    | some v =>
      obtain ⟨b, items, hv⟩ := ha2 v rfl
      simp only [hv]; rfl
  | some a =>
    obtain ⟨hs1, hs2⟩ := hs (by rw [hm3]; rfl)
    have ho' : o ≠ none := fun e => by
      obtain ⟨e1, e2⟩ := h4.mp e
      rw [e1, e2] at hs1; simp at hs1
    have hd' : d ≠ none := fun e => by
      obtain ⟨e1, e2⟩ := g4.mp e
      rw [e1, e2] at hs2; simp at hs2
    obtain ⟨o', rfl⟩ := Option.ne_none_iff_exists'.mp ho'
    obtain ⟨d', rfl⟩ := Option.ne_none_iff_exists'.mp hd'
    have lo : s₂.live o' = true := g2.live (live_of_ext h2.inv (by rw [h2.ext]; simp))
    have ld : s₂.live d' = true := live_of_ext g2.inv (by rw [g2.ext]; simp)
    obtain ⟨s₃, k1, k2, k3⟩ := makeAnnot_spec (t := .aHasKey) (fs := [cls, o', d']) g2.inv f3
      (by
        intro x hx
        simp only [List.mem_cons, List.not_mem_nil, or_false] at hx
        rcases hx with rfl | rfl | rfl
        · exact g2.live (h2.live hc)
        · exact lo
        · exact ld) ha2 (by simp) rfl
    rw [← hm3]
    exact hdone s₃ k2 k3 k1

theorem chain_spec {s : St} (hi : Inv s []) {m : Option Nat} {sub super : Nat} {annot : Option Nat}
    (hm : ∀ a, m = some a → s.cell a = none) (hv : IsVec s sub) (hs : s.live super = true)
    (ha : ∀ x ∈ annot, IsVec s x) :
    ∃ s', s.chain m sub super annot = some (s', m) ∧ Done s s' m (some sub) ∧ s'.lost = s.lost := by
  obtain ⟨b, items, hc⟩ := hv
  obtain ⟨s₁, g1, g2, g3, g4, g5, g6⟩ := setBit_spec hi hc rfl
  have hl : ∀ x, s.live x = true → s₁.live x = true := fun x hx => by
    obtain ⟨c, hx⟩ := live_iff_cell.mp hx
    rw [live_iff_cell, g3]
    by_cases e : x = sub
    · exact ⟨_, by rw [if_pos e]⟩
    · exact ⟨c, by rw [if_neg e]; exact hx⟩
  have hne : ∀ a, m = some a → s₁.cell a = none := fun a e => by
    have h := hm a e
    have : a ≠ sub := fun e => by rw [e, hc] at h; simp at h
    rw [g3, if_neg this]; exact h
  have hav : ∀ x ∈ annot, IsVec s₁ x := fun x hx => by
    obtain ⟨b', l', h⟩ := ha x hx
    by_cases e : x = sub
    · exact ⟨true, items, by rw [g3, if_pos e]; rfl⟩
    · exact ⟨b', l', by rw [g3, if_neg e]; exact h⟩
  obtain ⟨s₂, k1, k2, k3⟩ := makeAnnot_spec (t := .aSubObjProp) (fs := [sub, super]) g2 hne
    (by
      intro x hx
      simp only [List.mem_cons, List.not_mem_nil, or_false] at hx
      rcases hx with rfl | rfl
      · exact hl _ (live_iff_cell.mpr ⟨_, hc⟩)
      · exact hl _ hs) hav (by simp) rfl
  refine ⟨s₂, ?_, ⟨k2.inv, fun x hx hx1 _ => ?_, fun x => by rw [k2.ext, g4]⟩, by rw [k3, g5]⟩
  · unfold St.chain
    rw [g1]
    exact k1
  · obtain ⟨c, hxc⟩ := live_iff_cell.mp hx1
    have : x ≠ sub := fun e => hx (by rw [e])
    rw [hxc, k2.more x c (by rw [g3, if_neg this]; exact hxc)]

theorem ctors_ok : ∀ k ∈ ctors, k.n = k.type.fieldCount ∧ k.type ≠ .literal := by decide +kernel

theorem nary_ok : ∀ t ∈ naryTypes, t.fieldCount = 1 ∧ t ≠ .literal := by decide +kernel

/-- What a call does, memory lacking or not. -/
structure Result (s : St) (op : Op) (s' : St) (r : Option Nat) : Prop where
  inv : Inv s' []
  keep : ∀ b, op.target ≠ some b → s.live b = true → s'.live b = true → s'.cell b = s.cell b
  ext : ∀ b, s'.ext b = s.ext b + (if r = some b then 1 else 0) - (if op.takes = some b then 1 else 0)
  lost : Calm op → s'.lost = s.lost
  null : Calm op → op.gives = true → r ≠ none

theorem Done.result {s s' : St} {op : Op} {r : Option Nat} (h : Done s s' r op.target)
    (ht : op.takes = none) (hl : Calm op → s'.lost = s.lost) (hn : Calm op → op.gives = true → r ≠ none) :
    Result s op s' r :=
  ⟨h.inv, h.keep, fun b => by rw [h.ext b, ht]; simp, hl, hn⟩

theorem ne_none {m : Option Nat} (h : m.isSome = true) : m ≠ none := fun e => by rw [e] at h; simp at h

theorem step_spec {s : St} (hi : Inv s []) {op : Op} (hf : Fair s op) (hs : Sturdy op) :
    ∃ s' r, s.step op = some (s', r) ∧ Result s op s' r := by
  cases op with
  | leaf m o =>
    refine ⟨_, _, rfl, Done.result (made_new hi hf (by simp [Cell.refs]) rfl).done rfl (fun _ => rfl) ?_⟩
    intro _ _; simp
  | make m k fields opt uint =>
    obtain ⟨hb, hk, hl, hx, ho⟩ := hf
    obtain ⟨kn, kt⟩ := ctors_ok k hk
    have hm := blocks_fresh hb (m := m) (by simp)
    have hx' : ∀ x ∈ fields, s.live x = true := fun x h => live_of_usable hi (hx x h)
    have ho' : ∀ x ∈ opt, s.live x = true := fun x h => live_of_usable hi (ho x h).1
    have fin : ∀ s', Made s s' m → s'.lost = s.lost → Result s (.make m k fields opt uint) s' m :=
      fun s' h hl => Done.result h.done rfl (fun _ => hl) (fun hc _ => ne_none hc)
    unfold St.step
    dsimp only
    cases hfo : k.form with
    | plain =>
      obtain ⟨s', h1, h2, h3, _⟩ := make_spec (opt := none) (u := 0) hi hm hx' (by simp)
        (releases_opt kt (hl.trans kn))
      exact ⟨s', m, h1, fin s' h2 h3⟩
    | opt =>
      obtain ⟨s', h1, h2, h3, _⟩ := make_spec (u := 0) hi hm hx' ho' (releases_opt kt (hl.trans kn))
      exact ⟨s', m, h1, fin s' h2 h3⟩
    | annot =>
      obtain ⟨s', h1, h2, h3⟩ := makeAnnot_spec hi hm hx' (fun x h => (ho x h).2 hfo) kt (hl.trans kn)
      exact ⟨s', m, h1, fin s' h2 h3⟩
    | uint =>
      obtain ⟨s', h1, h2, h3, _⟩ := make_spec (u := uint) hi hm hx' ho' (releases_opt kt (hl.trans kn))
      exact ⟨s', m, h1, fin s' h2 h3⟩
  | vector buf m items =>
    obtain ⟨hb, hx⟩ := hf
    obtain ⟨s', r, h1, h2, h3, h4, h5, _⟩ := vector_spec (buf := buf) hi (blocks_fresh hb (m := m) (by simp))
      (fun x h => live_of_usable hi (hx x h))
    refine ⟨s', r, h1, Done.result h2.done rfl (fun hc => h5 (.inl (ne_none hc.2))) (fun hc _ => ?_)⟩
    rw [h4 (.inl hc.1)]; exact ne_none hc.2
  | nary buf m₁ m₂ t items =>
    obtain ⟨hb, ht, hx⟩ := hf
    obtain ⟨n1, n2⟩ := nary_ok t ht
    obtain ⟨s', r, h1, h2, h3, h4, _⟩ := nary_spec (buf := buf) hi hb n2 n1 (fun x h => live_of_usable hi (hx x h))
    refine ⟨s', r, h1, Done.result h2 rfl (fun hc => (h4 hc.1 (ne_none hc.2.1)).2) (fun hc _ => ?_)⟩
    rw [(h4 hc.1 (ne_none hc.2.1)).1]; exact ne_none hc.2.2
  | literal m value tag isLang =>
    obtain ⟨hb, h1, h2⟩ := hf
    obtain ⟨s', g1, g2, g3⟩ := literal_spec (isLang := isLang) hi (blocks_fresh hb (m := m) (by simp))
      (live_of_usable hi h1) (live_of_usable hi h2) (fun h => ne_none (hs h))
    exact ⟨s', m, g1, Done.result g2.done rfl (fun _ => g3) (fun hc _ => ne_none hc)⟩
  | hasKey m₁ m₂ m₃ cls objs datas annot =>
    obtain ⟨hb, hc, ho, hd, ha⟩ := hf
    obtain ⟨s', g1, g2, g3⟩ := hasKey_spec hi hb (live_of_usable hi hc) (fun x h => live_of_usable hi (ho x h).1)
      (fun x h => live_of_usable hi (hd x h).1) (fun x h => (ha x h).2) hs
    exact ⟨s', m₃, g1, Done.result g2 rfl (fun _ => g3) (fun hc _ => ne_none hc.2.2)⟩
  | chain m sub super annot =>
    obtain ⟨hb, _, hv, h2, ha⟩ := hf
    obtain ⟨s', g1, g2, g3⟩ := chain_spec hi (blocks_fresh hb (m := m) (by simp)) hv (live_of_usable hi h2)
      (fun x h => (ha x h).2)
    exact ⟨s', m, g1, Done.result g2 rfl (fun _ => g3) (fun hc _ => ne_none hc)⟩
  | ordered m =>
    obtain ⟨a, rfl⟩ := Option.isSome_iff_exists.mp hs
    obtain ⟨s', g1, g2, g3⟩ := ordered_spec hi (blocks_fresh hf (m := some a) (by simp) a rfl)
    exact ⟨s', some a, g1, Done.result g2.done rfl (fun _ => g3) (fun _ _ => by simp)⟩
  | add ok v x =>
    obtain ⟨hv, ⟨b, items, hc⟩, hx, hp⟩ := hf
    cases ok with
    | false =>
      refine ⟨s, none, ?_, hi, fun _ _ _ _ => rfl, fun b => by simp [Op.takes], fun _ => rfl,
        fun _ h => by simp [Op.gives] at h⟩
      simp [St.step, St.add, hc]
    | true =>
      obtain ⟨s', g1, g2, g3, g4, g5⟩ := add_spec hi hc (live_of_usable hi hx) hp
      refine ⟨s', none, ?_, g2, fun c hne _ _ => ?_, fun b => by rw [g4]; simp [Op.takes], fun _ => g5,
        fun _ h => by simp [Op.gives] at h⟩
      · simp [St.step, g1]
      · have : c ≠ v := fun e => hne (by rw [e]; rfl)
        rw [g3, if_neg this]
  | retain a =>
    obtain ⟨s', h1, h2, h3, h4, h5⟩ := retain_spec hi (live_of_usable hi hf)
    refine ⟨s', some a, by simp [St.step, h1], h2, fun b _ _ _ => by rw [h3], fun b => ?_, fun _ => h5,
      fun _ _ => by simp⟩
    rw [h4]
    by_cases e : b = a
    · subst e; simp [Op.takes]
    · have e' : ¬ a = b := fun h => e h.symm
      simp [e, e', Op.takes]
  | release a =>
    obtain ⟨s', h1, h2, h3, h4, h5⟩ := release_spec hi hf
    refine ⟨s', none, by simp [St.step, h1], h2, fun b _ _ hb => ?_, fun b => ?_, fun _ => h5,
      fun _ h => by simp [Op.gives] at h⟩
    · obtain ⟨c, hc⟩ := live_iff_cell.mp hb
      rw [hc, h3 b c hc]
    · rw [h4]
      by_cases e : b = a
      · subst e; simp [Op.takes]
      · have e' : ¬ a = b := fun h => e h.symm
        simp [e, e', Op.takes]

theorem sturdy_of_calm {op : Op} (h : Calm op) : Sturdy op := by
  cases op with
  | literal m v t l => exact fun _ => h
  | hasKey m₁ m₂ m₃ c o d a => exact fun _ => ⟨.inr h.1, .inr h.2.1⟩
  | ordered m => exact h
  | _ => trivial

theorem reaches_inv {P : Op → Prop} (hP : ∀ op, P op → Sturdy op) {s : St} (h : Reaches P s) : Inv s [] := by
  induction h with
  | start => exact inv_start
  | @step s op s' r _ hf hp he ih =>
    obtain ⟨s₁, r₁, h1, h2⟩ := step_spec ih hf (hP _ hp)
    rw [h1] at he
    obtain ⟨rfl, rfl⟩ := Prod.mk.inj (Option.some.inj he)
    exact h2.inv

theorem reaches_lost {s : St} (h : Reaches Calm s) : s.lost = 0 := by
  induction h with
  | start => rfl
  | @step s op s' r hs hf hp he ih =>
    obtain ⟨s₁, r₁, h1, h2⟩ := step_spec (reaches_inv (fun _ => sturdy_of_calm) hs) hf (sturdy_of_calm hp)
    rw [h1] at he
    obtain ⟨rfl, rfl⟩ := Prod.mk.inj (Option.some.inj he)
    rw [h2.lost hp, ih]

/-! ## When nothing changes -/

theorem live_kept {s s' : St} (hi : Inv s []) (hi' : Inv s' [])
    (hk : ∀ b, s.live b = true → s'.live b = true → s'.cell b = s.cell b) (he : ∀ b, 0 < s.ext b → 0 < s'.ext b)
    {b : Nat} (h : s.live b = true) : s'.live b = true := by
  obtain ⟨r, hr, hp⟩ := usable_of_live hi h
  have hlr := live_of_ext hi hr
  have hlr' := live_of_ext hi' (he r hr)
  clear h hr
  induction hp with
  | refl => exact hlr'
  | step hm _ ih =>
    refine ih (live_of_ref hi hm) ?_
    apply live_of_ref hi' 
    unfold refsAt at hm ⊢
    rw [hk _ hlr hlr']; exact hm

theorem same_cells {s s' : St} (hi : Inv s []) (hi' : Inv s' [])
    (hk : ∀ b, s.live b = true → s'.live b = true → s'.cell b = s.cell b) (he : ∀ b, s'.ext b = s.ext b) (b : Nat) :
    s'.cell b = s.cell b := by
  rcases h : s.live b with _ | _
  · rcases h' : s'.live b with _ | _
    · rw [dead_iff_cell.mp h, dead_iff_cell.mp h']
    · have := live_kept hi' hi (fun b h1 h2 => (hk b h2 h1).symm) (fun b hb => by rw [← he]; exact hb) h'
      rw [h] at this; exact absurd this (by simp)
  · exact hk b h (live_kept hi hi' hk (fun b hb => by rw [he]; exact hb) h)

theorem same_held {s s' : St} (hi : Inv s []) (hi' : Inv s' []) (hc : ∀ b, s'.cell b = s.cell b) (b : Nat) :
    held s' b = held s b := by
  have hp : s'.dom.Perm s.dom := (List.perm_ext_iff_of_nodup hi'.nodup hi.nodup).mpr fun a => by
    rw [hi.dom, hi'.dom]; unfold St.live; rw [hc]
  have hr : ∀ a, refsAt s' a = refsAt s a := fun a => by unfold refsAt; rw [hc]
  unfold held
  rw [(hp.map _).sum_nat]
  congr 1
  exact List.map_congr_left fun a _ => by rw [hr]

theorem same_rc {s s' : St} (hi : Inv s []) (hi' : Inv s' []) (hc : ∀ b, s'.cell b = s.cell b)
    (he : ∀ b, s'.ext b = s.ext b) {b : Nat} (hb : s.live b = true) : s'.rc b = s.rc b := by
  have hb' : s'.live b = true := by unfold St.live; rw [hc]; exact hb
  rw [hi.count b hb, hi'.count b hb', same_held hi hi' hc, he]

/-! ## Views -/

/-- Objects from which no changed object can be reached look the same. -/
theorem view_keep {s s' : St} (hi : Inv s []) (hi' : Inv s' []) {t : Option Nat}
    (hk : ∀ b, t ≠ some b → s.live b = true → s'.live b = true → s'.cell b = s.cell b) (n : Nat) :
    ∀ a, (∀ v, t = some v → ¬ Path s a v) → s.live a = true → s'.live a = true → s'.view n a = s.view n a := by
  induction n with
  | zero => intro a _ _ _; rfl
  | succ n ih =>
    intro a ht h h'
    have hc : s'.cell a = s.cell a := hk a (fun e => ht a e (.refl a)) h h'
    have sub : ∀ f ∈ refsAt s a, s'.view n f = s.view n f := fun f hf =>
      ih f (fun v hv hp => ht v hv (.step hf hp)) (live_of_ref hi hf)
        (live_of_ref hi' (show f ∈ refsAt s' a by unfold refsAt at hf ⊢; rw [hc]; exact hf))
    rw [St.view, St.view, hc]
    cases h2 : s.cell a with
    | none => rfl
    | some c =>
      rw [refsAt_some h2] at sub
      cases c with
      | leaf o => rfl
      | vec b items =>
        have e : items.map (fun x => s'.view n x) = items.map (fun x => s.view n x) := List.map_congr_left sub
        dsimp only
        rw [e]
      | comp t b fields u =>
        have e : fields.map (fun x => s'.view n x) = fields.map (fun x => s.view n x) := List.map_congr_left sub
        dsimp only
        rw [e]

end Cowl.Own
