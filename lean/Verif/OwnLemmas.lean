import Verif.OwnSpec
/-!
# Lemmas on the memory of vectors, literals and composites
-/
namespace Cowl.Own

/-! ## Sums over the addresses in use -/

theorem sum_upd {l : List Nat} {g g' : Nat → Nat} {v : Nat} (hn : l.Nodup) (hv : v ∈ l)
    (h : ∀ b, b ≠ v → g' b = g b) : (l.map g').sum + g v = (l.map g).sum + g' v := by
  induction l with
  | nil => simp at hv
  | cons a l ih =>
    simp only [List.map_cons, List.sum_cons]
    have hn' := List.nodup_cons.mp hn
    by_cases e : a = v
    · subst e
      have : l.map g' = l.map g := List.map_congr_left fun b hb => h b fun e => hn'.1 (e ▸ hb)
      rw [this]; omega
    · have hv' : v ∈ l := by
        rcases List.mem_cons.mp hv with e' | h'
        · exact absurd e'.symm e
        · exact h'
      have := ih hn'.2 hv'
      rw [h a e]; omega

theorem sum_erase {l : List Nat} (g : Nat → Nat) {v : Nat} (hv : v ∈ l) :
    ((l.erase v).map g).sum + g v = (l.map g).sum := by
  have := ((List.perm_cons_erase hv).map g).sum_nat
  simp only [List.map_cons, List.sum_cons] at this
  omega

theorem sum_pos {l : List Nat} {g : Nat → Nat} (h : 0 < (l.map g).sum) : ∃ b ∈ l, 0 < g b := by
  induction l with
  | nil => simp at h
  | cons a l ih =>
    simp only [List.map_cons, List.sum_cons] at h
    by_cases e : 0 < g a
    · exact ⟨a, List.mem_cons_self, e⟩
    · obtain ⟨b, hb, hg⟩ := ih (by omega)
      exact ⟨b, List.mem_cons_of_mem _ hb, hg⟩

theorem le_sum {l : List Nat} {g : Nat → Nat} {b : Nat} (h : b ∈ l) : g b ≤ (l.map g).sum := by
  have := sum_erase g h
  omega

theorem sum_eq_zero {l : List Nat} {g : Nat → Nat} (h : ∀ b ∈ l, g b = 0) : (l.map g).sum = 0 := by
  rcases Nat.eq_zero_or_pos (l.map g).sum with e | e
  · exact e
  · obtain ⟨b, hb, hg⟩ := sum_pos e
    have := h b hb
    omega

/-! ## The invariant -/

/-- Counts are right, with `l` a list of references still to be released. -/
structure Inv (s : St) (l : List Nat) : Prop where
  nodup : s.dom.Nodup
  dom : ∀ a, a ∈ s.dom ↔ s.live a = true
  count : ∀ a, s.live a = true → s.rc a = s.ext a + l.count a + held s a
  dead : ∀ a, s.live a = false → s.ext a = 0 ∧ a ∉ l ∧ held s a = 0
  pos : ∀ a, s.live a = true → 0 < s.rc a
  wf : ∀ a c, s.cell a = some c → c.releases = some c.refs
  rank : ∃ rk : Nat → Nat, ∀ a, ∀ f ∈ refsAt s a, rk f < rk a

theorem live_iff_cell {s : St} {a : Nat} : s.live a = true ↔ ∃ c, s.cell a = some c := by
  simp [St.live, Option.isSome_iff_exists]

theorem dead_iff_cell {s : St} {a : Nat} : s.live a = false ↔ s.cell a = none := by
  unfold St.live
  cases s.cell a <;> simp

theorem refsAt_some {s : St} {a : Nat} {c : Cell} (h : s.cell a = some c) : refsAt s a = c.refs := by
  simp [refsAt, h]

theorem refsAt_none {s : St} {a : Nat} (h : s.cell a = none) : refsAt s a = [] := by simp [refsAt, h]

theorem mem_refsAt_live {s : St} {a f : Nat} (h : f ∈ refsAt s a) : s.live a = true := by
  rcases hb : s.live a with _ | _
  · rw [refsAt_none (dead_iff_cell.mp hb)] at h; simp at h
  · rfl

theorem held_pos_of_mem {s : St} {l : List Nat} (hi : Inv s l) {a f : Nat} (h : f ∈ refsAt s a) :
    0 < held s f := by
  have ha : a ∈ s.dom := (hi.dom a).mpr (mem_refsAt_live h)
  have h1 := le_sum (g := fun b => (refsAt s b).count f) ha
  have h2 : 0 < (refsAt s a).count f := List.count_pos_iff.mpr h
  unfold held
  omega

theorem live_of_ref {s : St} {l : List Nat} (hi : Inv s l) {a f : Nat} (h : f ∈ refsAt s a) :
    s.live f = true := by
  rcases hb : s.live f with _ | _
  · have := (hi.dead f hb).2.2
    have := held_pos_of_mem hi h
    omega
  · rfl

theorem live_of_path {s : St} {l : List Nat} (hi : Inv s l) {a b : Nat} (h : Path s a b)
    (ha : s.live a = true) : s.live b = true := by
  induction h with
  | refl => exact ha
  | step hm _ ih => exact ih (live_of_ref hi hm)

theorem live_of_ext {s : St} {l : List Nat} (hi : Inv s l) {a : Nat} (h : 0 < s.ext a) :
    s.live a = true := by
  rcases hb : s.live a with _ | _
  · have := (hi.dead a hb).1; omega
  · rfl

theorem live_of_usable {s : St} {l : List Nat} (hi : Inv s l) {a : Nat} (h : Usable s a) :
    s.live a = true := by
  obtain ⟨r, hr, hp⟩ := h
  exact live_of_path hi hp (live_of_ext hi hr)

theorem Path.snoc {s : St} {a b c : Nat} (h : Path s a b) (hc : c ∈ refsAt s b) : Path s a c := by
  induction h with
  | refl => exact .step hc (.refl _)
  | step hm _ ih => exact .step hm (ih hc)

theorem Path.trans {s : St} {a b c : Nat} (h : Path s a b) (h' : Path s b c) : Path s a c := by
  induction h with
  | refl => exact h'
  | step hm _ ih => exact .step hm (ih h')

theorem usable_of_live {s : St} (hi : Inv s []) {a : Nat} (h : s.live a = true) : Usable s a := by
  obtain ⟨rk, hrk⟩ := hi.rank
  have hb : ∀ b, s.live b = true → rk b ≤ (s.dom.map rk).sum := fun b hb => le_sum ((hi.dom b).mpr hb)
  generalize (s.dom.map rk).sum = M at hb
  generalize hk : M - rk a = k
  induction k using Nat.strongRecOn generalizing a with
  | _ k ih =>
    have hc := hi.count a h
    have hp := hi.pos a h
    simp only [List.count_nil, Nat.add_zero] at hc
    rcases Nat.eq_zero_or_pos (s.ext a) with he | he
    · have hh : 0 < held s a := by omega
      obtain ⟨b, _, hm⟩ := sum_pos hh
      have hm : a ∈ refsAt s b := List.count_pos_iff.mp hm
      have hlb := mem_refsAt_live hm
      have h1 := hrk b a hm
      have h2 := hb b hlb
      obtain ⟨r, hr, hp⟩ := ih (M - rk b) (by omega) hlb rfl
      exact ⟨r, hr, hp.snoc hm⟩
    · exact ⟨a, he, .refl a⟩

theorem live_iff_usable {s : St} (hi : Inv s []) (a : Nat) : s.live a = true ↔ Usable s a :=
  ⟨usable_of_live hi, live_of_usable hi⟩

theorem inv_start : Inv .start [] where
  nodup := List.nodup_nil
  dom a := by simp [St.start, St.live]
  count a h := by simp [St.start, St.live] at h
  dead a _ := by simp [St.start, held]
  pos a h := by simp [St.start, St.live] at h
  wf a c h := by simp [St.start] at h
  rank := ⟨fun _ => 0, fun a f h => by simp [refsAt, St.start] at h⟩

/-! ## Release -/

/-- Objects may have gone; the others are as they were. -/
structure Less (s s' : St) : Prop where
  cell : ∀ a c, s'.cell a = some c → s.cell a = some c
  ext : s'.ext = s.ext
  lost : s'.lost = s.lost

theorem Less.refl (s : St) : Less s s := ⟨fun _ _ h => h, rfl, rfl⟩

theorem Less.trans {s₁ s₂ s₃ : St} (h : Less s₁ s₂) (h' : Less s₂ s₃) : Less s₁ s₃ :=
  ⟨fun a c e => h.cell a c (h'.cell a c e), h'.ext.trans h.ext, h'.lost.trans h.lost⟩

theorem inv_decr {s : St} {a : Nat} {l : List Nat} (hi : Inv s (a :: l)) (ha : s.live a = true)
    (h : 1 < s.rc a) : Inv (s.decr a) l where
  nodup := hi.nodup
  dom := hi.dom
  count b hb := by
    have := hi.count b hb
    show (if b = a then s.rc b - 1 else s.rc b) = s.ext b + l.count b + held s b
    rw [List.count_cons] at this
    by_cases e : b = a
    · subst e; simp at this ⊢; omega
    · have e' : ¬ a = b := fun h => e h.symm
      simp [e, e'] at this ⊢; omega
  dead b hb := by
    obtain ⟨h1, h2, h3⟩ := hi.dead b hb
    exact ⟨h1, fun h => h2 (List.mem_cons_of_mem _ h), h3⟩
  pos b hb := by
    have := hi.pos b hb
    show 0 < (if b = a then s.rc b - 1 else s.rc b)
    by_cases e : b = a
    · subst e; simp; omega
    · simpa [e] using this
  wf := hi.wf
  rank := hi.rank

theorem decr_total {s : St} {a : Nat} {l : List Nat} (hi : Inv s l) (ha : s.live a = true) :
    (s.decr a).total < s.total := by
  have h := sum_upd (g := s.rc) (g' := (s.decr a).rc) hi.nodup ((hi.dom a).mpr ha)
    (fun b hb => by simp [St.decr, hb])
  have hp := hi.pos a ha
  have : (s.decr a).rc a = s.rc a - 1 := by simp [St.decr]
  unfold St.total
  show (s.dom.map (s.decr a).rc).sum < _
  omega

theorem refsAt_drop {s : St} {a b : Nat} : refsAt (s.drop a) b = if b = a then [] else refsAt s b := by
  unfold refsAt St.drop
  by_cases e : b = a <;> simp [e]

theorem drop_total {s : St} {a : Nat} {l : List Nat} (hi : Inv s l) (ha : s.live a = true) :
    (s.drop a).total < s.total := by
  have hm := (hi.dom a).mpr ha
  have h1 := sum_erase s.rc hm
  have hp := hi.pos a ha
  have h2 : (s.dom.erase a).map (s.drop a).rc = (s.dom.erase a).map s.rc :=
    List.map_congr_left fun b hb => by
      have : b ≠ a := (hi.nodup.mem_erase_iff.mp hb).1
      simp [St.drop, this]
  unfold St.total
  show ((s.dom.erase a).map (s.drop a).rc).sum < _
  rw [h2]; omega

theorem held_drop {s : St} {a : Nat} {l : List Nat} (hi : Inv s l) (ha : s.live a = true) (b : Nat) :
    held (s.drop a) b + (refsAt s a).count b = held s b := by
  have hm := (hi.dom a).mpr ha
  have h1 := sum_erase (fun x => (refsAt s x).count b) hm
  have h2 : (s.dom.erase a).map (fun x => (refsAt (s.drop a) x).count b) =
      (s.dom.erase a).map (fun x => (refsAt s x).count b) :=
    List.map_congr_left fun x hx => by
      have : x ≠ a := (hi.nodup.mem_erase_iff.mp hx).1
      simp [refsAt_drop, this]
  unfold held
  show ((s.dom.erase a).map (fun x => (refsAt (s.drop a) x).count b)).sum + _ = _
  rw [h2]; exact h1

theorem live_drop {s : St} {a b : Nat} : (s.drop a).live b = if b = a then false else s.live b := by
  unfold St.live St.drop
  by_cases e : b = a <;> simp [e]

theorem inv_drop {s : St} {a : Nat} {l : List Nat} (hi : Inv s (a :: l)) (ha : s.live a = true)
    (h : s.rc a = 1) : Inv (s.drop a) (refsAt s a ++ l) := by
  have hca := hi.count a ha
  rw [List.count_cons_self] at hca
  have h0 : s.ext a = 0 ∧ l.count a = 0 ∧ held s a = 0 := by omega
  have hself : a ∉ refsAt s a := fun hm => by have := held_pos_of_mem hi hm; omega
  refine ⟨hi.nodup.erase a, fun b => ?_, fun b hb => ?_, fun b hb => ?_, fun b hb => ?_, fun b c hc => ?_, ?_⟩
  · show b ∈ s.dom.erase a ↔ _
    rw [hi.nodup.mem_erase_iff, hi.dom b, live_drop]
    by_cases e : b = a <;> simp [e]
  · rw [live_drop] at hb
    by_cases e : b = a
    · simp [e] at hb
    · simp only [e, if_false] at hb
      have h1 := hi.count b hb
      have h2 := held_drop hi ha b
      have e' : ¬ a = b := fun h => e h.symm
      rw [List.count_cons] at h1
      rw [List.count_append]
      show (if b = a then 0 else s.rc b) = s.ext b + _ + _
      simp [e, e'] at h1 ⊢
      omega
  · rw [live_drop] at hb
    by_cases e : b = a
    · subst e
      have h2 := held_drop hi ha b
      exact ⟨h0.1, fun hm => (List.mem_append.mp hm).elim hself fun h =>
        absurd (List.count_pos_iff.mpr h) (by omega), by omega⟩
    · simp only [e, if_false] at hb
      obtain ⟨h1, h2, h3⟩ := hi.dead b hb
      have h4 := held_drop hi ha b
      refine ⟨h1, fun hm => ?_, by omega⟩
      rcases List.mem_append.mp hm with hm | hm
      · have := live_of_ref hi hm
        rw [hb] at this; exact absurd this (by simp)
      · exact h2 (List.mem_cons_of_mem _ hm)
  · rw [live_drop] at hb
    by_cases e : b = a
    · simp [e] at hb
    · simp only [e, if_false] at hb
      have := hi.pos b hb
      show 0 < (if b = a then 0 else s.rc b)
      simpa [e] using this
  · have : (if b = a then none else s.cell b) = some c := hc
    by_cases e : b = a
    · simp [e] at this
    · simp only [e, if_false] at this
      exact hi.wf b c this
  · obtain ⟨rk, hrk⟩ := hi.rank
    refine ⟨rk, fun b f hf => hrk b f ?_⟩
    rw [refsAt_drop] at hf
    by_cases e : b = a
    · simp [e] at hf
    · simpa [e] using hf

theorem relAll_spec : ∀ (n : Nat) (s : St) (l : List Nat), Inv s l → s.total ≤ n →
    ∃ s', s.relAll n l = some s' ∧ Inv s' [] ∧ Less s s'
  | n, s, [], hi, _ => ⟨s, by rw [St.relAll], hi, Less.refl s⟩
  | n, s, a :: l, hi, hn => by
    have ha : s.live a = true := by
      rcases hb : s.live a with _ | _
      · exact absurd List.mem_cons_self (hi.dead a hb).2.1
      · rfl
    obtain ⟨c, hc⟩ := live_iff_cell.mp ha
    have hp := hi.pos a ha
    have hle := le_sum (g := s.rc) ((hi.dom a).mpr ha)
    obtain ⟨n, rfl⟩ : ∃ k, n = k + 1 := ⟨n - 1, by unfold St.total at hn; omega⟩
    rw [St.relAll, hc]
    dsimp only
    rw [if_neg (by omega)]
    by_cases h1 : s.rc a = 1
    · rw [if_pos h1, hi.wf a c hc]
      have hd := inv_drop hi ha h1
      rw [refsAt_some hc] at hd
      have ht := drop_total hi ha
      obtain ⟨s', h2, h3, h4⟩ := relAll_spec n (s.drop a) (c.refs ++ l) hd (by omega)
      have h5 : Less s (s.drop a) := by
        refine ⟨fun b d h => ?_, rfl, rfl⟩
        have : (if b = a then none else s.cell b) = some d := h
        by_cases e : b = a
        · simp [e] at this
        · simpa [e] using this
      exact ⟨s', h2, h3, h5.trans h4⟩
    · rw [if_neg h1]
      have hd := inv_decr hi ha (by omega)
      have ht := decr_total hi ha
      obtain ⟨s', h2, h3, h4⟩ := relAll_spec n (s.decr a) l hd (by omega)
      have h5 : Less s (s.decr a) := ⟨fun _ _ h => h, rfl, rfl⟩
      exact ⟨s', h2, h3, h5.trans h4⟩

/-- A reference of the client becomes one to be released. -/
theorem inv_pending {s : St} (hi : Inv s []) {a : Nat} (h : 0 < s.ext a) :
    Inv { s with ext := fun b => if b = a then s.ext b - 1 else s.ext b } [a] where
  nodup := hi.nodup
  dom := hi.dom
  count b hb := by
    have h1 := hi.count b hb
    show s.rc b = (if b = a then s.ext b - 1 else s.ext b) + [a].count b + held s b
    simp only [List.count_nil, Nat.add_zero] at h1
    rw [List.count_cons, List.count_nil]
    by_cases e : b = a
    · subst e; simp; omega
    · have e' : ¬ a = b := fun h => e h.symm
      simp [e, e']; omega
  dead b hb := by
    obtain ⟨h1, _, h3⟩ := hi.dead b hb
    have e : b ≠ a := fun e => by subst e; omega
    exact ⟨by simp [e, h1], by simp [e], h3⟩
  pos := hi.pos
  wf := hi.wf
  rank := hi.rank

theorem release_spec {s : St} (hi : Inv s []) {a : Nat} (h : 0 < s.ext a) :
    ∃ s', s.release a = some s' ∧ Inv s' [] ∧ (∀ b c, s'.cell b = some c → s.cell b = some c) ∧
      (∀ b, s'.ext b = if b = a then s.ext b - 1 else s.ext b) ∧ s'.lost = s.lost := by
  obtain ⟨s', h1, h2, h3⟩ := relAll_spec s.total _ [a] (inv_pending hi h) (Nat.le_refl _)
  exact ⟨s', h1, h2, h3.cell, fun b => by rw [h3.ext], h3.lost⟩

/-! ## Retain -/

theorem retain_spec {s : St} (hi : Inv s []) {a : Nat} (h : s.live a = true) :
    ∃ s', s.retain a = some s' ∧ Inv s' [] ∧ s'.cell = s.cell ∧
      (∀ b, s'.ext b = if b = a then s.ext b + 1 else s.ext b) ∧ s'.lost = s.lost := by
  refine ⟨{ s with rc := fun b => if b = a then s.rc b + 1 else s.rc b
                   ext := fun b => if b = a then s.ext b + 1 else s.ext b },
    by rw [St.retain, if_pos h], ?_, rfl, fun b => rfl, rfl⟩
  refine ⟨hi.nodup, hi.dom, fun b hb => ?_, fun b hb => ?_, fun b hb => ?_, hi.wf, hi.rank⟩
  · have h1 := hi.count b hb
    show (if b = a then s.rc b + 1 else s.rc b) = (if b = a then s.ext b + 1 else s.ext b) + _ + held s b
    by_cases e : b = a <;> simp [e] at h1 ⊢ <;> omega
  · have e : b ≠ a := fun e => by
      subst e
      have : s.live b = false := hb
      rw [h] at this; exact absurd this (by simp)
    have h1 := hi.dead b hb
    exact ⟨by show (if b = a then _ else _) = _; simp [e, h1.1], h1.2⟩
  · have h1 := hi.pos b hb
    show 0 < (if b = a then s.rc b + 1 else s.rc b)
    by_cases e : b = a <;> simp [e] at h1 ⊢ <;> omega

/-! ## New objects -/

theorem refsAt_new {s : St} {a b : Nat} {c : Cell} :
    refsAt (s.new a c) b = if b = a then c.refs else refsAt s b := by
  unfold refsAt St.new
  by_cases e : b = a <;> simp [e]

theorem live_new {s : St} {a b : Nat} {c : Cell} :
    (s.new a c).live b = if b = a then true else s.live b := by
  unfold St.live St.new
  by_cases e : b = a <;> simp [e]

theorem notMem_dom {s : St} {l : List Nat} (hi : Inv s l) {a : Nat} (h : s.cell a = none) : a ∉ s.dom :=
  fun hm => by
    have := (hi.dom a).mp hm
    rw [dead_iff_cell.mpr h] at this
    exact absurd this (by simp)

theorem held_new {s : St} {a : Nat} {c : Cell} {l : List Nat} (hi : Inv s l) (h : s.cell a = none) (b : Nat) :
    held (s.new a c) b = c.refs.count b + held s b := by
  have hm := notMem_dom hi h
  unfold held
  show ((a :: s.dom).map _).sum = _
  rw [List.map_cons, List.sum_cons, refsAt_new, if_pos rfl]
  congr 2
  exact List.map_congr_left fun x hx => by
    have : x ≠ a := fun e => hm (e ▸ hx)
    simp [refsAt_new, this]

theorem inv_new {s : St} (hi : Inv s []) {a : Nat} {c : Cell} (h : s.cell a = none)
    (hr : ∀ f ∈ c.refs, s.live f = true) (hw : c.releases = some c.refs) : Inv (s.new a c) [] := by
  have hda := hi.dead a (dead_iff_cell.mpr h)
  have hself : a ∉ c.refs := fun hm => by
    have := hr a hm
    rw [dead_iff_cell.mpr h] at this
    exact absurd this (by simp)
  refine ⟨List.nodup_cons.mpr ⟨notMem_dom hi h, hi.nodup⟩, fun b => ?_, fun b hb => ?_, fun b hb => ?_,
    fun b hb => ?_, fun b d hd => ?_, ?_⟩
  · show b ∈ a :: s.dom ↔ _
    rw [List.mem_cons, live_new, hi.dom b]
    by_cases e : b = a <;> simp [e]
  · rw [held_new hi h]
    show (if b = a then 1 else s.rc b + c.refs.count b) = (if b = a then 1 else s.ext b) + _ + _
    rw [live_new] at hb
    by_cases e : b = a
    · subst e
      have := List.count_eq_zero.mpr hself
      simp [this, hda.2.2]
    · simp only [e, if_false] at hb ⊢
      have := hi.count b hb
      simp only [List.count_nil, Nat.add_zero] at this ⊢
      omega
  · rw [live_new] at hb
    by_cases e : b = a
    · simp [e] at hb
    · simp only [e, if_false] at hb
      have h1 := hi.dead b hb
      refine ⟨by show (if b = a then 1 else s.ext b) = 0; simp [e, h1.1], by simp, ?_⟩
      rw [held_new hi h, h1.2.2, Nat.add_zero]
      exact List.count_eq_zero.mpr fun hm => by
        have := hr b hm
        rw [hb] at this; exact absurd this (by simp)
  · show 0 < (if b = a then 1 else s.rc b + c.refs.count b)
    rw [live_new] at hb
    by_cases e : b = a
    · simp [e]
    · simp only [e, if_false] at hb ⊢
      have := hi.pos b hb
      omega
  · have h1 : (if b = a then some c else s.cell b) = some d := hd
    by_cases e : b = a
    · simp only [e, if_true, Option.some.injEq] at h1
      exact h1 ▸ hw
    · simp only [e, if_false] at h1
      exact hi.wf b d h1
  · obtain ⟨rk, hrk⟩ := hi.rank
    refine ⟨fun b => if b = a then (c.refs.map rk).sum + 1 else rk b, fun b f hf => ?_⟩
    rw [refsAt_new] at hf
    by_cases e : b = a
    · subst e
      simp only [if_true] at hf
      have hfb : f ≠ b := fun e => hself (e ▸ hf)
      have := le_sum (g := rk) hf
      simp only [hfb, if_false, if_true]
      omega
    · simp only [e, if_false] at hf
      have hfa : f ≠ a := fun e => by
        subst e
        have := held_pos_of_mem hi hf
        omega
      simp only [hfa, e, if_false]
      exact hrk b f hf

/-! ## Changes in place -/

theorem refs_setBit (c : Cell) : c.setBit.refs = c.refs := by cases c <;> rfl

/-- Only the bit of an object changes, and it is a vector or a literal. -/
theorem setBit_spec {s : St} (hi : Inv s []) {a : Nat} {c : Cell} (h : s.cell a = some c)
    (hw : c.setBit.releases = some c.refs) :
    ∃ s', s.setBit (some a) = some s' ∧ Inv s' [] ∧
      (∀ b, s'.cell b = if b = a then some c.setBit else s.cell b) ∧ s'.ext = s.ext ∧ s'.lost = s.lost ∧
      (∀ b, refsAt s' b = refsAt s b) := by
  refine ⟨{ s with cell := fun b => if b = a then some c.setBit else s.cell b }, ?_, ?_, fun b => rfl, rfl, rfl, ?_⟩
  · simp only [St.setBit, h]
  · have hl : ∀ b, St.live { s with cell := fun b => if b = a then some c.setBit else s.cell b } b = s.live b := by
      intro b
      unfold St.live
      by_cases e : b = a
      · subst e; simp [h]
      · simp [e]
    have hr : ∀ b, refsAt { s with cell := fun b => if b = a then some c.setBit else s.cell b } b = refsAt s b := by
      intro b
      unfold refsAt
      by_cases e : b = a
      · subst e; simp [h, refs_setBit]
      · simp [e]
    have hh : ∀ b, held { s with cell := fun b => if b = a then some c.setBit else s.cell b } b = held s b := by
      intro b
      unfold held
      congr 1
      exact List.map_congr_left fun x _ => by rw [hr]
    refine ⟨hi.nodup, fun b => by rw [hl]; exact hi.dom b, fun b hb => ?_, fun b hb => ?_, fun b hb => ?_,
      fun b d hd => ?_, ?_⟩
    · rw [hl] at hb; rw [hh]; exact hi.count b hb
    · rw [hl] at hb; rw [hh]; exact hi.dead b hb
    · rw [hl] at hb; exact hi.pos b hb
    · have h1 : (if b = a then some c.setBit else s.cell b) = some d := hd
      by_cases e : b = a
      · simp only [e, if_true, Option.some.injEq] at h1
        rw [← h1, refs_setBit]; exact hw
      · simp only [e, if_false] at h1
        exact hi.wf b d h1
    · obtain ⟨rk, hrk⟩ := hi.rank
      exact ⟨rk, fun b f hf => hrk b f (by rw [hr] at hf; exact hf)⟩
  · intro b
    unfold refsAt
    by_cases e : b = a
    · subst e; simp [h, refs_setBit]
    · simp [e]

open Classical in
theorem add_spec {s : St} (hi : Inv s []) {v x : Nat} {b : Bool} {items : List Nat}
    (h : s.cell v = some (.vec b items)) (hx : s.live x = true) (hp : ¬ Path s x v) :
    ∃ s', s.add true v x = some s' ∧ Inv s' [] ∧
      (∀ c, s'.cell c = if c = v then some (.vec b (items ++ [x])) else s.cell c) ∧
      s'.ext = s.ext ∧ s'.lost = s.lost := by
  refine ⟨{ s with cell := fun c => if c = v then some (.vec b (items ++ [x])) else s.cell c
                   rc := fun c => if c = x then s.rc c + 1 else s.rc c }, ?_, ?_, fun c => rfl, rfl, rfl⟩
  · simp only [St.add, h]
    simp [hx]
  generalize hs' : ({ s with cell := fun c => if c = v then some (.vec b (items ++ [x])) else s.cell c
                             rc := fun c => if c = x then s.rc c + 1 else s.rc c } : St) = s'
  have hcell : ∀ c, s'.cell c = if c = v then some (.vec b (items ++ [x])) else s.cell c := by subst hs'; intro c; rfl
  have hrc : ∀ c, s'.rc c = if c = x then s.rc c + 1 else s.rc c := by subst hs'; intro c; rfl
  have hdom : s'.dom = s.dom := by subst hs'; rfl
  have hext : s'.ext = s.ext := by subst hs'; rfl
  have hlv : s.live v = true := live_iff_cell.mpr ⟨_, h⟩
  have hl : ∀ c, s'.live c = s.live c := by
    intro c
    unfold St.live
    rw [hcell]
    by_cases e : c = v
    · subst e; simp [h]
    · simp [e]
  have hr : ∀ c, refsAt s' c = if c = v then items ++ [x] else refsAt s c := by
    intro c
    unfold refsAt
    rw [hcell]
    by_cases e : c = v
    · subst e; simp [Cell.refs]
    · simp [e]
  have hrv : refsAt s v = items := refsAt_some h
  have hh : ∀ c, held s' c = held s c + if c = x then 1 else 0 := by
    intro c
    have := sum_upd (g := fun y => (refsAt s y).count c) (g' := fun y => (refsAt s' y).count c) hi.nodup
      ((hi.dom v).mpr hlv) (fun y hy => by simp [hr, hy])
    simp only [hr v, if_true, hrv, List.count_append, List.count_cons, List.count_nil] at this
    unfold held
    rw [hdom]
    by_cases e : c = x
    · subst e; simp at this ⊢; omega
    · have e' : ¬ x = c := fun h => e h.symm
      simp [e, e'] at this ⊢; omega
  refine ⟨hdom ▸ hi.nodup, fun c => by rw [hdom, hl]; exact hi.dom c, fun c hc => ?_, fun c hc => ?_,
    fun c hc => ?_, fun c d hd => ?_, ?_⟩
  · rw [hl] at hc
    have := hi.count c hc
    rw [hrc, hh, hext]
    by_cases e : c = x
    · subst e; simp at this ⊢; omega
    · simp [e] at this ⊢; omega
  · rw [hl] at hc
    obtain ⟨h1, h2, h3⟩ := hi.dead c hc
    have e : c ≠ x := fun e => by subst e; rw [hx] at hc; exact absurd hc (by simp)
    rw [hext, hh]
    exact ⟨h1, h2, by simp [e, h3]⟩
  · rw [hl] at hc
    have := hi.pos c hc
    rw [hrc]
    by_cases e : c = x <;> simp [e] at this ⊢ <;> omega
  · rw [hcell] at hd
    by_cases e : c = v
    · simp only [e, if_true, Option.some.injEq] at hd
      subst hd; rfl
    · simp only [e, if_false] at hd
      exact hi.wf c d hd
  · obtain ⟨rk, hrk⟩ := hi.rank
    refine ⟨fun c => if Path s c v then rk c + rk x + 1 else rk c, fun c f hf => ?_⟩
    rw [hr] at hf
    have old : ∀ f ∈ refsAt s c, (if Path s f v then rk f + rk x + 1 else rk f) <
        (if Path s c v then rk c + rk x + 1 else rk c) := by
      intro f hf
      have h1 := hrk c f hf
      by_cases hpf : Path s f v
      · rw [if_pos hpf, if_pos (Path.step hf hpf)]; omega
      · rw [if_neg hpf]
        by_cases hpc : Path s c v
        · rw [if_pos hpc]; omega
        · rw [if_neg hpc]; exact h1
    by_cases e : c = v
    · subst e
      simp only [if_true, List.mem_append, List.mem_singleton] at hf
      rcases hf with hf | rfl
      · exact old f (by rw [hrv]; exact hf)
      · show (if Path s f c then _ else _) < (if Path s c c then _ else _)
        rw [if_neg hp, if_pos (Path.refl c)]; omega
    · simp only [e, if_false] at hf
      exact old f hf

end Cowl.Own
