import Verif.PrefixMemSpec
import Verif.PrefixMapLemmas
import Verif.HeapProps
/-!
# Lemmas: prefix maps in memory
-/
namespace Cowl.PMem
open Heap

/-! ## Steps of the heap -/

/-- The text of a string, for addresses of strings. -/
def txt (s : St) (a : Nat) : Str := (s.content a).getD []

/-- A namespace of a map: interned, or the empty string. -/
def Canon (s : St) (a : Nat) : Prop := (∃ c, s.cellOf a = some (.str c true)) ∨ a = s.empty

/-- No new objects; strings may have been interned, objects may have been freed. -/
def Shrink (s s' : St) : Prop := s'.empty = s.empty ∧ ∀ b c, s'.cellOf b = some c →
  s.cellOf b = some c ∨ ∃ t, c = .str t true ∧ s.cellOf b = some (.str t false)

/-- Objects that are there before and after have not changed; strings may have been interned. -/
def Step (s s' : St) : Prop := s'.empty = s.empty ∧ ∀ b c, s.cellOf b = some c → Live s' b →
  s'.cellOf b = some c ∨ ∃ t, c = .str t false ∧ s'.cellOf b = some (.str t true)

theorem Shrink.refl (s : St) : Shrink s s := ⟨rfl, fun _ _ h => .inl h⟩

theorem Shrink.trans {s t u : St} (h : Shrink s t) (h' : Shrink t u) : Shrink s u := by
  refine ⟨h'.1.trans h.1, fun b c hc => ?_⟩
  rcases h'.2 b c hc with h1 | ⟨x, rfl, h1⟩
  · exact h.2 b c h1
  · rcases h.2 b _ h1 with h2 | ⟨y, e, _⟩
    · exact .inr ⟨x, rfl, h2⟩
    · cases e

theorem Shrink.step {s s' : St} (h : Shrink s s') : Step s s' := by
  refine ⟨h.1, fun b c hc hl => ?_⟩
  obtain ⟨d, hd⟩ := live_iff.1 hl
  rcases h.2 b d hd with h1 | ⟨t, rfl, h1⟩
  · rw [hc] at h1; cases h1; exact .inl hd
  · rw [hc] at h1; cases h1; exact .inr ⟨t, rfl, hd⟩

theorem step_of_le {s s' : St} (he : s'.empty = s.empty) (h : Heap.Le s s') : Step s s' :=
  ⟨he, fun b c hc _ => h b c hc⟩

theorem shrink_of_sub {s s' : St} (he : s'.empty = s.empty) (h : Heap.Sub s s') : Shrink s s' :=
  ⟨he, fun b c hc => .inl (h b c hc)⟩

theorem Step.content {s s' : St} (h : Step s s') {a : Nat} {t : Str} (hl : Live s' a)
    (ht : s.content a = some t) : s'.content a = some t := by
  rw [content_eq] at ht ⊢
  obtain ⟨i, hi⟩ := denotes_str_iff.1 ht
  rcases h.2 a _ hi hl with h1 | ⟨u, e, h1⟩
  · exact .str h1
  · cases e; exact .str h1

theorem Step.canon {s s' : St} (h : Step s s') {a : Nat} (hl : Live s' a) (ht : Canon s a) :
    Canon s' a := by
  rcases ht with ⟨c, hc⟩ | ht
  · rcases h.2 a _ hc hl with h1 | ⟨u, e, h1⟩
    · exact .inl ⟨c, h1⟩
    · cases e
  · exact .inr (ht.trans h.1.symm)

theorem canon_content {s : St} (h : Reachable s) {a : Nat} (ha : Canon s a) : ∃ t, s.content a = some t := by
  rcases ha with ⟨c, hc⟩ | rfl
  · exact ⟨c, content_eq.2 (.str hc)⟩
  · exact ⟨[], content_eq.2 (.str (reachable_inv h).emptyC)⟩

theorem canon_eq {s : St} (h : Reachable s) {a b : Nat} (ha : Canon s a) (hb : Canon s b)
    (he : s.content a = s.content b) : a = b := by
  have hi := reachable_inv h
  have key : ∀ a b c, s.cellOf a = some (.str c true) → b = s.empty → s.content a = s.content b → a = b := by
    intro a b c hc hb he
    exfalso
    have h1 : s.content a = some c := content_eq.2 (.str hc)
    have h2 : s.content b = some [] := by rw [hb]; exact content_eq.2 (.str hi.emptyC)
    rw [h1, h2] at he
    cases he
    exact hi.strNe a hc
  rcases ha with ⟨c, hc⟩ | ha <;> rcases hb with ⟨d, hd⟩ | hb
  · have h1 : s.content a = some c := content_eq.2 (.str hc)
    have h2 : s.content b = some d := content_eq.2 (.str hd)
    rw [h1, h2] at he; cases he
    exact hi.strU a b c hc hd
  · exact key a b c hc hb he
  · exact (key b a d hd ha he.symm).symm
  · rw [ha, hb]

theorem live_of_content {s : St} {a : Nat} {t : Str} (h : s.content a = some t) : Live s a :=
  live_iff.2 (Denotes.live (content_eq.1 h))

theorem live_of_ext {s : St} (h : Reachable s) {a : Nat} (hx : 0 < s.ext a) : Live s a :=
  live_iff.2 ((reachable_inv h).extLive a hx)

/-- Releasing a reference. -/
theorem do_release {s : St} (h : Reachable s) {a : Nat} (hx : 0 < s.ext a) :
    ∃ s', release s a = some s' ∧ Reachable s' ∧ s'.empty = s.empty ∧ Heap.Sub s s' ∧
      (∀ b, s'.ext b + (if b = a then 1 else 0) = s.ext b) := by
  obtain ⟨s', e, R⟩ := release_spec (reachable_inv h) hx
  refine ⟨s', e, .step h (op := .release a) (r := a) hx (by show (release s a).map _ = _; rw [e]; rfl),
    R.emp, R.sub, fun b => ?_⟩
  rw [R.ext, upd]
  by_cases hb : b = a
  · subst hb; simp; omega
  · simp [hb]

/-- Retaining a string. -/
theorem do_retain {s : St} (h : Reachable s) {a : Nat} (hl : Live s a) :
    ∃ s', retain s a = some s' ∧ Reachable s' ∧ Shrink s s' ∧ Heap.Le s s' ∧
      (∀ b, s'.ext b = s.ext b + (if b = a then 1 else 0)) := by
  obtain ⟨c, hc⟩ := live_iff.1 hl
  obtain ⟨s', e, hi, hcells, hext, hemp⟩ := inv_retain (reachable_inv h) hc
  refine ⟨s', e, .step h (op := .retain a) (r := a) hl (by show (retain s a).map _ = _; rw [e]; rfl),
    ⟨hemp, fun b d hd => ?_⟩, le_of_cells_eq hcells, fun b => ?_⟩
  · simp only [St.cellOf, hcells] at hd
    exact .inl hd
  · rw [hext, upd]
    by_cases hb : b = a
    · subst hb; simp
    · simp [hb]

/-- Interning a string. -/
theorem do_intern {s : St} (h : Reachable s) {a : Nat} {t : Str} (ht : s.content a = some t) :
    ∃ s' r, intern s a = some (s', r) ∧ Reachable s' ∧ Shrink s s' ∧ Heap.Le s s' ∧ s'.ext = s.ext ∧
      Canon s' r ∧ s'.content r = some t := by
  have hd : Denotes s a (.str t) := content_eq.1 ht
  obtain ⟨s', r, e, I⟩ := intern_spec (reachable_inv h) hd
  refine ⟨s', r, e, .step h (op := .intern a) (r := r) ⟨t, hd⟩ e, ⟨I.emp, ?_⟩, I.le, I.ext, ?_,
    content_eq.2 I.den⟩
  · intro b c hc
    obtain ⟨d, hd⟩ := I.only b c hc
    rcases I.le b d hd with h1 | ⟨u, e1, h1⟩
    · rw [hc] at h1; cases h1; exact .inl hd
    · rw [hc] at h1; cases h1; exact .inr ⟨u, rfl, e1 ▸ hd⟩
  · rcases I.res with h1 | ⟨_, h1⟩
    · exact .inl ⟨t, h1⟩
    · exact .inr (h1.trans I.emp.symm)

/-! ## Counting references -/

theorem held_nil (a : Nat) : held [] a = 0 := rfl

theorem held_cons (e : Nat × Nat) (f : Tbl) (a : Nat) :
    held (e :: f) a = held f a + (if a = e.1 then 1 else 0) + (if a = e.2 then 1 else 0) := by
  unfold held
  simp only [List.map_cons, List.count_cons, beq_iff_eq, eq_comm (b := a)]
  omega

theorem held_append (f g : Tbl) (a : Nat) : held (f ++ g) a = held f a + held g a := by
  unfold held
  simp only [List.map_append, List.count_append]
  omega

theorem held_perm {f g : Tbl} (h : f.Perm g) (a : Nat) : held f a = held g a := by
  unfold held
  rw [(h.map Prod.fst).count_eq, (h.map Prod.snd).count_eq]

theorem held_mem {f : Tbl} {e : Nat × Nat} (h : e ∈ f) : 0 < held f e.1 ∧ 0 < held f e.2 := by
  unfold held
  have h1 := List.count_pos_iff.2 (List.mem_map_of_mem (f := Prod.fst) h)
  have h2 := List.count_pos_iff.2 (List.mem_map_of_mem (f := Prod.snd) h)
  omega

theorem held_filter (p : Nat × Nat → Bool) (a : Nat) : ∀ f : Tbl,
    held (f.filter p) a + held (f.filter fun e => !p e) a = held f a
  | [] => rfl
  | e :: f => by
    have ih := held_filter p a f
    cases h : p e <;> simp [List.filter_cons, h, held_cons] <;> omega

/-! ## Lookups -/

theorem find_eq {s : St} {t : Str} : ∀ {f : Tbl}, (∀ e ∈ f, ∃ t, s.content e.1 = some t) →
    find s t f = some (f.find? fun e => txt s e.1 = t)
  | [], _ => rfl
  | e :: f, h => by
    obtain ⟨u, hu⟩ := h e (by simp)
    rw [find, hu]
    have hx : txt s e.1 = u := by simp [txt, hu]
    by_cases hc : u = t
    · simp [hc, hx]
    · have ih := find_eq (s := s) (t := t) (f := f) fun x hx => h x (by simp [hx])
      simp [hc, hx, ih]

theorem content_txt {s : St} {a : Nat} (h : ∃ t, s.content a = some t) : s.content a = some (txt s a) := by
  obtain ⟨t, h⟩ := h
  simp [txt, h]

/-! ## Texts -/

/-- An entry of the first table, as texts. -/
def vf (τ : Nat → Str) (e : Nat × Nat) : Prefix.SRef × Str := (⟨e.1, τ e.1⟩, τ e.2)
/-- An entry of the second table, as texts. -/
def vr (τ : Nat → Str) (e : Nat × Nat) : Str × Prefix.SRef := (τ e.1, ⟨e.2, τ e.2⟩)
/-- A map, as texts. -/
def viewT (τ : Nat → Str) (m : MMap) : Prefix.PMap := ⟨m.fwd.map (vf τ), m.rev.map (vr τ), m.dirty⟩

theorem view_eq (s : St) (m : MMap) : view s m = viewT (txt s) m := rfl

theorem viewT_congr {τ τ' : Nat → Str} {m : MMap} (h1 : ∀ e ∈ m.fwd, τ e.1 = τ' e.1 ∧ τ e.2 = τ' e.2)
    (h2 : ∀ e ∈ m.rev, τ e.1 = τ' e.1 ∧ τ e.2 = τ' e.2) : viewT τ m = viewT τ' m := by
  unfold viewT
  congr 1
  · exact List.map_congr_left fun e he => by simp [vf, h1 e he]
  · exact List.map_congr_left fun e he => by simp [vr, h2 e he]

theorem fwdFind_view (τ : Nat → Str) (t : Str) : ∀ f : Tbl,
    Prefix.fwdFind t (f.map (vf τ)) = (f.find? fun e => τ e.1 = t).map (vf τ)
  | [] => rfl
  | e :: f => by
    rw [List.map_cons, Prefix.fwdFind, List.find?_cons, fwdFind_view τ t f]
    by_cases h : τ e.1 = t <;> simp [vf, h]

theorem revFind_view (τ : Nat → Str) (t : Str) : ∀ f : Tbl,
    Prefix.revFind t (f.map (vr τ)) = (f.find? fun e => τ e.1 = t).map fun e => ⟨e.2, τ e.2⟩
  | [] => rfl
  | e :: f => by
    rw [List.map_cons, Prefix.revFind, List.find?_cons, revFind_view τ t f]
    by_cases h : τ e.1 = t <;> simp [vr, h]

theorem erase_none {k : Nat} {f : Tbl} (h : ∀ e ∈ f, e.1 ≠ k) : erase k f = f :=
  List.filter_eq_self.2 fun e he => by simpa using h e he

theorem fwdErase_view {τ : Nat → Str} : ∀ {f : Tbl}, f.Pairwise (fun x y => τ x.1 ≠ τ y.1) → ∀ {e}, e ∈ f →
    (erase e.1 f).map (vf τ) = Prefix.fwdErase (τ e.1) (f.map (vf τ))
  | [], _, _, he => by cases he
  | x :: f, h, e, he => by
    rw [List.pairwise_cons] at h
    rw [List.map_cons, Prefix.fwdErase]
    by_cases hx : τ x.1 = τ e.1
    · have hxe : x = e := by
        rcases List.mem_cons.1 he with rfl | he
        · rfl
        · exact absurd hx (h.1 e he)
      subst hxe
      have h0 : erase x.1 (x :: f) = f := by
        have := erase_none (k := x.1) (f := f) fun y hy e => h.1 y hy (by rw [e])
        unfold erase at this ⊢
        rw [List.filter_cons, if_neg (by simp)]
        exact this
      rw [h0]
      simp [vf]
    · have he' : e ∈ f := by
        rcases List.mem_cons.1 he with rfl | he
        · exact absurd rfl hx
        · exact he
      have h0 : erase e.1 (x :: f) = x :: erase e.1 f := by
        unfold erase
        rw [List.filter_cons, if_pos]
        simpa using fun e1 => hx (by rw [e1])
      rw [h0, List.map_cons, fwdErase_view h.2 he']
      simp [vf, hx]

theorem revErase_view {τ : Nat → Str} : ∀ {f : Tbl}, f.Pairwise (fun x y => τ x.1 ≠ τ y.1) → ∀ {e}, e ∈ f →
    (erase e.1 f).map (vr τ) = Prefix.revErase (τ e.1) (f.map (vr τ))
  | [], _, _, he => by cases he
  | x :: f, h, e, he => by
    rw [List.pairwise_cons] at h
    rw [List.map_cons, Prefix.revErase]
    by_cases hx : τ x.1 = τ e.1
    · have hxe : x = e := by
        rcases List.mem_cons.1 he with rfl | he
        · rfl
        · exact absurd hx (h.1 e he)
      subst hxe
      have h0 : erase x.1 (x :: f) = f := by
        have := erase_none (k := x.1) (f := f) fun y hy e => h.1 y hy (by rw [e])
        unfold erase at this ⊢
        rw [List.filter_cons, if_neg (by simp)]
        exact this
      rw [h0]
      simp [vr]
    · have he' : e ∈ f := by
        rcases List.mem_cons.1 he with rfl | he
        · exact absurd rfl hx
        · exact he
      have h0 : erase e.1 (x :: f) = x :: erase e.1 f := by
        unfold erase
        rw [List.filter_cons, if_pos]
        simpa using fun e1 => hx (by rw [e1])
      rw [h0, List.map_cons, revErase_view h.2 he']
      simp [vr, hx]

theorem revErase_none {τ : Nat → Str} {t : Str} : ∀ {f : Tbl}, (∀ e ∈ f, τ e.1 ≠ t) →
    Prefix.revErase t (f.map (vr τ)) = f.map (vr τ)
  | [], _ => rfl
  | x :: f, h => by
    rw [List.map_cons, Prefix.revErase, revErase_none fun e he => h e (by simp [he])]
    simp [vr, h x (by simp)]

/-! ## The reverse table -/

theorem revPut_sim {s : St} {τ : Nat → Str} {k n : Nat} (hk : s.content k = some (τ k)) : ∀ {r : Tbl},
    (∀ e ∈ r, s.content e.1 = some (τ e.1)) → (∀ e ∈ r, τ e.1 = τ n → s.content e.2 = some (τ e.2)) →
    ∃ r', revPut s k n (τ n) r = some r' ∧
      r'.map (vr τ) = Prefix.revPut ⟨k, τ k⟩ (τ n) (r.map (vr τ)) ∧
      (∀ e ∈ r', e ∈ r ∨ (e.2 = k ∧ (e.1 = n ∨ τ e.1 = τ n ∧ ∃ x ∈ r, x.1 = e.1))) ∧
      (r'.map Prod.fst = r.map Prod.fst ∨ (r'.map Prod.fst = r.map Prod.fst ++ [n] ∧ ∀ e ∈ r, τ e.1 ≠ τ n))
  | [], _, _ => ⟨_, rfl, rfl, by simp, .inr ⟨rfl, by simp⟩⟩
  | e :: r, h1, h2 => by
    rw [revPut, h1 e (by simp)]
    by_cases hc : τ e.1 = τ n
    · simp only [hc, if_true, hk, h2 e (by simp) hc]
      refine ⟨_, rfl, ?_, ?_, .inl (by split <;> rfl)⟩
      · rw [List.map_cons, Prefix.revPut]
        simp only [vr, hc, if_true]
        split <;> simp [vr, hc]
      · intro x hx
        split at hx
        · rcases List.mem_cons.1 hx with rfl | hx
          · exact .inr ⟨rfl, .inr ⟨hc, e, by simp, rfl⟩⟩
          · exact .inl (by simp [hx])
        · exact .inl hx
    · simp only [hc, if_false]
      obtain ⟨r', e1, e2, e3, e4⟩ := revPut_sim (k := k) (n := n) hk (r := r) (fun x hx => h1 x (by simp [hx]))
        (fun x hx => h2 x (by simp [hx]))
      refine ⟨e :: r', by rw [e1]; rfl, ?_, ?_, ?_⟩
      · rw [List.map_cons, e2, List.map_cons, Prefix.revPut]
        simp [vr, hc]
      · intro x hx
        rcases List.mem_cons.1 hx with rfl | hx
        · exact .inl (by simp)
        · rcases e3 x hx with h | ⟨h, h' | ⟨h', y, hy, e⟩⟩
          · exact .inl (by simp [h])
          · exact .inr ⟨h, .inl h'⟩
          · exact .inr ⟨h, .inr ⟨h', y, by simp [hy], e⟩⟩
      · rcases e4 with e4 | ⟨e4, h⟩
        · exact .inl (by simp [e4])
        · refine .inr ⟨by simp [e4], fun x hx => ?_⟩
          rcases List.mem_cons.1 hx with rfl | hx
          · exact hc
          · exact h x hx

/-- The loop that fills the reverse table. `τ` are the texts; prefixes in the reverse table
may have been freed as long as their namespace does not occur any more. -/
theorem revLoop_sim {s : St} (hs : Reachable s) {τ : Nat → Str} : ∀ {f r : Tbl},
    (∀ e ∈ f, s.content e.1 = some (τ e.1) ∧ s.content e.2 = some (τ e.2) ∧ Canon s e.2) →
    (∀ e ∈ r, s.content e.1 = some (τ e.1) ∧ Canon s e.1) →
    (∀ e ∈ r, ∀ x ∈ f, τ e.1 = τ x.2 → s.content e.2 = some (τ e.2)) →
    (r.map Prod.fst).Nodup →
    ∃ r', revLoop s f r = some r' ∧
      r'.map (vr τ) = (f.map (vf τ)).foldl (fun r e => Prefix.revPut e.1 e.2 r) (r.map (vr τ)) ∧
      (∀ e ∈ r', e ∈ r ∨ (e.2, e.1) ∈ f) ∧ (r'.map Prod.fst).Nodup
  | [], r, _, _, _, h4 => ⟨r, rfl, rfl, fun _ h => .inl h, h4⟩
  | e :: f, r, h1, h2, h3, h4 => by
    obtain ⟨he1, he2, he3⟩ := h1 e (by simp)
    obtain ⟨r1, e1, e2, e3, e4⟩ := revPut_sim (n := e.2) he1 (fun x hx => (h2 x hx).1)
      (fun x hx => h3 x hx e (by simp))
    have hm : ∀ x ∈ r1, x ∈ r ∨ x = (e.2, e.1) := by
      intro x hx
      rcases e3 x hx with h | ⟨h, h' | ⟨h', y, hy, e5⟩⟩
      · exact .inl h
      · exact .inr (Prod.ext h' h)
      · refine .inr (Prod.ext ?_ h)
        have := h2 y hy
        rw [e5] at this
        exact canon_eq hs this.2 he3 (by rw [this.1, he2, h'])
    have h2' : ∀ x ∈ r1, s.content x.1 = some (τ x.1) ∧ Canon s x.1 := by
      intro x hx
      rcases hm x hx with h | rfl
      · exact h2 x h
      · exact ⟨he2, he3⟩
    have h3' : ∀ x ∈ r1, ∀ y ∈ f, τ x.1 = τ y.2 → s.content x.2 = some (τ x.2) := by
      intro x hx y hy
      rcases hm x hx with h | rfl
      · exact h3 x h y (by simp [hy])
      · exact fun _ => he1
    have h4' : (r1.map Prod.fst).Nodup := by
      rcases e4 with e4 | ⟨e4, h⟩
      · rw [e4]; exact h4
      · rw [e4, List.nodup_append]
        refine ⟨h4, by simp, ?_⟩
        intro x hx y hy e5
        obtain ⟨z, hz, rfl⟩ := List.mem_map.1 hx
        simp only [List.mem_singleton] at hy
        exact h z hz (by rw [e5, hy])
    obtain ⟨r', g1, g2, g3, g4⟩ := revLoop_sim hs (fun x hx => h1 x (by simp [hx])) h2' h3' h4'
    refine ⟨r', by rw [revLoop, he2]; simp only [e1, Option.bind_some]; exact g1, ?_, ?_, g4⟩
    · rw [g2, e2]; rfl
    · intro x hx
      rcases g3 x hx with h | h
      · rcases hm x h with h | rfl
        · exact .inl h
        · exact .inr (by simp)
      · exact .inr (by simp [h])

theorem update_sim {s : St} (hs : Reachable s) {τ : Nat → Str} {m : MMap}
    (h1 : ∀ e ∈ m.fwd, s.content e.1 = some (τ e.1) ∧ s.content e.2 = some (τ e.2) ∧ Canon s e.2)
    (h2 : ∀ e ∈ m.rev, s.content e.1 = some (τ e.1) ∧ Canon s e.1)
    (h3 : ∀ e ∈ m.rev, ∀ x ∈ m.fwd, τ e.1 = τ x.2 → s.content e.2 = some (τ e.2))
    (h4 : (m.rev.map Prod.fst).Nodup) :
    ∃ m', updateReverse s m = some m' ∧ viewT τ m' = (viewT τ m).updateReverse ∧ m'.fwd = m.fwd ∧
      (∀ e ∈ m'.rev, e ∈ m.rev ∨ (e.2, e.1) ∈ m.fwd) ∧ (m'.rev.map Prod.fst).Nodup := by
  unfold updateReverse Prefix.PMap.updateReverse
  cases hd : m.dirty with
  | false => exact ⟨m, rfl, by simp [viewT, hd], rfl, fun _ h => .inl h, h4⟩
  | true =>
    obtain ⟨r', e1, e2, e3, e4⟩ := revLoop_sim hs h1 h2 h3 h4
    exact ⟨{ m with rev := r', dirty := false }, by rw [e1]; rfl, by simp [viewT, hd, e2], rfl, e3, e4⟩

end Cowl.PMem
