import Verif.OntoInv
/-! # Lemmas on filters and bulk removal -/
namespace Cowl
open ObjSpec IterSpec OntoSpec

/-! ## Filters -/

theorem hasPrimitive_times {x : Obj} (h : WellFormed x) (p : Prim) :
    hasPrimitive x p = true ↔ 0 < times p x := by
  rw [C10_has_primitive x h, times_pos]

theorem matchesPrims_iff (f : Filter) {a : Ref} (h : WellFormed a.obj) :
    f.matchesPrims a = true ↔ ∀ p ∈ f.prims, 0 < times p a.obj := by
  simp only [Filter.matchesPrims, List.all_eq_true]
  exact forall_congr' fun p => imp_congr_right fun _ => hasPrimitive_times h p

theorem matchesClosure_iff (f : Filter) (a : Ref) :
    f.matchesClosure a = true ↔ Accepts f.closure a := by
  unfold Filter.matchesClosure Accepts
  cases f.closure <;> simp

theorem hasType_afAll {t : Nat} (h : t < 37) : Masks.hasType Masks.afAll t = true := by
  rw [Masks.hasType_eq _ _ (by omega), Masks.getLsbD_afAll]; simpa using h

theorem matchesTypes_iff (f : Filter) {a : Ref} (h : IsAxiom a.obj) :
    f.matchesTypes a = true ↔ ∃ t, t < 37 ∧ OfType t a ∧ f.types.getLsbD t = true := by
  obtain ⟨h1, h2⟩ := isAxiom_axType h
  have : f.matchesTypes a = f.types.getLsbD (axType a.obj) := by
    unfold Filter.matchesTypes
    by_cases hall : f.types = Masks.afAll
    · rw [hall, Masks.getLsbD_afAll]; simpa using h1
    · have hf : (f.types == Masks.afAll) = false := by simpa using hall
      rw [hf, Bool.false_or, Masks.hasType_eq _ _ (by omega)]
  rw [this]
  constructor
  · intro h; exact ⟨_, h1, (h2 _).2 rfl, h⟩
  · rintro ⟨t, _, h3, h4⟩; rw [(h2 t).1 h3]; exact h4

theorem matches_iff (f : Filter) {a : Ref} (h : IsAxiom a.obj) :
    f.matches a = true ↔ Matches f a := by
  unfold Filter.matches Matches
  rw [Bool.and_eq_true, Bool.and_eq_true, matchesTypes_iff f h, matchesPrims_iff f h.1,
    matchesClosure_iff, and_assoc]

theorem noTypes_matches {f : Filter} (h : Masks.hasNoTypes f.types = true) (a : Ref) :
    ¬ Matches f a := by
  rintro ⟨⟨t, h1, _, h2⟩, _⟩
  have := (Masks.C43_all_none f.types).2.1 h t h1
  rw [Masks.hasType_eq _ _ (by omega), h2] at this
  cases this

theorem removePrimitive_perm {f : Filter} {p : Prim} (h : p ∈ f.prims) :
    f.prims.Perm (p :: (f.removePrimitive p).prims) ∧
    (f.removePrimitive p).types = f.types ∧ (f.removePrimitive p).closure = f.closure := by
  unfold Filter.removePrimitive
  cases hx : f.prims.findIdx? (fun q => decide (q = p)) with
  | none =>
    rw [List.findIdx?_eq_none_iff] at hx
    exact absurd (hx p h) (by simp)
  | some i =>
    rw [List.findIdx?_eq_some_iff_getElem] at hx
    obtain ⟨hi, h1, _⟩ := hx
    refine ⟨?_, rfl, rfl⟩
    have hp := swapRemove_perm f.prims i hi
    rw [show f.prims[i] = p by simpa using h1] at hp
    exact hp.symm

theorem occ_primVec (ps : List Prim) : occ (.vec false (ps.map Obj.prim)) = ps := by
  rw [occ]
  induction ps with
  | nil => rfl
  | cons p ps ih => rw [List.map_cons, List.length_cons, occAll, ih, occ]; rfl

/-- The possible outcomes of the choice of an index for a filter. -/
theorem bestForFilter_cases (o : Onto) (f : Filter) :
    (o.bestForFilter f = ({ f with types := 0#64 }, none) ∧
      (Masks.hasNoTypes f.types = true ∨ f.prims = [] ∨ ∃ p ∈ f.prims, ix o.idx p = [])) ∨
    (∃ p g, o.bestForFilter f = (g, some (p, o.pindex p)) ∧ f.prims.Perm (p :: g.prims) ∧
      g.closure = f.closure ∧
      ((g.types = Masks.afAll ∧ Masks.hasAllTypes f.types = true) ∨ g.types = f.types) ∧
      Masks.hasNoTypes f.types = false) ∨
    (o.bestForFilter f = (f, none) ∧ Masks.hasNoTypes f.types = false ∧
      Masks.hasAllTypes f.types = false ∧ f.prims ≠ []) := by
  unfold Onto.bestForFilter
  obtain ⟨h1, h2⟩ := bestPindex_spec o (.vec false (f.prims.map Obj.prim))
  rw [occ_primVec] at h1 h2
  cases hb : o.bestPindex (.vec false (f.prims.map Obj.prim)) with
  | none =>
    left
    have := h2 hb
    simp [vecCount, this]
  | some pv =>
    obtain ⟨p, v⟩ := pv
    obtain ⟨hv, hp⟩ := h1 p v hb
    subst hv
    dsimp only [Option.bind_some]
    split
    · rename_i hc
      left
      refine ⟨rfl, ?_⟩
      rcases hc with hc | hc
      · exact .inr (.inr ⟨p, hp, List.length_eq_zero_iff.1 hc⟩)
      · exact .inl (by simpa using hc)
    · rename_i hc
      have hno : Masks.hasNoTypes f.types = false := by
        simp only [not_or] at hc; simpa using hc.2
      right
      by_cases hall : Masks.hasAllTypes f.types = true
      · left
        rw [if_pos hall]
        obtain ⟨h3, h4, h5⟩ := removePrimitive_perm (f := { f with types := Masks.afAll }) hp
        exact ⟨p, _, rfl, h3, h5, .inl ⟨h4, hall⟩, hno⟩
      · rw [if_neg hall]
        by_cases hcnt : (o.axiomCountForTypes f.types).toNat < vecCount (o.pindex p)
        · right
          rw [if_pos hcnt]
          refine ⟨rfl, hno, by simpa using hall, ?_⟩
          intro h; rw [h] at hp; cases hp
        · left
          rw [if_neg hcnt]
          obtain ⟨h3, h4, h5⟩ := removePrimitive_perm hp
          exact ⟨p, _, rfl, h3, h5, .inr h4, hno⟩

/-- Matching with the filter left after choosing a primitive. -/
theorem matches_rest {f g : Filter} {p : Prim} (hp : f.prims.Perm (p :: g.prims))
    (hc : g.closure = f.closure)
    (ht : (g.types = Masks.afAll ∧ Masks.hasAllTypes f.types = true) ∨ g.types = f.types)
    {a : Ref} :
    Matches f a ↔ Matches g a ∧ 0 < times p a.obj := by
  have h1 : (∃ t, t < 37 ∧ OfType t a ∧ f.types.getLsbD t = true) ↔
      (∃ t, t < 37 ∧ OfType t a ∧ g.types.getLsbD t = true) := by
    rcases ht with ⟨h1, h2⟩ | h1
    · have hall := (Masks.C43_all_none f.types).1.1 h2
      rw [h1]
      constructor
      · rintro ⟨t, h3, h4, _⟩; exact ⟨t, h3, h4, by rw [Masks.getLsbD_afAll]; simpa using h3⟩
      · rintro ⟨t, h3, h4, _⟩
        exact ⟨t, h3, h4, by rw [← Masks.hasType_eq _ _ (by omega)]; exact hall t h3⟩
    · rw [h1]
  have h2 : (∀ q ∈ f.prims, 0 < times q a.obj) ↔
      (∀ q ∈ g.prims, 0 < times q a.obj) ∧ 0 < times p a.obj := by
    constructor
    · intro h
      exact ⟨fun q hq => h q (hp.mem_iff.2 (List.mem_cons_of_mem _ hq)),
        h p (hp.mem_iff.2 (List.mem_cons_self ..))⟩
    · rintro ⟨h3, h4⟩ q hq
      rcases List.mem_cons.1 (hp.mem_iff.1 hq) with rfl | h5
      · exact h4
      · exact h3 q h5
  unfold Matches
  rw [h1, h2, hc]
  constructor
  · rintro ⟨h3, ⟨h4, h5⟩, h6⟩; exact ⟨⟨h3, h4, h6⟩, h5⟩
  · rintro ⟨⟨h3, h4, h6⟩, h5⟩; exact ⟨h3, ⟨h4, h5⟩, h6⟩

/-! ## The removal loop -/

/-- The axioms listed in an index. -/
def Listed (x : IndexRef) (a : Ref) : Prop :=
  match x with
  | .prim p => 0 < times p a.obj
  | .type t => axType a.obj = t

theorem mem_items {o : Onto} {s : Abs} (h : Inv o s) (x : IndexRef) (a : Ref) :
    a ∈ o.items x ↔ a ∈ s.axioms ∧ Listed x a := by
  cases x with
  | prim p => exact ((h.prim p).mem_iff (a := a)).trans mem_refsTo
  | type t => exact ((h.type t).mem_iff (a := a)).trans (by simp [Listed])

/-- Each axiom is listed once per time it is held. -/
def Single (x : IndexRef) (held : List Ref) : Prop :=
  match x with
  | .prim p => ∀ a ∈ held, times p a.obj ≤ 1
  | .type _ => True

theorem swapRemove_prefix {α : Type} (xs : List α) (i : Nat) (h : i < xs.length) :
    (swapRemove xs i).take i = xs.take i ∧ (∀ y ∈ (swapRemove xs i).drop i, y ∈ xs.drop (i + 1)) ∧
    (swapRemove xs i).length + 1 = xs.length := by
  obtain ⟨ys, l, rfl⟩ : ∃ ys l, xs = ys ++ [l] :=
    ⟨xs.dropLast, xs.getLast (by intro hx; simp [hx] at h), (List.dropLast_concat_getLast _).symm⟩
  unfold swapRemove
  simp only [List.getLast?_append, List.getLast?_singleton, Option.some_or]
  by_cases hi : i < ys.length
  · rw [List.set_append_left _ _ hi, List.dropLast_append_of_ne_nil (by simp)]
    simp only [List.dropLast_singleton, List.append_nil]
    refine ⟨?_, ?_, by simp⟩
    · rw [List.take_append_of_le_length (by omega), List.take_set_of_le (by omega)]
    · intro y hy
      rw [List.set_eq_take_append_cons_drop, if_pos hi,
        List.drop_append_of_le_length (by simp; omega)] at hy
      simp only [List.drop_take_self, List.nil_append, List.mem_cons] at hy
      rw [List.drop_append_of_le_length (by omega), List.mem_append]
      rcases hy with rfl | hy
      · exact .inr (by simp)
      · exact .inl hy
  · have hi' : i = ys.length := by simp at h; omega
    subst hi'
    simp

theorem cons_perm_split {α : Type} {xs ys : List α} {a : α} (h : xs.Perm (a :: ys)) {zs ws : List α}
    (h' : ys.Perm (zs ++ ws)) : xs.Perm ((a :: zs) ++ ws) := h.trans (h'.cons a)

/-- What a stretch of the loop has done: some matching, listed axioms are gone. -/
structure Swept (x : IndexRef) (f : Filter) (o o' : Onto) (s s' : Abs) (removed : List Ref) :
    Prop where
  inv : Inv o' s'
  split : s.axioms.Perm (removed ++ s'.axioms)
  matched : ∀ a ∈ removed, f.matches a = true ∧ Listed x a
  annots : s'.annots = s.annots
  imports : s'.imports = s.imports
  refs : ∀ n, o'.refs n = o.refs n - (removed.countP fun b => b.addr = n : Nat)
  keys : o'.idx.map Prod.fst = o.idx.map Prod.fst

theorem Swept.subset {x : IndexRef} {f : Filter} {o o' : Onto} {s s' : Abs} {r : List Ref}
    (h : Swept x f o o' s s' r) : ∀ a ∈ s'.axioms, a ∈ s.axioms := fun _ ha =>
  h.split.mem_iff.2 (List.mem_append_right _ ha)

theorem items_after {o o' : Onto} {x : IndexRef} {s : Abs} {a : Ref} (h : Inv o s)
    (hs : Single x s.axioms) (ha : a ∈ o.items x)
    (hp : ∀ p, ix o'.idx p = dropN a (times p a.obj) (ix o.idx p))
    (ht : ∀ t, (o'.tindex t).getD [] = if t = axType a.obj then dropLastAt a ((o.tindex t).getD [])
        else (o.tindex t).getD []) : o'.items x = dropLastAt a (o.items x) := by
  obtain ⟨h1, h2⟩ := (mem_items h x a).1 ha
  cases x with
  | prim p =>
    have h3 : times p a.obj = 1 := by
      have h4 : times p a.obj ≤ 1 := hs a h1
      have h5 : 0 < times p a.obj := h2
      omega
    show ix o'.idx p = _
    rw [hp p, h3]
    rfl
  | type t =>
    show (o'.tindex t).getD [] = _
    rw [ht t, if_pos (Eq.symm h2)]
    rfl

theorem removeLoop_spec (x : IndexRef) (f : Filter) : ∀ (i : Nat) (o : Onto) (s : Abs) (c : BitVec 32),
    Inv o s → Single x s.axioms → i ≤ (o.items x).length →
    (∀ a ∈ (o.items x).drop i, f.matches a = false) →
    ∃ o' s' r, removeLoop x f i o c = some (o', c + u32 r.length) ∧ Swept x f o o' s s' r ∧
      ∀ a ∈ o'.items x, f.matches a = false
  | 0, o, s, c, h, _, _, hd => by
    refine ⟨o, s, [], by simp [removeLoop], ⟨h, by simp, by simp, rfl, rfl, by simp, rfl⟩, ?_⟩
    simpa using hd
  | i + 1, o, s, c, h, hs, hi, hd => by
    have hlt : i < (o.items x).length := by omega
    rw [removeLoop, List.getElem?_eq_getElem hlt]
    dsimp only
    have ha := (mem_items h x _).1 (List.getElem_mem hlt)
    generalize hae : (o.items x)[i] = a at ha
    by_cases hm : f.matches a = true
    · rw [if_pos hm]
      have hf : Fits s.axioms a := h.fits a ha.1
      obtain ⟨o1, h1, hr, hp, ht, hk, hinv⟩ :=
        inv_removeAndUnindex h (h.axioms a ha.1) hf (tindex_some h ha.1)
      rw [h1]
      dsimp only
      have hmem : a ∈ o.items x := (mem_items h x a).2 ha
      have hit := items_after h hs hmem hp ht
      have hlast : dropLastAt a (o.items x) = swapRemove (o.items x) i := by
        apply dropLastAt_at hlt (by rw [hae])
        intro j hj hj' he
        have hjm : (o.items x)[j] ∈ (o.items x).drop (i + 1) := by
          rw [List.mem_drop_iff_getElem]
          exact ⟨j - (i + 1), by omega, by congr 1; omega⟩
        have hja := hf _ ((mem_items h x _).1 (List.getElem_mem hj')).1 he
        have := hd _ hjm
        rw [hja, hm] at this
        cases this
      obtain ⟨hp1, hp2, hp3⟩ := swapRemove_prefix (o.items x) i hlt
      have hsub : ∀ b ∈ (s.axioms.eraseP fun b => b.addr = a.addr), b ∈ s.axioms :=
        fun b hb => List.mem_of_mem_eraseP hb
      obtain ⟨o', s', r, h2, h3, h4⟩ := removeLoop_spec x f i o1 _ (c + 1#32) hinv
        (by cases x with
          | prim p => exact fun b hb => hs b (hsub b hb)
          | type t => trivial)
        (by rw [hit, hlast]; omega)
        (by rw [hit, hlast]; exact fun b hb => hd b (hp2 b hb))
      refine ⟨o', s', a :: r, ?_, ⟨h3.inv, ?_, ?_, h3.annots, h3.imports, ?_, h3.keys.trans hk⟩, h4⟩
      · rw [h2]
        simp only [List.length_cons, u32, BitVec.ofNat_add]
        congr 2
        rw [BitVec.add_assoc, BitVec.add_comm (1#32)]
      · exact cons_perm_split (eraseP_addr_perm hf ha.1) h3.split
      · intro b hb
        rcases List.mem_cons.1 hb with h5 | h5
        · subst h5; exact ⟨hm, ha.2⟩
        · exact h3.matched b h5
      · intro n
        rw [h3.refs n, hr, bump, List.countP_cons]
        by_cases hn : n = a.addr
        · subst hn; simp; omega
        · have hn' : ¬ a.addr = n := fun h => hn h.symm
          simp [hn, hn']
    · rw [if_neg hm]
      apply removeLoop_spec x f i o s c h hs (by omega)
      rw [List.drop_eq_getElem_cons hlt, hae]
      intro b hb
      rcases List.mem_cons.1 hb with h5 | h5
      · subst h5; simpa using hm
      · exact hd b h5

theorem removeMatching_spec (x : IndexRef) (f : Filter) {o : Onto} {s : Abs} (h : Inv o s)
    (hs : Single x s.axioms) :
    ∃ o' s' r, removeMatching x f o = some (o', u32 r.length) ∧ Swept x f o o' s s' r ∧
      ∀ a ∈ s'.axioms, Listed x a → f.matches a = false := by
  obtain ⟨o', s', r, h1, h2, h3⟩ := removeLoop_spec x f (o.items x).length o s 0#32 h hs (by omega)
    (by simp)
  refine ⟨o', s', r, ?_, h2, fun a ha hl => h3 a ((mem_items h2.inv x a).2 ⟨ha, hl⟩)⟩
  rw [removeMatching, h1]
  simp

theorem removeTypes_spec (f : Filter) : ∀ (ts : List Nat) (o : Onto) (s : Abs) (c : BitVec 32),
    Inv o s →
    ∃ o' s' r, removeTypes f ts o c = some (o', c + u32 r.length) ∧ Inv o' s' ∧
      s.axioms.Perm (r ++ s'.axioms) ∧ (∀ a ∈ r, f.matches a = true ∧ axType a.obj ∈ ts) ∧
      s'.annots = s.annots ∧ s'.imports = s.imports ∧
      (∀ n, o'.refs n = o.refs n - (r.countP fun b => b.addr = n : Nat)) ∧
      (o'.idx.map Prod.fst = o.idx.map Prod.fst) ∧
      ∀ a ∈ s'.axioms, axType a.obj ∈ ts → f.matches a = false
  | [], o, s, c, h => by
    refine ⟨o, s, [], by simp [removeTypes], h, by simp, by simp, rfl, rfl, by simp, rfl, by simp⟩
  | t :: ts, o, s, c, h => by
    obtain ⟨o1, s1, r1, h1, h2, h3⟩ := removeMatching_spec (.type t) f h trivial
    obtain ⟨o2, s2, r2, g1, g2, g3, g4, g5, g6, g7, g8, g9⟩ :=
      removeTypes_spec f ts o1 s1 (c + u32 r1.length) h2.inv
    refine ⟨o2, s2, r1 ++ r2, ?_, g2, ?_, ?_, g5.trans h2.annots, g6.trans h2.imports, ?_,
      g8.trans h2.keys, ?_⟩
    · rw [removeTypes, h1]
      dsimp only
      rw [g1]
      simp only [List.length_append, u32, BitVec.ofNat_add, BitVec.add_assoc]
    · exact h2.split.trans (by rw [List.append_assoc]; exact g3.append_left r1)
    · intro a ha
      rcases List.mem_append.1 ha with ha | ha
      · obtain ⟨k1, k2⟩ := h2.matched a ha
        exact ⟨k1, by rw [show axType a.obj = t from k2]; exact List.mem_cons_self ..⟩
      · obtain ⟨k1, k2⟩ := g4 a ha
        exact ⟨k1, List.mem_cons_of_mem _ k2⟩
    · intro n
      rw [g7 n, h2.refs n, List.countP_append]
      omega
    · intro a ha hty
      rcases List.mem_cons.1 hty with h5 | h5
      · exact h3 a (g3.mem_iff.2 (List.mem_append_right _ ha)) h5
      · exact g9 a ha h5

/-- Splitting off the matching axioms. -/
theorem split_filter {α : Type} {P : α → Prop} [DecidablePred P] {xs r ys : List α}
    (h : xs.Perm (r ++ ys)) (hr : ∀ a ∈ r, P a) (hy : ∀ a ∈ ys, ¬ P a) :
    ys.Perm (xs.filter fun a => ¬ P a) ∧ r.Perm (xs.filter fun a => P a) := by
  have h1 := h.filter (fun a => decide (¬ P a))
  have h2 := h.filter (fun a => decide (P a))
  rw [List.filter_append] at h1 h2
  have e1 : r.filter (fun a => decide (¬ P a)) = [] :=
    List.filter_eq_nil_iff.2 (fun a ha => by simpa using hr a ha)
  have e2 : ys.filter (fun a => decide (¬ P a)) = ys :=
    List.filter_eq_self.2 (fun a ha => by simpa using hy a ha)
  have e3 : ys.filter (fun a => decide (P a)) = [] :=
    List.filter_eq_nil_iff.2 (fun a ha => by simpa using hy a ha)
  have e4 : r.filter (fun a => decide (P a)) = r :=
    List.filter_eq_self.2 (fun a ha => by simpa using hr a ha)
  rw [e1, e2] at h1
  rw [e3, e4] at h2
  simp only [List.nil_append, List.append_nil] at h1 h2
  exact ⟨h1.symm, h2.symm⟩

theorem typesOf_eq (f : BitVec 64) : typesOf f = (List.range 37).filter fun t => Masks.hasType f t := by
  rw [typesOf, Masks.C43_foreach]; rfl

theorem mem_typesOf {f : BitVec 64} {t : Nat} : t ∈ typesOf f ↔ t < 37 ∧ f.getLsbD t = true := by
  rw [typesOf_eq, List.mem_filter, List.mem_range]
  constructor
  · rintro ⟨h1, h2⟩; rw [Masks.hasType_eq _ _ (by omega)] at h2; exact ⟨h1, h2⟩
  · rintro ⟨h1, h2⟩; rw [Masks.hasType_eq _ _ (by omega)]; exact ⟨h1, h2⟩

theorem matches_all_types (f : Filter) {a : Ref} (ha : IsAxiom a.obj) :
    Matches f a ↔ axType a.obj ∈ typesOf f.types ∧
      ({ f with types := Masks.afAll } : Filter).matches a = true := by
  obtain ⟨h1, h2⟩ := isAxiom_axType ha
  rw [matches_iff _ ha, mem_typesOf]
  unfold Matches
  constructor
  · rintro ⟨⟨t, h3, h4, h5⟩, h6, h7⟩
    have := (h2 t).1 h4
    subst this
    exact ⟨⟨h3, h5⟩, ⟨_, h3, h4, by rw [Masks.getLsbD_afAll]; simpa using h3⟩, h6, h7⟩
  · rintro ⟨⟨h3, h4⟩, _, h6, h7⟩
    exact ⟨⟨_, h3, (h2 _).2 rfl, h4⟩, h6, h7⟩

/-- Bulk removal with a tame filter. -/
theorem removeAxiomsMatching_spec {o : Onto} {s : Abs} (h : Inv o s) (f : Filter)
    (ht : Tame s.axioms f) :
    ∃ (o' : Onto) (r : List Ref), o.removeAxiomsMatching f = some (o', u32 (s.axioms.filter fun a => Matches f a).length) ∧
      Inv o' { s with axioms := s.axioms.filter fun a => ¬ Matches f a } ∧
      r.Perm (s.axioms.filter fun a => Matches f a) ∧
      (o'.idx.map Prod.fst = o.idx.map Prod.fst) ∧
      (∀ n, o'.refs n = o.refs n - (r.countP fun b => b.addr = n : Nat)) := by
  have hnone : (∀ a ∈ s.axioms, ¬ Matches f a) →
      (s.axioms.filter fun a => Matches f a) = [] ∧ (s.axioms.filter fun a => ¬ Matches f a) = s.axioms := by
    intro h
    exact ⟨List.filter_eq_nil_iff.2 (fun a ha => by simpa using h a ha),
      List.filter_eq_self.2 (fun a ha => by simpa using h a ha)⟩
  have nothing : (∀ a ∈ s.axioms, ¬ Matches f a) → o.removeAxiomsMatching f = some (o, 0#32) →
      ∃ (o' : Onto) (r : List Ref), o.removeAxiomsMatching f = some (o', u32 (s.axioms.filter fun a => Matches f a).length) ∧
      Inv o' { s with axioms := s.axioms.filter fun a => ¬ Matches f a } ∧
      r.Perm (s.axioms.filter fun a => Matches f a) ∧
      (o'.idx.map Prod.fst = o.idx.map Prod.fst) ∧
      (∀ n, o'.refs n = o.refs n - (r.countP fun b => b.addr = n : Nat)) := by
    intro h1 h2
    obtain ⟨h3, h4⟩ := hnone h1
    exact ⟨o, [], by rw [h2, h3]; rfl, by rw [h4]; exact h, by rw [h3], rfl, by simp⟩
  by_cases h0 : f.types = 0#64
  · apply nothing
    · rintro a _ ⟨⟨t, _, _, h1⟩, _⟩
      rw [h0] at h1; simp at h1
    · simp [Onto.removeAxiomsMatching, h0]
  have hdef : o.removeAxiomsMatching f =
      match (o.bestForFilter f).2 with
      | some (p, _) => removeMatching (.prim p) (o.bestForFilter f).1 o
      | none => removeTypes { (o.bestForFilter f).1 with types := Masks.afAll }
          (typesOf (o.bestForFilter f).1.types) o 0#32 := by
    rw [Onto.removeAxiomsMatching, if_neg h0]
    rcases o.bestForFilter f with ⟨g, _ | ⟨p, v⟩⟩ <;> rfl
  have tzero : typesOf 0#64 = [] := by rw [typesOf_eq]; decide
  rcases bestForFilter_cases o f with ⟨h1, h2⟩ | ⟨p, g, h1, h2, h3, h4, h5⟩ | ⟨h1, h2, h3, h4⟩
  · apply nothing
    · rcases h2 with h2 | h2 | ⟨p, hp, h2⟩
      · exact fun a _ => noTypes_matches h2 a
      · rcases ht with ht | ht
        · rintro a _ ⟨⟨t, k1, _, k2⟩, _⟩
          rw [ht t k1] at k2; cases k2
        · exact absurd h2 ht.1
      · rintro a ha ⟨_, k1, _⟩
        have := (h.prim p).mem_iff (a := a)
        rw [h2, mem_refsTo] at this
        exact absurd (this.2 ⟨ha, k1 p hp⟩) (by simp)
    · rw [hdef, h1]
      simp [tzero, removeTypes]
  · have hs : Single (.prim p) s.axioms := by
      rcases ht with ht | ht
      · exfalso
        have : Masks.hasNoTypes f.types = true := (Masks.C43_all_none f.types).2.2 (fun t h6 => by
          rw [Masks.hasType_eq _ _ (by omega)]; exact ht t h6)
        rw [this] at h5; cases h5
      · exact ht.2 p (h2.mem_iff.2 (List.mem_cons_self ..))
    obtain ⟨o', s', r, g1, g2, g3⟩ := removeMatching_spec (.prim p) g h hs
    have hP : ∀ a ∈ r, Matches f a := by
      intro a ha
      have haa := h.axioms a (g2.split.mem_iff.2 (List.mem_append_left _ ha))
      obtain ⟨k1, k2⟩ := g2.matched a ha
      exact (matches_rest h2 h3 h4).2 ⟨(matches_iff g haa).1 k1, k2⟩
    have hN : ∀ a ∈ s'.axioms, ¬ Matches f a := by
      intro a ha hm
      obtain ⟨k1, k2⟩ := (matches_rest h2 h3 h4).1 hm
      have := g3 a ha k2
      rw [(matches_iff g (g2.inv.axioms a ha)).2 k1] at this
      cases this
    obtain ⟨q1, q2⟩ := split_filter g2.split hP hN
    refine ⟨o', r, ?_, inv_perm g2.inv q1 g2.annots g2.imports, q2, g2.keys, g2.refs⟩
    rw [hdef, h1]
    dsimp only
    rw [g1, q2.length_eq]
  · obtain ⟨o', s', r, g1, g2, g3, g4, g5, g6, g7, g8, g9⟩ :=
      removeTypes_spec { f with types := Masks.afAll } (typesOf f.types) o s 0#32 h
    have hP : ∀ a ∈ r, Matches f a := by
      intro a ha
      have haa := h.axioms a (g3.mem_iff.2 (List.mem_append_left _ ha))
      obtain ⟨k1, k2⟩ := g4 a ha
      exact (matches_all_types f haa).2 ⟨k2, k1⟩
    have hN : ∀ a ∈ s'.axioms, ¬ Matches f a := by
      intro a ha hm
      obtain ⟨k1, k2⟩ := (matches_all_types f (g2.axioms a ha)).1 hm
      have := g9 a ha k1
      rw [k2] at this
      cases this
    obtain ⟨q1, q2⟩ := split_filter g3 hP hN
    refine ⟨o', r, ?_, inv_perm g2 q1 g5 g6, q2, g8, g7⟩
    rw [hdef, h1]
    dsimp only
    rw [g1, q2.length_eq]
    simp

/-! ## Histories -/

theorem inv_step {o : Onto} {s : Abs} (h : Inv o s) (op : Op) (hl : Legal s op) :
    ∃ o', o.step op = some o' ∧ Inv o' (s.step op) := by
  cases op with
  | addAxiom a => exact ⟨_, rfl, inv_addAxiom h hl.1 hl.2⟩
  | removeAxiom a =>
    obtain ⟨o', r, h1, h2⟩ := inv_removeAxiom h hl.1 hl.2
    exact ⟨o', by simp [Onto.step, h1], h2⟩
  | removeMatching f =>
    obtain ⟨o', r, h1, h2, _⟩ := removeAxiomsMatching_spec h f hl
    exact ⟨o', by simp only [Onto.step, h1]; rfl, h2⟩
  | addAnnot x => exact ⟨_, rfl, inv_addAnnot h hl⟩
  | removeAnnot x => exact ⟨_, rfl, inv_removeAnnot x h⟩
  | addImport x => exact ⟨_, rfl, inv_addImport x h⟩
  | removeImport x => exact ⟨_, rfl, inv_removeImport x h⟩

theorem inv_run : ∀ (ops : List Op) (o : Onto) (s : Abs), Inv o s → LegalRun s ops →
    ∃ o', o.run ops = some o' ∧ Inv o' (s.run ops)
  | [], o, s, h, _ => ⟨o, rfl, h⟩
  | op :: ops, o, s, h, hl => by
    obtain ⟨o1, h1, h2⟩ := inv_step h op hl.1
    obtain ⟨o2, h3, h4⟩ := inv_run ops o1 (s.step op) h2 hl.2
    exact ⟨o2, by rw [Onto.run, h1]; exact h3, h4⟩

end Cowl
