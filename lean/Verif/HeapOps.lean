import Verif.HeapLemmas
/-! # Every operation keeps the invariant -/
namespace Cowl.Heap

/-- Objects of the first state are there in the second, unchanged or interned. -/
def Le (s s' : St) : Prop := ∀ b c, s.cellOf b = some c → s'.cellOf b = some c ∨
    ∃ t, c = .str t false ∧ s'.cellOf b = some (.str t true)
/-- The second state has no new objects. -/
def Sub (s s' : St) : Prop := ∀ b c, s'.cellOf b = some c → s.cellOf b = some c

theorem Le.refl (s : St) : Le s s := fun _ _ h => .inl h
theorem Le.trans {s t u : St} (h : Le s t) (h' : Le t u) : Le s u := by
  intro b c hc
  rcases h b c hc with h1 | ⟨x, e, h1⟩
  · exact h' b c h1
  · rcases h' b _ h1 with h2 | ⟨y, e', _⟩
    · exact .inr ⟨x, e, h2⟩
    · cases e'
theorem Sub.refl (s : St) : Sub s s := fun _ _ h => h
theorem Sub.trans {s t u : St} (h : Sub s t) (h' : Sub t u) : Sub s u :=
  fun b c hd => h b c (h' b c hd)

theorem Denotes.live {s : St} {a : Nat} {v : Val} (h : Denotes s a v) : ∃ c, s.cellOf a = some c := by
  cases h <;> exact ⟨_, by assumption⟩

theorem denotes_str_iff {s : St} {a : Nat} {c : Str} :
    Denotes s a (.str c) ↔ ∃ i, s.cellOf a = some (.str c i) :=
  ⟨fun h => by cases h with | str h => exact ⟨_, h⟩, fun ⟨_, h⟩ => .str h⟩

theorem content_eq {s : St} {a : Nat} {c : Str} : s.content a = some c ↔ Denotes s a (.str c) := by
  rw [denotes_str_iff]
  unfold St.content
  split
  · rename_i c' i h; simp [h]
  · rename_i h
    constructor
    · intro e; cases e
    · rintro ⟨i, e⟩; exact absurd e (h _ _)

theorem le_of_cells_eq {s s' : St} (h : s'.cells = s.cells) : Le s s' := by
  intro b c hc
  left
  simpa [St.cellOf, h] using hc

/-- Objects keep their value. -/
theorem Le.den {s s' : St} (h : Le s s') (b : Nat) (v : Val) (hd : Denotes s b v) : Denotes s' b v := by
  induction hd with
  | str hb =>
    rcases h _ _ hb with h1 | ⟨t, e, h1⟩
    · exact .str h1
    · cases e; exact .str h1
  | iri hb _ _ h1 h2 =>
    rcases h _ _ hb with h3 | ⟨t, e, _⟩
    · exact .iri h3 h1 h2
    · cases e
  | ent hb _ h1 =>
    rcases h _ _ hb with h3 | ⟨t, e, _⟩
    · exact .ent h3 h1
    · cases e
  | anon hb _ h1 =>
    rcases h _ _ hb with h3 | ⟨t, e, _⟩
    · exact .anon h3 h1
    · cases e

/-- Objects that survive keep their value. -/
theorem Sub.denotes {s s' : St} (hs : Sub s s') (h' : Inv s') {b : Nat} {v : Val}
    (hd : Denotes s b v) (hl : ∃ c, s'.cellOf b = some c) : Denotes s' b v := by
  induction hd with
  | str hb =>
    obtain ⟨c, hc⟩ := hl
    have := hs _ _ hc
    rw [hb] at this; cases this
    exact .str hc
  | iri hb _ _ h1 h2 =>
    obtain ⟨c, hc⟩ := hl
    have := hs _ _ hc
    rw [hb] at this; cases this
    exact .iri hc (h1 (h'.fieldLive hc (by simp [Cell.fields]))) (h2 (h'.fieldLive hc (by simp [Cell.fields])))
  | ent hb _ h1 =>
    obtain ⟨c, hc⟩ := hl
    have := hs _ _ hc
    rw [hb] at this; cases this
    exact .ent hc (h1 (h'.fieldLive hc (by simp [Cell.fields])))
  | anon hb _ h1 =>
    obtain ⟨c, hc⟩ := hl
    have := hs _ _ hc
    rw [hb] at this; cases this
    exact .anon hc (h1 (h'.fieldLive hc (by simp [Cell.fields])))

/-- Every object of a good state stands for something. -/
theorem Inv.denotes {s : St} (h : Inv s) {a : Nat} {c : Cell} (hc : s.cellOf a = some c) :
    ∃ v, Denotes s a v := by
  have hs : ∀ a t i, s.cellOf a = some (.str t i) → Denotes s a (.str t) := fun a t i h => .str h
  have hi : ∀ a n r, s.cellOf a = some (.iri n r) → ∃ x, Denotes s a (.prim (.iri x)) := by
    intro a n r ha
    obtain ⟨h1, t, i, h2⟩ := h.iriF a n r ha
    rcases h1 with ⟨u, h1⟩ | h1
    · exact ⟨_, .iri ha (hs _ _ _ h1) (hs _ _ _ h2)⟩
    · exact ⟨_, .iri ha (hs _ _ _ (h1 ▸ h.emptyC)) (hs _ _ _ h2)⟩
  cases c with
  | str t i => exact ⟨_, hs _ _ _ hc⟩
  | iri n r => obtain ⟨x, hx⟩ := hi _ _ _ hc; exact ⟨_, hx⟩
  | ent k i =>
    obtain ⟨n, r, h1⟩ := h.entF a k i hc
    obtain ⟨x, hx⟩ := hi _ _ _ h1
    exact ⟨_, .ent hc hx⟩
  | anon i =>
    obtain ⟨t, b, h1⟩ := h.anonF a i hc
    exact ⟨_, .anon hc (hs _ _ _ h1)⟩

/-! ## Releases -/

theorem eraseP_eq_erase {l : List Nat} {p : Nat → Bool} {a : Nat}
    (h : ∀ b ∈ l, p b = true ↔ b = a) : l.eraseP p = l.erase a := by
  induction l with
  | nil => rfl
  | cons x xs ih =>
    have hx := h x (by simp)
    rw [List.erase_cons]
    by_cases e : x = a
    · rw [List.eraseP_cons_of_pos (hx.2 e)]; simp [e]
    · rw [List.eraseP_cons_of_neg (fun hp => e (hx.1 hp)), ih fun b hb => h b (by simp [hb])]
      simp [e]

/-- What a release does. -/
structure Released (s s' : St) (a : Nat) : Prop where
  inv : Inv s'
  ext : s'.ext = upd s.ext a (s.ext a - 1)
  emp : s'.empty = s.empty
  sub : Sub s s'

theorem not_mem_strT {s : St} (h : Inv s) {a : Nat} {c : Cell} (hc : s.cellOf a = some c)
    (hn : ∀ t, c ≠ .str t true) : s.strT.erase a = s.strT := by
  refine List.erase_of_not_mem ?_
  rw [h.strT]; rintro ⟨t, ht⟩; rw [hc] at ht; cases ht; exact hn _ rfl
theorem not_mem_iriT {s : St} (h : Inv s) {a : Nat} {c : Cell} (hc : s.cellOf a = some c)
    (hn : ∀ t u, c ≠ .iri t u) : s.iriT.erase a = s.iriT := by
  refine List.erase_of_not_mem ?_
  rw [h.iriT]; rintro ⟨t, u, ht⟩; rw [hc] at ht; cases ht; exact hn _ _ rfl
theorem not_mem_entT {s : St} (h : Inv s) {a : Nat} {c : Cell} (hc : s.cellOf a = some c)
    (hn : ∀ t u, c ≠ .ent t u) : s.entT.erase a = s.entT := by
  refine List.erase_of_not_mem ?_
  rw [h.entT]; rintro ⟨t, u, ht⟩; rw [hc] at ht; cases ht; exact hn _ _ rfl
theorem not_mem_anonT {s : St} (h : Inv s) {a : Nat} {c : Cell} (hc : s.cellOf a = some c)
    (hn : ∀ t, c ≠ .anon t) : s.anonT.erase a = s.anonT := by
  refine List.erase_of_not_mem ?_
  rw [h.anonT]; rintro ⟨t, ht⟩; rw [hc] at ht; cases ht; exact hn _ rfl

theorem sub_dropFull (s : St) (a : Nat) (c : Cell) : Sub s (dropFull s a c) := by
  intro b d hb
  have hb : (s.cells.filter fun p => p.1 != a).lookup b = some d := hb
  rw [lookup_filter_ne] at hb
  by_cases hba : b = a
  · simp [hba] at hb
  · rw [if_neg hba] at hb; exact hb

theorem released_decr {s : St} (h : Inv s) {a : Nat} (hx : 0 < s.ext a) (hr : s.rc a ≠ 1) :
    Released s (s.decr a) a := ⟨inv_decr h hx hr, rfl, rfl, Sub.refl _⟩

theorem rc_decr (s : St) (a : Nat) : (s.decr a).rc a = s.rc a - 1 := upd_same _ _ _

theorem releaseStr_spec {s : St} (h : Inv s) {a : Nat} {c : Str} {i : Bool}
    (hc : s.cellOf a = some (.str c i)) (hx : 0 < s.ext a) :
    ∃ s', releaseStr s a = some s' ∧ Released s s' a := by
  have hpos := (h.rcEq a _ hc).2
  unfold releaseStr
  simp only [hc]
  by_cases hr : s.rc a = 1
  · have e0 : ¬ (s.decr a).rc a ≠ 0 := by rw [rc_decr, hr]; simp
    rw [if_neg e0]
    have hD := inv_drop h hc hx hr
    refine ⟨_, rfl, ?_⟩
    have heq : ∀ T : List Nat, T = s.strT.erase a →
        ({ s.decr a with strT := T }).drop a = dropFull s a (.str c i) := by
      intro T hT
      subst hT
      unfold St.drop St.decr dropFull
      rw [not_mem_iriT h hc (by intros; simp), not_mem_entT h hc (by intros; simp),
        not_mem_anonT h hc (by intros; simp)]
      congr 1
    have hE : (dropFull s a (.str c i)).ext = upd s.ext a (s.ext a - 1) := by
      funext b; simp [dropFull, Cell.fields, upd]
    have hfin : (if i = true then
        { s.decr a with strT := (s.decr a).strT.eraseP fun b => (s.decr a).content b == some c }
        else s.decr a).drop a = dropFull s a (.str c i) := by
      cases i with
      | true =>
        rw [if_pos rfl]
        apply heq
        apply eraseP_eq_erase
        intro b hb
        obtain ⟨t, ht⟩ := (h.strT b).1 hb
        have : (s.decr a).content b = some t := by
          show s.content b = some t
          rw [content_eq]; exact .str ht
        rw [this]
        simp only [beq_iff_eq, Option.some.injEq]
        constructor
        · rintro rfl; exact h.strU b a t ht hc
        · rintro rfl; rw [hc] at ht; cases ht; rfl
      | false =>
        rw [if_neg (by simp)]
        have := heq (s.strT.erase a) rfl
        rw [not_mem_strT h hc (by intros; simp)] at this
        exact this
    rw [hfin]
    exact ⟨hD, hE, rfl, sub_dropFull _ _ _⟩
  · have e0 : (s.decr a).rc a ≠ 0 := by rw [rc_decr]; omega
    rw [if_pos e0]
    exact ⟨_, rfl, released_decr h hx hr⟩

theorem releaseIri_spec {s : St} (h : Inv s) {a n r : Nat}
    (hc : s.cellOf a = some (.iri n r)) (hx : 0 < s.ext a) :
    ∃ s', releaseIri s a = some s' ∧ Released s s' a := by
  have hrc := h.rcEq a _ hc
  unfold releaseIri
  simp only [hc]
  by_cases hr : s.rc a = 1
  · have e0 : ¬ (s.decr a).rc a ≠ 0 := by rw [rc_decr, hr]; simp
    rw [if_neg e0]
    have hD := inv_drop h hc hx hr
    have hind : s.indeg a = 0 := by omega
    have hna : n ≠ a := by
      rintro rfl; have := indeg_pos hc (a := n) (by simp [Cell.fields]); omega
    have hra : r ≠ a := by
      rintro rfl; have := indeg_pos hc (a := r) (by simp [Cell.fields]); omega
    have hfin : (((({ s.decr a with iriT := ((s.decr a).iriT.eraseP ((s.decr a).iriIs n ((s.decr a).content r))) } : St).drop a).own n).own r) =
        dropFull s a (.iri n r) := by
      have hT : (s.decr a).iriT.eraseP ((s.decr a).iriIs n ((s.decr a).content r)) = s.iriT.erase a := by
        apply eraseP_eq_erase
        intro b hb
        show s.iriIs n (s.content r) b = true ↔ _
        obtain ⟨n', r', ht⟩ := (h.iriT b).1 hb
        simp only [St.iriIs, ht, Bool.and_eq_true, beq_iff_eq]
        constructor
        · rintro ⟨rfl, e⟩; exact h.iriU b a n' r' r ht hc e
        · rintro rfl; rw [hc] at ht; cases ht; exact ⟨rfl, rfl⟩
      rw [hT]
      unfold St.own St.drop St.decr dropFull
      rw [not_mem_strT h hc (by intros; simp), not_mem_entT h hc (by intros; simp),
        not_mem_anonT h hc (by intros; simp)]
      congr 1
      funext b
      simp only [Cell.fields, upd, List.count_cons, List.count_nil, beq_iff_eq]
      by_cases h1 : b = a
      · subst h1
        simp [hna, hra, Ne.symm hna, Ne.symm hra]
      · by_cases h2 : b = n
        · subst h2
          by_cases h3 : b = r
          · subst h3; simp [h1]
          · simp [h1, h3, Ne.symm h3]
        · by_cases h3 : b = r
          · subst h3; simp [h1, h2, Ne.symm h2]
          · simp [h1, h2, h3, Ne.symm h2, Ne.symm h3]
    rw [hfin]
    have hExt : ∀ b, (dropFull s a (.iri n r)).ext b =
        (if b = a then s.ext a - 1 else s.ext b) + [n, r].count b := fun b => rfl
    have hsub := sub_dropFull s a (.iri n r)
    obtain ⟨h1, t, i, h2⟩ := h.iriF a n r hc
    have hn : ∃ u j, s.cellOf n = some (.str u j) := by
      rcases h1 with ⟨u, h1⟩ | h1
      · exact ⟨u, true, h1⟩
      · exact ⟨[], false, h1 ▸ h.emptyC⟩
    obtain ⟨u, j, hn⟩ := hn
    have hn1 : 0 < (dropFull s a (.iri n r)).ext n := by
      rw [hExt]
      have : 0 < [n, r].count n := List.count_pos_iff.2 (by simp)
      omega
    obtain ⟨cn, hcn⟩ := hD.extLive n hn1
    have := hsub _ _ hcn
    rw [hn] at this; cases this
    obtain ⟨s1, e1, r1⟩ := releaseStr_spec hD hcn hn1
    have hr1 : 0 < s1.ext r := by
      rw [r1.ext]
      by_cases e : r = n
      · subst e
        rw [upd_same, hExt]
        simp
      · rw [upd_ne _ _ e, hExt]
        have : 0 < [n, r].count r := List.count_pos_iff.2 (by simp)
        omega
    obtain ⟨cr, hcr⟩ := r1.inv.extLive r hr1
    have := hsub _ _ (r1.sub _ _ hcr)
    rw [h2] at this; cases this
    obtain ⟨s2, e2, r2⟩ := releaseStr_spec r1.inv hcr hr1
    refine ⟨s2, by rw [e1]; exact e2, r2.inv, ?_, by rw [r2.emp, r1.emp]; rfl,
      (hsub.trans r1.sub).trans r2.sub⟩
    rw [r2.ext, r1.ext]
    funext b
    have := hExt b
    simp only [upd] at *
    by_cases k1 : b = r
    · subst k1
      by_cases k2 : b = n
      · subst k2; simp [hExt, hra]
      · simp [hExt, hra, k2, Ne.symm k2]
    · by_cases k2 : b = n
      · subst k2; simp [k1, hExt, hna, Ne.symm k1]
      · simp [k1, k2, hExt, Ne.symm k1, Ne.symm k2]
  · have e0 : (s.decr a).rc a ≠ 0 := by rw [rc_decr]; omega
    rw [if_pos e0]
    exact ⟨_, rfl, released_decr h hx hr⟩

theorem release_spec {s : St} (h : Inv s) {a : Nat} (hx : 0 < s.ext a) :
    ∃ s', release s a = some s' ∧ Released s s' a := by
  obtain ⟨c, hc⟩ := h.extLive a hx
  have hrc := h.rcEq a _ hc
  unfold release
  cases c with
  | str t i => simp only [hc]; exact releaseStr_spec h hc hx
  | iri n r => simp only [hc]; exact releaseIri_spec h hc hx
  | ent k i =>
    simp only [hc]
    by_cases hr : s.rc a = 1
    · have e0 : ¬ (s.decr a).rc a ≠ 0 := by rw [rc_decr, hr]; simp
      rw [if_neg e0]
      have hD := inv_drop h hc hx hr
      have hind : s.indeg a = 0 := by omega
      have hia : i ≠ a := by
        rintro rfl; have := indeg_pos hc (a := i) (by simp [Cell.fields]); omega
      have hfin : ((({ s.decr a with entT := ((s.decr a).entT.eraseP ((s.decr a).entIs k i)) } : St).drop a).own i) = dropFull s a (.ent k i) := by
        have hT : (s.decr a).entT.eraseP ((s.decr a).entIs k i) = s.entT.erase a := by
          apply eraseP_eq_erase
          intro b hb
          show s.entIs k i b = true ↔ _
          obtain ⟨k', i', ht⟩ := (h.entT b).1 hb
          simp only [St.entIs, ht, Bool.and_eq_true, beq_iff_eq]
          constructor
          · rintro ⟨rfl, rfl⟩; exact h.entU b a _ _ ht hc
          · rintro rfl; rw [hc] at ht; cases ht; exact ⟨rfl, rfl⟩
        rw [hT]
        unfold St.own St.drop St.decr dropFull
        rw [not_mem_strT h hc (by intros; simp), not_mem_iriT h hc (by intros; simp),
          not_mem_anonT h hc (by intros; simp)]
        congr 1
        funext b
        simp only [Cell.fields, upd, List.count_cons, List.count_nil, beq_iff_eq]
        by_cases h1 : b = a
        · subst h1; simp [hia, Ne.symm hia]
        · by_cases h2 : b = i
          · subst h2; simp [h1]
          · simp [h1, h2, Ne.symm h2]
      rw [hfin]
      have hExt : ∀ b, (dropFull s a (.ent k i)).ext b =
          (if b = a then s.ext a - 1 else s.ext b) + [i].count b := fun b => rfl
      have hsub := sub_dropFull s a (.ent k i)
      obtain ⟨n, r, hi⟩ := h.entF a k i hc
      have hi1 : 0 < (dropFull s a (.ent k i)).ext i := by
        rw [hExt]
        have : 0 < [i].count i := List.count_pos_iff.2 (by simp)
        omega
      obtain ⟨ci, hci⟩ := hD.extLive i hi1
      have := hsub _ _ hci
      rw [hi] at this; cases this
      obtain ⟨s1, e1, r1⟩ := releaseIri_spec hD hci hi1
      refine ⟨s1, e1, r1.inv, ?_, by rw [r1.emp]; rfl, hsub.trans r1.sub⟩
      rw [r1.ext]
      funext b
      simp only [upd]
      by_cases h1 : b = i
      · subst h1; simp [hExt, hia]
      · simp [h1, hExt, Ne.symm h1]
    · have e0 : (s.decr a).rc a ≠ 0 := by rw [rc_decr]; omega
      rw [if_pos e0]
      exact ⟨_, rfl, released_decr h hx hr⟩
  | anon i =>
    simp only [hc]
    by_cases hr : s.rc a = 1
    · have e0 : ¬ (s.decr a).rc a ≠ 0 := by rw [rc_decr, hr]; simp
      rw [if_neg e0]
      have hD := inv_drop h hc hx hr
      have hind : s.indeg a = 0 := by omega
      have hia : i ≠ a := by
        rintro rfl; have := indeg_pos hc (a := i) (by simp [Cell.fields]); omega
      have hfin : ((({ s.decr a with anonT := ((s.decr a).anonT.eraseP ((s.decr a).anonIs ((s.decr a).content i))) } : St).drop a).own i) = dropFull s a (.anon i) := by
        have hT : (s.decr a).anonT.eraseP ((s.decr a).anonIs ((s.decr a).content i)) = s.anonT.erase a := by
          apply eraseP_eq_erase
          intro b hb
          show s.anonIs (s.content i) b = true ↔ _
          obtain ⟨i', ht⟩ := (h.anonT b).1 hb
          simp only [St.anonIs, ht, beq_iff_eq]
          constructor
          · intro e; exact h.anonU b a _ _ ht hc e
          · rintro rfl; rw [hc] at ht; cases ht; rfl
        rw [hT]
        unfold St.own St.drop St.decr dropFull
        rw [not_mem_strT h hc (by intros; simp), not_mem_iriT h hc (by intros; simp),
          not_mem_entT h hc (by intros; simp)]
        congr 1
        funext b
        simp only [Cell.fields, upd, List.count_cons, List.count_nil, beq_iff_eq]
        by_cases h1 : b = a
        · subst h1; simp [hia, Ne.symm hia]
        · by_cases h2 : b = i
          · subst h2; simp [h1]
          · simp [h1, h2, Ne.symm h2]
      rw [hfin]
      have hExt : ∀ b, (dropFull s a (.anon i)).ext b =
          (if b = a then s.ext a - 1 else s.ext b) + [i].count b := fun b => rfl
      have hsub := sub_dropFull s a (.anon i)
      obtain ⟨n, r, hi⟩ := h.anonF a i hc
      have hi1 : 0 < (dropFull s a (.anon i)).ext i := by
        rw [hExt]
        have : 0 < [i].count i := List.count_pos_iff.2 (by simp)
        omega
      obtain ⟨ci, hci⟩ := hD.extLive i hi1
      have := hsub _ _ hci
      rw [hi] at this; cases this
      obtain ⟨s1, e1, r1⟩ := releaseStr_spec hD hci hi1
      refine ⟨s1, e1, r1.inv, ?_, by rw [r1.emp]; rfl, hsub.trans r1.sub⟩
      rw [r1.ext]
      funext b
      simp only [upd]
      by_cases h1 : b = i
      · subst h1; simp [hExt, hia]
      · simp [h1, hExt, Ne.symm h1]
    · have e0 : (s.decr a).rc a ≠ 0 := by rw [rc_decr]; omega
      rw [if_pos e0]
      exact ⟨_, rfl, released_decr h hx hr⟩

/-! ## Constructors -/

/-- What a constructor does: the object it returns stands for the value and the
caller owns one more reference to it. -/
structure Made (s s' : St) (a r : Nat) (v : Val) : Prop where
  inv : Inv s'
  ext : s'.ext = upd s.ext r (s.ext r + 1)
  emp : s'.empty = s.empty
  le : Le s s'
  only : ∀ b c, s'.cellOf b = some c → (∃ d, s.cellOf b = some d) ∨ b = a
  den : Denotes s' r v

theorem le_allocFull {s : St} {a : Nat} (ha : s.cellOf a = none) (c : Cell) :
    Le s (allocFull s a c) := by
  intro b d hb
  left
  have : b ≠ a := by rintro rfl; rw [ha] at hb; cases hb
  rw [cellOf_allocFull, if_neg this]; exact hb

theorem only_allocFull (s : St) (a : Nat) (c : Cell) (b : Nat) (d : Cell)
    (h : (allocFull s a c).cellOf b = some d) : (∃ d, s.cellOf b = some d) ∨ b = a := by
  rw [cellOf_allocFull] at h
  by_cases hb : b = a
  · exact .inr hb
  · rw [if_neg hb] at h; exact .inl ⟨_, h⟩

theorem made_retain {s : St} (h : Inv s) {b : Nat} {v : Val} (a : Nat) (hd : Denotes s b v) :
    ∃ s', retain s b = some s' ∧ Made s s' a b v := by
  obtain ⟨c, hc⟩ := hd.live
  obtain ⟨s', e, hi, hcells, hext, hemp⟩ := inv_retain h hc
  have hle := le_of_cells_eq hcells
  refine ⟨s', e, hi, hext, hemp, hle, ?_, hle.den _ _ hd⟩
  intro b d hb
  simp only [St.cellOf, hcells] at hb
  exact .inl ⟨_, hb⟩

theorem inv_empty_denotes {s : St} (h : Inv s) : Denotes s s.empty (.str []) := .str h.emptyC

theorem made_str {s : St} (h : Inv s) {a : Nat} (ha : s.cellOf a = none) {c : Str} {i : Bool}
    (hf : Fresh s (.str c i)) : Made s (allocFull s a (.str c i)) a a (.str c) :=
  ⟨inv_alloc h ha hf, rfl, rfl, le_allocFull ha _, only_allocFull _ _ _,
    .str (by rw [cellOf_allocFull, if_pos rfl])⟩

theorem alloc_str_false (s : St) (a : Nat) (c : Str) :
    s.alloc a (.str c false) = allocFull s a (.str c false) := by
  unfold St.alloc allocFull
  congr 1

theorem newString_spec {s : St} (h : Inv s) {a : Nat} (ha : s.cellOf a = none) (c : Str) :
    ∃ s' r, newString s a c = some (s', r) ∧ Made s s' a r (.str c) := by
  unfold newString
  by_cases hc : c = []
  · rw [if_pos hc]
    obtain ⟨s', e, m⟩ := made_retain h a (inv_empty_denotes h)
    exact ⟨s', s.empty, by rw [e]; simp [m.emp], hc ▸ m⟩
  · rw [if_neg hc, alloc_str_false]
    exact ⟨_, _, rfl, made_str h ha (by intro e; cases e)⟩

theorem find_strT {s : St} (h : Inv s) (c : Str) :
    (∃ b, (s.strT.find? fun b => s.content b == some c) = some b ∧ s.cellOf b = some (.str c true)) ∨
    ((s.strT.find? fun b => s.content b == some c) = none ∧ ∀ b, s.cellOf b ≠ some (.str c true)) := by
  cases e : s.strT.find? fun b => s.content b == some c with
  | some b =>
    left
    refine ⟨b, rfl, ?_⟩
    have h1 := List.mem_of_find?_eq_some e
    have h2 := List.find?_some e
    obtain ⟨t, ht⟩ := (h.strT b).1 h1
    simp only [beq_iff_eq] at h2
    rw [content_eq, denotes_str_iff] at h2
    obtain ⟨i, h2⟩ := h2
    rw [ht] at h2; cases h2
    exact ht
  | none =>
    right
    refine ⟨rfl, ?_⟩
    intro b hb
    have := List.find?_eq_none.1 e b ((h.strT b).2 ⟨c, hb⟩)
    apply this
    simp only [beq_iff_eq]
    rw [content_eq]; exact .str hb

theorem newIntern_spec {s : St} (h : Inv s) {a : Nat} (ha : s.cellOf a = none) (c : Str) :
    ∃ s' r, newIntern s a c = some (s', r) ∧ Made s s' a r (.str c) ∧
      (s'.cellOf r = some (.str c true) ∨ (c = [] ∧ r = s.empty)) := by
  unfold newIntern
  by_cases hc : c = []
  · rw [if_pos hc]
    obtain ⟨s', e, m⟩ := made_retain h a (inv_empty_denotes h)
    exact ⟨s', s.empty, by rw [e]; simp [m.emp], hc ▸ m, .inr ⟨hc, rfl⟩⟩
  · rw [if_neg hc]
    rcases find_strT h c with ⟨b, e, hb⟩ | ⟨e, hb⟩
    · rw [e]
      obtain ⟨s', e', m⟩ := made_retain h a (.str hb)
      refine ⟨s', b, by simp only [e']; rfl, m, .inl ?_⟩
      obtain ⟨s'', e'', _, hcells, _⟩ := inv_retain h hb
      rw [e'] at e''; cases e''
      simpa [St.cellOf, hcells] using hb
    · rw [e]
      refine ⟨allocFull s a (.str c true), a, ?_, made_str h ha (fun _ => ⟨hc, hb⟩), .inl ?_⟩
      · simp only
        congr 2
      · rw [cellOf_allocFull, if_pos rfl]

/-- What `intern` does: no reference changes hands. -/
structure Interned (s s' : St) (r : Nat) (c : Str) : Prop where
  inv : Inv s'
  ext : s'.ext = s.ext
  emp : s'.empty = s.empty
  le : Le s s'
  only : ∀ b d, s'.cellOf b = some d → ∃ d, s.cellOf b = some d
  res : s'.cellOf r = some (.str c true) ∨ (c = [] ∧ r = s.empty)

theorem Interned.den {s s' : St} {r : Nat} {c : Str} (h : Interned s s' r c) :
    Denotes s' r (.str c) := by
  rcases h.res with h1 | ⟨h1, h2⟩
  · exact .str h1
  · subst h1 h2
    rw [← h.emp]; exact .str h.inv.emptyC

theorem intern_spec {s : St} (h : Inv s) {x : Nat} {c : Str} (hd : Denotes s x (.str c)) :
    ∃ s' r, intern s x = some (s', r) ∧ Interned s s' r c := by
  obtain ⟨i, hx⟩ := denotes_str_iff.1 hd
  unfold intern
  simp only [hx]
  cases i with
  | true =>
    exact ⟨s, x, by simp, h, rfl, rfl, Le.refl _, fun b d hb => ⟨d, hb⟩, .inl hx⟩
  | false =>
    simp only [Bool.false_eq_true, if_false]
    by_cases hc : c = []
    · rw [if_pos (by simp [hc])]
      exact ⟨s, s.empty, rfl, h, rfl, rfl, Le.refl _, fun b d hb => ⟨d, hb⟩, .inr ⟨hc, rfl⟩⟩
    · rw [if_neg (by simpa using hc)]
      rcases find_strT h c with ⟨b, e, hb⟩ | ⟨e, hb⟩
      · rw [e]
        exact ⟨s, b, rfl, h, rfl, rfl, Le.refl _, fun b d hb => ⟨d, hb⟩, .inl hb⟩
      · rw [e]
        obtain ⟨hI, hcell⟩ := inv_bit h hx hc hb
        refine ⟨bitFull s x c, x, rfl, hI, rfl, rfl, ?_, ?_, .inl (by rw [hcell, if_pos rfl])⟩
        · intro b d hb
          rw [hcell]
          by_cases hbx : b = x
          · subst hbx
            rw [hx] at hb; cases hb
            exact .inr ⟨c, rfl, if_pos rfl⟩
          · rw [if_neg hbx]; exact .inl hb
        · intro b d hb
          rw [hcell] at hb
          by_cases hbx : b = x
          · exact ⟨_, hbx ▸ hx⟩
          · rw [if_neg hbx] at hb; exact ⟨_, hb⟩

theorem iriUnvalidated_spec {s : St} (h : Inv s) {a n r : Nat} (ha : s.cellOf a = none) {cn cr : Str}
    (hn : Denotes s n (.str cn)) (hr : Denotes s r (.str cr)) :
    ∃ s' x, iriUnvalidated s a n r = some (s', x) ∧ Made s s' a x (.prim (.iri ⟨cn, cr⟩)) := by
  obtain ⟨s1, m, e1, I⟩ := intern_spec h hn
  unfold iriUnvalidated
  rw [e1]
  simp only [Option.bind_some]
  have hr1 := I.le.den _ _ hr
  have hcr := content_eq.2 hr1
  have ha1 : s1.cellOf a = none := by
    cases e : s1.cellOf a with
    | none => rfl
    | some d => obtain ⟨d', hd'⟩ := I.only _ _ e; rw [ha] at hd'; cases hd'
  have hm := I.den
  rw [hcr]
  simp only
  have lift : ∀ {s' x}, Made s1 s' a x (.prim (.iri ⟨cn, cr⟩)) →
      Made s s' a x (.prim (.iri ⟨cn, cr⟩)) := by
    intro s' x M
    refine ⟨M.inv, by rw [M.ext, I.ext], by rw [M.emp, I.emp], I.le.trans M.le, ?_, M.den⟩
    intro b c hb
    rcases M.only b c hb with ⟨d, hd⟩ | e
    · exact .inl (I.only b d hd)
    · exact .inr e
  cases e : s1.iriT.find? (s1.iriIs m (some cr)) with
  | some b =>
    simp only
    have h1 := List.mem_of_find?_eq_some e
    have h2 := List.find?_some e
    obtain ⟨n', r', hb⟩ := (I.inv.iriT b).1 h1
    simp only [St.iriIs, hb, Bool.and_eq_true, beq_iff_eq] at h2
    obtain ⟨rfl, h2⟩ := h2
    obtain ⟨s', e', M⟩ := made_retain I.inv a (.iri hb hm (content_eq.1 h2))
    exact ⟨s', b, by rw [e']; rfl, lift M⟩
  | none =>
    obtain ⟨dm, hdm⟩ := hm.live
    simp only [hdm]
    have hF : Fresh s1 (.iri m r) := by
      refine ⟨?_, ?_, ?_⟩
      · rcases I.res with h1 | ⟨_, h1⟩
        · exact .inl ⟨_, h1⟩
        · exact .inr (by rw [I.emp]; exact h1)
      · obtain ⟨i, hi⟩ := denotes_str_iff.1 hr1; exact ⟨_, _, hi⟩
      · intro b r' hb hc
        have := List.find?_eq_none.1 e b ((I.inv.iriT b).2 ⟨_, _, hb⟩)
        apply this
        simp only [St.iriIs, hb, hc, hcr, BEq.rfl, Bool.and_self]
    refine ⟨allocFull s1 a (.iri m r), a, ?_, lift ⟨inv_alloc I.inv ha1 hF, rfl, rfl,
      le_allocFull ha1 _, only_allocFull _ _ _, ?_⟩⟩
    · congr 2
      obtain ⟨dr, hdr⟩ := hr1.live
      have hma : m ≠ a := by rintro rfl; rw [ha1] at hdm; cases hdm
      have hra : r ≠ a := by rintro rfl; rw [ha1] at hdr; cases hdr
      unfold St.alloc allocFull St.incr
      congr 1
      funext b
      simp only [Cell.fields, upd, List.count_cons, List.count_nil, beq_iff_eq]
      by_cases h1 : b = a
      · simp [h1]
      · by_cases h2 : b = m
        · subst h2
          by_cases h3 : b = r
          · subst h3; simp [h1]
          · simp [h1, h3, Ne.symm h3]
        · by_cases h3 : b = r
          · subst h3; simp [h1, h2, Ne.symm h2]
          · simp [h1, h2, h3, Ne.symm h2, Ne.symm h3]
    · have hle := le_allocFull ha1 (.iri m r)
      exact .iri (by rw [cellOf_allocFull, if_pos rfl]) (hle.den _ _ hm) (hle.den _ _ hr1)

theorem entity_spec {s : St} (h : Inv s) {a i : Nat} (ha : s.cellOf a = none) (k : EntKind) {x : Iri}
    (hi : Denotes s i (.prim (.iri x))) :
    ∃ s' r, entity s a k i = some (s', r) ∧ Made s s' a r (.prim (.ent k x)) := by
  unfold entity
  have hc : ∃ n r, s.cellOf i = some (.iri n r) := by
    cases hi with | iri h _ _ => exact ⟨_, _, h⟩
  obtain ⟨n, r, hc⟩ := hc
  simp only [hc]
  cases e : s.entT.find? (s.entIs k i) with
  | some b =>
    simp only
    have h1 := List.mem_of_find?_eq_some e
    have h2 := List.find?_some e
    obtain ⟨k', i', hb⟩ := (h.entT b).1 h1
    simp only [St.entIs, hb, Bool.and_eq_true, beq_iff_eq] at h2
    obtain ⟨rfl, rfl⟩ := h2
    obtain ⟨s', e', M⟩ := made_retain h a (.ent hb hi)
    exact ⟨s', b, by rw [e']; rfl, M⟩
  | none =>
    simp only
    have hF : Fresh s (.ent k i) := by
      refine ⟨⟨_, _, hc⟩, ?_⟩
      intro b hb
      have := List.find?_eq_none.1 e b ((h.entT b).2 ⟨_, _, hb⟩)
      apply this
      simp only [St.entIs, hb, BEq.rfl, Bool.and_self]
    refine ⟨allocFull s a (.ent k i), a, ?_, inv_alloc h ha hF, rfl, rfl,
      le_allocFull ha _, only_allocFull _ _ _, ?_⟩
    · congr 2
      have hia : i ≠ a := by rintro rfl; rw [ha] at hc; cases hc
      unfold St.alloc allocFull St.incr
      congr 1
      funext b
      simp only [Cell.fields, upd, List.count_cons, List.count_nil, beq_iff_eq]
      by_cases h1 : b = a
      · simp [h1]
      · by_cases h2 : b = i
        · subst h2; simp [h1]
        · simp [h1, h2, Ne.symm h2]
    · exact .ent (by rw [cellOf_allocFull, if_pos rfl]) ((le_allocFull ha _).den _ _ hi)

theorem find_anonT {s : St} (h : Inv s) (c : Str) :
    (∃ b, s.anonT.find? (s.anonIs (some c)) = some b ∧ Denotes s b (.prim (.anon c))) ∨
    (s.anonT.find? (s.anonIs (some c)) = none ∧
      ∀ b i, s.cellOf b = some (.anon i) → s.content i ≠ some c) := by
  cases e : s.anonT.find? (s.anonIs (some c)) with
  | some b =>
    left
    refine ⟨b, rfl, ?_⟩
    have h1 := List.mem_of_find?_eq_some e
    have h2 := List.find?_some e
    obtain ⟨i', hb⟩ := (h.anonT b).1 h1
    simp only [St.anonIs, hb, beq_iff_eq] at h2
    exact .anon hb (content_eq.1 h2)
  | none =>
    right
    refine ⟨rfl, ?_⟩
    intro b i hb hc
    have := List.find?_eq_none.1 e b ((h.anonT b).2 ⟨_, hb⟩)
    apply this
    simp only [St.anonIs, hb, hc, BEq.rfl]

theorem anonAlloc_eq {s : St} {a id : Nat} (hia : id ≠ a) :
    ({ (s.incr id).alloc a (.anon id) with anonT := a :: s.anonT } : St) = allocFull s a (.anon id) := by
  unfold St.alloc allocFull St.incr
  dsimp only
  congr 1
  funext b
  simp only [Cell.fields, upd, List.count_cons, List.count_nil, beq_iff_eq]
  by_cases h1 : b = a
  · simp [h1]
  · by_cases h2 : b = id
    · subst h2; simp [h1]
    · simp [h1, h2, Ne.symm h2]

theorem made_anon {s : St} (h : Inv s) {a id : Nat} (ha : s.cellOf a = none) {c : Str}
    (hi : Denotes s id (.str c)) (hn : ∀ b i, s.cellOf b = some (.anon i) → s.content i ≠ some c) :
    Made s (allocFull s a (.anon id)) a a (.prim (.anon c)) := by
  have hc := content_eq.2 hi
  obtain ⟨i, hid⟩ := denotes_str_iff.1 hi
  refine ⟨inv_alloc h ha ⟨⟨_, _, hid⟩, ?_⟩, rfl, rfl, le_allocFull ha _, only_allocFull _ _ _,
    .anon (by rw [cellOf_allocFull, if_pos rfl]) ((le_allocFull ha _).den _ _ hi)⟩
  intro b i' hb
  rw [hc]; exact hn b i' hb

theorem anonInd_spec {s : St} (h : Inv s) {a id : Nat} (ha : s.cellOf a = none) {c : Str}
    (hi : Denotes s id (.str c)) :
    ∃ s' r, anonInd s a id = some (s', r) ∧ Made s s' a r (.prim (.anon c)) := by
  unfold anonInd
  rw [content_eq.2 hi]
  simp only
  rcases find_anonT h c with ⟨b, e, hb⟩ | ⟨e, hb⟩
  · rw [e]
    obtain ⟨s', e', M⟩ := made_retain h a hb
    exact ⟨s', b, by simp only [e']; rfl, M⟩
  · rw [e]
    have hia : id ≠ a := by
      obtain ⟨d, hd⟩ := hi.live
      rintro rfl; rw [ha] at hd; cases hd
    refine ⟨allocFull s a (.anon id), a, ?_, made_anon h ha hi hb⟩
    simp only [anonAlloc_eq hia]

/-- What a composite operation does: it may have freed temporary objects, never one
that was there before. -/
structure Done (s s' : St) (r : Nat) (v : Val) : Prop where
  inv : Inv s'
  ext : s'.ext = upd s.ext r (s.ext r + 1)
  emp : s'.empty = s.empty
  le : Le s s'
  den : Denotes s' r v

theorem indeg_pos_iff {s : St} (h : Inv s) {a : Nat} (hp : 0 < s.indeg a) :
    ∃ b c, s.cellOf b = some c ∧ a ∈ c.fields := by
  unfold St.indeg indegL at hp
  rw [List.count_pos_iff, List.mem_flatMap] at hp
  obtain ⟨⟨b, c⟩, hm, hf⟩ := hp
  exact ⟨b, c, mem_lookup h.nodup hm, hf⟩

/-- A live object is the empty string, owned by the client, or a field. -/
theorem Inv.why {s : St} (h : Inv s) {a : Nat} {c : Cell} (hc : s.cellOf a = some c) :
    a = s.empty ∨ 0 < s.ext a ∨ ∃ b d, s.cellOf b = some d ∧ a ∈ d.fields := by
  obtain ⟨h1, h2⟩ := h.rcEq a c hc
  by_cases he : a = s.empty
  · exact .inl he
  · rw [if_neg he] at h1
    by_cases hx : 0 < s.ext a
    · exact .inr (.inl hx)
    · exact .inr (.inr (indeg_pos_iff h (by omega)))

/-- If no object lost an owner, releases did not free any object that was there before. -/
theorem le_sub_le {s t u : St} (hs : Inv s) (hu : Inv u) (h1 : Le s t) (h2 : Sub t u)
    (he : u.empty = s.empty) (hx : ∀ b, s.ext b ≤ u.ext b) : Le s u := by
  have hkeep : ∀ b c, s.cellOf b = some c → (∃ d, u.cellOf b = some d) →
      u.cellOf b = some c ∨ ∃ t, c = .str t false ∧ u.cellOf b = some (.str t true) := by
    rintro b c hc ⟨d, hd⟩
    have ht := h2 _ _ hd
    rcases h1 b c hc with h3 | ⟨x, e, h3⟩
    · rw [ht] at h3; cases h3; exact .inl hd
    · rw [ht] at h3; cases h3; exact .inr ⟨x, e, hd⟩
  -- a field of a surviving object survives
  have hfld : ∀ b c a, s.cellOf b = some c → (∃ d, u.cellOf b = some d) → a ∈ c.fields →
      ∃ d, u.cellOf a = some d := by
    intro b c a hc hl ha
    rcases hkeep b c hc hl with h3 | ⟨x, e, _⟩
    · exact hu.fieldLive h3 ha
    · subst e; simp [Cell.fields] at ha
  have hown : ∀ a, 0 < s.ext a → ∃ d, u.cellOf a = some d :=
    fun a ha => hu.extLive a (Nat.lt_of_lt_of_le ha (hx a))
  have hempty : ∃ d, u.cellOf s.empty = some d := ⟨_, he ▸ hu.emptyC⟩
  -- what may be a field
  have hkind : ∀ b d a c, s.cellOf b = some d → a ∈ d.fields → s.cellOf a = some c →
      (∃ t i, c = .str t i) ∨ ((∃ n r, c = .iri n r) ∧ ∃ k i, d = .ent k i) := by
    intro b d a c hd ha hc
    cases d with
    | str _ _ => simp [Cell.fields] at ha
    | iri n r =>
      left
      obtain ⟨h3, t, i, h4⟩ := hs.iriF b n r hd
      simp only [Cell.fields, List.mem_cons, List.not_mem_nil, or_false] at ha
      rcases ha with rfl | rfl
      · rcases h3 with ⟨t, h3⟩ | h3
        · rw [hc] at h3; cases h3; exact ⟨_, _, rfl⟩
        · rw [h3, hs.emptyC] at hc; cases hc; exact ⟨_, _, rfl⟩
      · rw [hc] at h4; cases h4; exact ⟨_, _, rfl⟩
    | ent k i =>
      right
      simp only [Cell.fields, List.mem_cons, List.not_mem_nil, or_false] at ha
      subst ha
      obtain ⟨n, r, h3⟩ := hs.entF b k a hd
      rw [hc] at h3; cases h3
      exact ⟨⟨_, _, rfl⟩, _, _, rfl⟩
    | anon i =>
      left
      simp only [Cell.fields, List.mem_cons, List.not_mem_nil, or_false] at ha
      subst ha
      obtain ⟨n, r, h3⟩ := hs.anonF b a hd
      rw [hc] at h3; cases h3
      exact ⟨_, _, rfl⟩
  have hroot : ∀ a c, s.cellOf a = some c → (∀ t i, c ≠ .str t i) → (∀ n r, c ≠ .iri n r) →
      ∃ d, u.cellOf a = some d := by
    intro a c hc hn1 hn2
    rcases hs.why hc with rfl | h3 | ⟨b, d, hd, ha⟩
    · exact hempty
    · exact hown a h3
    · rcases hkind b d a c hd ha hc with ⟨t, i, e⟩ | ⟨⟨n, r, e⟩, _⟩
      · exact absurd e (hn1 _ _)
      · exact absurd e (hn2 _ _)
  have hmid : ∀ a c, s.cellOf a = some c → (∀ t i, c ≠ .str t i) → ∃ d, u.cellOf a = some d := by
    intro a c hc hn1
    rcases hs.why hc with rfl | h3 | ⟨b, d, hd, ha⟩
    · exact hempty
    · exact hown a h3
    · rcases hkind b d a c hd ha hc with ⟨t, i, e⟩ | ⟨_, k, i, e⟩
      · exact absurd e (hn1 _ _)
      · subst e
        exact hfld b _ a hd (hroot b _ hd (by intros; simp) (by intros; simp)) ha
  have hall : ∀ a c, s.cellOf a = some c → ∃ d, u.cellOf a = some d := by
    intro a c hc
    rcases hs.why hc with rfl | h3 | ⟨b, d, hd, ha⟩
    · exact hempty
    · exact hown a h3
    · refine hfld b d a hd (hmid b d hd ?_) ha
      rintro t i rfl
      simp [Cell.fields] at ha
  exact fun b c hc => hkeep b c hc (hall b c hc)

theorem Made.done {s s' : St} {a r : Nat} {v : Val} (h : Made s s' a r v) : Done s s' r v :=
  ⟨h.inv, h.ext, h.emp, h.le, h.den⟩

theorem ext_live {s : St} (h : Inv s) {a : Nat} (hx : 0 < s.ext a) : ∃ c, s.cellOf a = some c :=
  h.extLive a hx

theorem anonFromString_spec {s : St} (h : Inv s) {a1 a : Nat} (ha1 : s.cellOf a1 = none)
    (ha : s.cellOf a = none) (hne : a1 ≠ a) (c : Str) :
    ∃ s' r, anonFromString s a1 a c = some (s', r) ∧ Done s s' r (.prim (.anon c)) := by
  unfold anonFromString
  rcases find_anonT h c with ⟨b, e, hb⟩ | ⟨e, hb⟩
  · rw [e]
    obtain ⟨s', e', M⟩ := made_retain h a hb
    exact ⟨s', b, by simp only [e']; rfl, M.done⟩
  · rw [e]
    simp only
    rw [alloc_str_false, anonAlloc_eq hne]
    have M1 := made_str h ha1 (c := c) (i := false) (by intro e; cases e)
    have ha' : (allocFull s a1 (.str c false)).cellOf a = none := by
      rw [cellOf_allocFull, if_neg (Ne.symm hne)]; exact ha
    have hb' : ∀ b i, (allocFull s a1 (.str c false)).cellOf b = some (.anon i) →
        (allocFull s a1 (.str c false)).content i ≠ some c := by
      intro b i hbi
      rw [cellOf_allocFull] at hbi
      by_cases hba : b = a1
      · rw [if_pos hba] at hbi; cases hbi
      · rw [if_neg hba] at hbi
        obtain ⟨t, j, ht⟩ := h.anonF b i hbi
        rw [content_allocFull ha1 _ ht]
        exact hb b i hbi
    have M2 := made_anon M1.inv ha' M1.den hb'
    have hx : 0 < (allocFull (allocFull s a1 (.str c false)) a (.anon a1)).ext a1 := by
      rw [M2.ext, upd_ne _ _ hne, M1.ext, upd_same]; omega
    obtain ⟨s', e', R⟩ := release_spec M2.inv hx
    refine ⟨s', a, by rw [e']; rfl, R.inv, ?_, by rw [R.emp, M2.emp, M1.emp], ?_, ?_⟩
    · rw [R.ext, M2.ext, M1.ext]
      funext b
      simp only [upd]
      by_cases h1 : b = a1
      · subst h1; simp [hne]
      · by_cases h2 : b = a
        · subst h2; simp [h1]
        · simp [h1, h2]
    · refine le_sub_le h R.inv (M1.le.trans M2.le) R.sub (by rw [R.emp, M2.emp, M1.emp]) ?_
      intro b
      rw [R.ext, M2.ext, M1.ext]
      simp only [upd]
      by_cases h1 : b = a1
      · subst h1; simp [hne]
      · by_cases h2 : b = a
        · subst h2; simp [h1]
        · simp [h1, h2]
    · refine R.sub.denotes R.inv M2.den (R.inv.extLive a ?_)
      rw [R.ext, upd_ne _ _ (Ne.symm hne), M2.ext, upd_same]; omega

/-- The common end of `cowl_iri` and `cowl_iri_from_string`: make the IRI, release
the two strings. -/
theorem finish_spec {s0 s : St} (h0 : Inv s0) (h : Inv s) {a x y : Nat} (ha : s.cellOf a = none) {cx cy : Str}
    (hx : Denotes s x (.str cx)) (hy : Denotes s y (.str cy)) (hle : Le s0 s)
    (hext : s.ext = upd (upd s0.ext x (s0.ext x + 1)) y (upd s0.ext x (s0.ext x + 1) y + 1))
    (hemp : s.empty = s0.empty) :
    ∃ s' r, ((iriUnvalidated s a x y).bind fun (s, r) =>
        (release s x).bind fun s => (release s y).map fun s => (s, r)) = some (s', r) ∧
      Done s0 s' r (.prim (.iri ⟨cx, cy⟩)) := by
  obtain ⟨s1, r, e1, M⟩ := iriUnvalidated_spec h ha hx hy
  have hext1 : ∀ b, s1.ext b = s0.ext b + (if b = x then 1 else 0) + (if b = y then 1 else 0) +
      (if b = r then 1 else 0) := by
    intro b
    rw [M.ext, hext]
    simp only [upd]
    by_cases h1 : b = r
    · subst h1
      by_cases h2 : b = y
      · subst h2
        by_cases h3 : b = x
        · subst h3; simp
        · simp [h3]
      · by_cases h3 : b = x
        · subst h3; simp [h2]
        · simp [h2, h3]
    · by_cases h2 : b = y
      · subst h2
        by_cases h3 : b = x
        · subst h3; simp [h1]
        · simp [h1, h3]
      · by_cases h3 : b = x
        · subst h3; simp [h1, h2]
        · simp [h1, h2, h3]
  have hp1 : 0 < s1.ext x := by rw [hext1]; simp; omega
  obtain ⟨s2, e2, R2⟩ := release_spec M.inv hp1
  have hext2 : ∀ b, s2.ext b = s0.ext b + (if b = y then 1 else 0) + (if b = r then 1 else 0) := by
    intro b
    rw [R2.ext]
    by_cases h1 : b = x
    · subst h1; rw [upd_same, hext1]; simp; omega
    · rw [upd_ne _ _ h1, hext1, if_neg h1]; omega
  have hp2 : 0 < s2.ext y := by rw [hext2]; simp; omega
  obtain ⟨s3, e3, R3⟩ := release_spec R2.inv hp2
  have hext3 : ∀ b, s3.ext b = s0.ext b + (if b = r then 1 else 0) := by
    intro b
    rw [R3.ext]
    by_cases h1 : b = y
    · subst h1; rw [upd_same, hext2]; simp
    · rw [upd_ne _ _ h1, hext2, if_neg h1]; omega
  refine ⟨s3, r, by rw [e1]; simp only [Option.bind_some]; rw [e2]; simp only [Option.bind_some]; rw [e3]; rfl,
    R3.inv, ?_, by rw [R3.emp, R2.emp, M.emp, hemp], ?_, ?_⟩
  · funext b
    rw [hext3]
    by_cases h1 : b = r
    · subst h1; rw [upd_same]; simp
    · rw [upd_ne _ _ h1]; simp [h1]
  · refine le_sub_le h0 R3.inv (hle.trans M.le) (R2.sub.trans R3.sub)
      (by rw [R3.emp, R2.emp, M.emp, hemp]) ?_
    intro b
    rw [hext3]; omega
  · refine (R2.sub.trans R3.sub).denotes R3.inv M.den (R3.inv.extLive r ?_)
    rw [hext3]; simp

theorem not_live_after {s s' : St} {a b r : Nat} {v : Val} (M : Made s s' a r v)
    (hb : s.cellOf b = none) (hne : b ≠ a) : s'.cellOf b = none := by
  cases e : s'.cellOf b with
  | none => rfl
  | some d =>
    rcases M.only b d e with ⟨d', hd'⟩ | h
    · rw [hb] at hd'; cases hd'
    · exact absurd h hne

theorem ext_two {s s1 s2 : St} {a b x y : Nat} {v w : Val} (M1 : Made s s1 a x v)
    (M2 : Made s1 s2 b y w) :
    s2.ext = upd (upd s.ext x (s.ext x + 1)) y (upd s.ext x (s.ext x + 1) y + 1) := by
  rw [M2.ext, M1.ext]

theorem iri_spec {s : St} (h : Inv s) {a1 a2 a3 p q : Nat} (h1 : s.cellOf a1 = none)
    (h2 : s.cellOf a2 = none) (h3 : s.cellOf a3 = none) (h12 : a1 ≠ a2) (h13 : a1 ≠ a3)
    (h23 : a2 ≠ a3) {cp cq : Str} (hp : Denotes s p (.str cp)) (hq : Denotes s q (.str cq)) :
    ∃ s' r, iri s a1 a2 a3 p q = some (s', r) ∧
      Done s s' r (.prim (.iri ⟨(iriOfParts cp cq).1, (iriOfParts cp cq).2⟩)) := by
  unfold iri
  rw [content_eq.2 hp, content_eq.2 hq]
  simp only
  unfold iriOfParts
  simp only
  by_cases c1 : nsLength cq > 0
  · simp only [c1, if_true]
    obtain ⟨s1, x, e1, M1⟩ := newString_spec h h1 (cp ++ cq.take (nsLength cq))
    obtain ⟨s2, y, e2, M2⟩ := newString_spec M1.inv (not_live_after M1 h2 (Ne.symm h12))
      (cq.drop (nsLength cq))
    rw [e1]; simp only [Option.bind_some]; rw [e2]; simp only [Option.map_some, Option.bind_some]
    exact finish_spec h M2.inv
      (not_live_after M2 (not_live_after M1 h3 (Ne.symm h13)) (Ne.symm h23))
      (M2.le.den _ _ M1.den) M2.den (M1.le.trans M2.le) (ext_two M1 M2) (by rw [M2.emp, M1.emp])
  · simp only [c1, if_false]
    by_cases c2 : nsLength cp < cp.length
    · simp only [c2, if_true]
      obtain ⟨s1, x, e1, M1, _⟩ := newIntern_spec h h1 (cp.take (nsLength cp))
      obtain ⟨s2, y, e2, M2⟩ := newString_spec M1.inv (not_live_after M1 h2 (Ne.symm h12))
        (cp.drop (nsLength cp) ++ cq)
      rw [e1]; simp only [Option.bind_some]; rw [e2]; simp only [Option.map_some, Option.bind_some]
      exact finish_spec h M2.inv
        (not_live_after M2 (not_live_after M1 h3 (Ne.symm h13)) (Ne.symm h23))
        (M2.le.den _ _ M1.den) M2.den (M1.le.trans M2.le) (ext_two M1 M2) (by rw [M2.emp, M1.emp])
    · simp only [c2, if_false]
      obtain ⟨s1, e1, M1⟩ := made_retain h a1 hp
      obtain ⟨s2, e2, M2⟩ := made_retain M1.inv a2 (M1.le.den _ _ hq)
      rw [e1]; simp only [Option.bind_some]; rw [e2]; simp only [Option.map_some, Option.bind_some]
      exact finish_spec h M2.inv
        (not_live_after M2 (not_live_after M1 h3 (Ne.symm h13)) (Ne.symm h23))
        (M2.le.den _ _ M1.den) M2.den (M1.le.trans M2.le) (ext_two M1 M2) (by rw [M2.emp, M1.emp])

theorem iriFromStr_spec {s : St} (h : Inv s) {a1 a2 a3 : Nat} (h1 : s.cellOf a1 = none)
    (h2 : s.cellOf a2 = none) (h3 : s.cellOf a3 = none) (h12 : a1 ≠ a2) (h13 : a1 ≠ a3)
    (h23 : a2 ≠ a3) {c : Str} :
    ∃ s' r, iriFromStr s a1 a2 a3 c = some (s', r) ∧
      Done s s' r (.prim (.iri ⟨(getNsRem c (nsLength c)).1, (getNsRem c (nsLength c)).2⟩)) := by
  have hY : ∃ cy, (if nsLength c < c.length then newString s a1 (c.drop (nsLength c))
      else newString s a1 []) = newString s a1 cy ∧ cy = (getNsRem c (nsLength c)).2 := by
    unfold getNsRem
    by_cases hl : nsLength c < c.length
    · simp only [hl, if_true]; exact ⟨_, rfl, rfl⟩
    · simp only [hl, if_false]; exact ⟨_, rfl, rfl⟩
  have hX : c.take (nsLength c) = (getNsRem c (nsLength c)).1 := by
    unfold getNsRem
    by_cases hl : nsLength c < c.length
    · simp only [hl, if_true]
    · simp only [hl, if_false]
      exact List.take_of_length_le (by omega)
  obtain ⟨cy, hY, hcy⟩ := hY
  unfold iriFromStr
  simp only [hY, hX, ← hcy]
  obtain ⟨s1, y, e1, M1⟩ := newString_spec h h1 cy
  obtain ⟨s2, x, e2, M2, _⟩ := newIntern_spec M1.inv (not_live_after M1 h2 (Ne.symm h12))
    (getNsRem c (nsLength c)).1
  rw [e1]; simp only [Option.bind_some]; rw [e2]; simp only [Option.bind_some]
  refine finish_spec h M2.inv
    (not_live_after M2 (not_live_after M1 h3 (Ne.symm h13)) (Ne.symm h23))
    M2.den (M2.le.den _ _ M1.den) (M1.le.trans M2.le) ?_ (by rw [M2.emp, M1.emp])
  rw [M2.ext, M1.ext]
  funext b
  simp only [upd]
  by_cases h1 : b = x
  · subst h1
    by_cases h2 : b = y
    · subst h2; simp
    · simp [h2]
  · by_cases h2 : b = y
    · subst h2; simp [h1]
    · simp [h1, h2]

/-! ## Canonicity -/

theorem canon_iri {s : St} (h : Inv s) {a b : Nat} {x : Iri} (ha : Denotes s a (.prim (.iri x)))
    (hb : Denotes s b (.prim (.iri x))) : a = b := by
  cases ha with
  | iri ha hn hr =>
    cases hb with
    | iri hb hn' hr' =>
      rename_i n r cn cr n' r'
      have hnn : n = n' := by
        obtain ⟨i, hi⟩ := denotes_str_iff.1 hn
        obtain ⟨j, hj⟩ := denotes_str_iff.1 hn'
        rcases (h.iriF _ _ _ ha).1 with ⟨t, ht⟩ | e <;> rcases (h.iriF _ _ _ hb).1 with ⟨t', ht'⟩ | e'
        · rw [hi] at ht; cases ht
          rw [hj] at ht'; cases ht'
          exact h.strU _ _ _ hi hj
        · rw [hi] at ht; cases ht
          rw [e', h.emptyC] at hj; cases hj
          exact absurd hi (h.strNe _)
        · rw [hj] at ht'; cases ht'
          rw [e, h.emptyC] at hi; cases hi
          exact absurd hj (h.strNe _)
        · rw [e, e']
      subst hnn
      exact h.iriU _ _ _ _ _ ha hb (by rw [content_eq.2 hr, content_eq.2 hr'])

theorem canon_prim {s : St} (h : Inv s) {a b : Nat} {p : Prim} (ha : Denotes s a (.prim p))
    (hb : Denotes s b (.prim p)) : a = b := by
  cases p with
  | iri x => exact canon_iri h ha hb
  | ent k x =>
    cases ha with
    | ent ha hi =>
      cases hb with
      | ent hb hi' =>
        have := canon_iri h hi hi'
        subst this
        exact h.entU _ _ _ _ ha hb
  | anon c =>
    cases ha with
    | anon ha hi =>
      cases hb with
      | anon hb hi' =>
        exact h.anonU _ _ _ _ ha hb (by rw [content_eq.2 hi, content_eq.2 hi'])

theorem denotes_det {s : St} {a : Nat} {v w : Val} (ha : Denotes s a v) (hb : Denotes s a w) :
    v = w := by
  induction ha generalizing w with
  | str h => cases hb with
    | str h' => rw [h] at h'; cases h'; rfl
    | iri h' => rw [h] at h'; cases h'
    | ent h' => rw [h] at h'; cases h'
    | anon h' => rw [h] at h'; cases h'
  | iri h _ _ i1 i2 => cases hb with
    | str h' => rw [h] at h'; cases h'
    | iri h' h1 h2 =>
      rw [h] at h'; cases h'
      have := i1 h1; have := i2 h2; simp_all
    | ent h' => rw [h] at h'; cases h'
    | anon h' => rw [h] at h'; cases h'
  | ent h _ i1 => cases hb with
    | str h' => rw [h] at h'; cases h'
    | iri h' => rw [h] at h'; cases h'
    | ent h' h1 =>
      rw [h] at h'; cases h'
      have := i1 h1; simp_all
    | anon h' => rw [h] at h'; cases h'
  | anon h _ i1 => cases hb with
    | str h' => rw [h] at h'; cases h'
    | iri h' => rw [h] at h'; cases h'
    | ent h' => rw [h] at h'; cases h'
    | anon h' h1 =>
      rw [h] at h'; cases h'
      have := i1 h1; simp_all

end Cowl.Heap
