import Verif.ObjSpec
/-! # Lemmas on object equality and hashing -/
namespace Cowl.ObjSpec

/-! ## `Same` is an equivalence -/

mutual
theorem Same.refl : ∀ a : Obj, Same a a
  | .str s => .str s
  | .vec true xs => .ordered (SameAll.refl xs)
  | .vec false xs => .unordered (SameAll.refl xs) (List.Perm.refl xs)
  | .lit v t => .lit v t
  | .prim p => .prim p
  | .other t a => .other t a
  | .comp _ _ fs _ => .comp (SameAll.refl fs) (fun _ => rfl)

theorem SameAll.refl : ∀ xs : List Obj, SameAll xs xs
  | [] => .nil
  | x :: xs => .cons (Same.refl x) (SameAll.refl xs)
end

theorem SameAll.length_eq : ∀ {xs ys : List Obj}, SameAll xs ys → xs.length = ys.length
  | _, _, .nil => rfl
  | _, _, .cons _ hs => by simp [hs.length_eq]

theorem SameAll.mem_left : ∀ {xs ys : List Obj}, SameAll xs ys → ∀ x ∈ xs, ∃ y ∈ ys, Same x y
  | _, _, .cons (y := y) h hs, x, hx => by
    rcases List.mem_cons.1 hx with rfl | hx
    · exact ⟨y, by simp, h⟩
    · obtain ⟨z, hz, h'⟩ := hs.mem_left x hx
      exact ⟨z, by simp [hz], h'⟩

theorem SameAll.mem_right : ∀ {xs ys : List Obj}, SameAll xs ys → ∀ y ∈ ys, ∃ x ∈ xs, Same x y
  | _, _, .cons (x := x) h hs, y, hy => by
    rcases List.mem_cons.1 hy with rfl | hy
    · exact ⟨x, by simp, h⟩
    · obtain ⟨z, hz, h'⟩ := hs.mem_right y hy
      exact ⟨z, by simp [hz], h'⟩

/-- A reordering on the left can be followed on the right. -/
theorem SameAll.perm_left {xs xs' : List Obj} (hp : xs.Perm xs') :
    ∀ {ys}, SameAll xs ys → ∃ ys', SameAll xs' ys' ∧ ys'.Perm ys := by
  induction hp with
  | nil => intro ys h; exact ⟨ys, h, .refl _⟩
  | cons a _ ih =>
    intro ys h
    cases h with
    | cons h hs =>
      obtain ⟨ys', h1, h2⟩ := ih hs
      exact ⟨_ :: ys', .cons h h1, h2.cons _⟩
  | swap a b l =>
    intro ys h
    cases h with
    | cons h hs => cases hs with
      | cons h' hs' => exact ⟨_, .cons h' (.cons h hs'), List.Perm.swap _ _ _⟩
  | trans _ _ ih1 ih2 =>
    intro ys h
    obtain ⟨ys1, h1, p1⟩ := ih1 h
    obtain ⟨ys2, h2, p2⟩ := ih2 h1
    exact ⟨ys2, h2, p2.trans p1⟩

/-- A reordering on the right can be followed on the left. -/
theorem SameAll.perm_right {ys ys' : List Obj} (hp : ys.Perm ys') :
    ∀ {xs}, SameAll xs ys → ∃ xs', SameAll xs' ys' ∧ xs'.Perm xs := by
  induction hp with
  | nil => intro xs h; exact ⟨xs, h, .refl _⟩
  | cons a _ ih =>
    intro xs h
    cases h with
    | cons h hs =>
      obtain ⟨xs', h1, h2⟩ := ih hs
      exact ⟨_ :: xs', .cons h h1, h2.cons _⟩
  | swap a b l =>
    intro xs h
    cases h with
    | cons h hs => cases hs with
      | cons h' hs' => exact ⟨_, .cons h' (.cons h hs'), List.Perm.swap _ _ _⟩
  | trans _ _ ih1 ih2 =>
    intro xs h
    obtain ⟨xs1, h1, p1⟩ := ih1 h
    obtain ⟨xs2, h2, p2⟩ := ih2 h1
    exact ⟨xs2, h2, p2.trans p1⟩

mutual
theorem Same.symm : ∀ {a b : Obj}, Same a b → Same b a
  | _, _, .str s => .str s
  | _, _, .lit v t => .lit v t
  | _, _, .prim p => .prim p
  | _, _, .other t a => .other t a
  | _, _, .ordered h => .ordered h.symm
  | _, _, .unordered h hp => by
    obtain ⟨xs', h1, h2⟩ := SameAll.perm_left hp h.symm
    exact .unordered h1 h2
  | _, _, .comp h hu => .comp h.symm (fun hc => (hu hc).symm)

theorem SameAll.symm : ∀ {xs ys : List Obj}, SameAll xs ys → SameAll ys xs
  | _, _, .nil => .nil
  | _, _, .cons h hs => .cons h.symm hs.symm
end

mutual
theorem Same.trans : ∀ {a b c : Obj}, Same a b → Same b c → Same a c
  | _, _, _, .str _, h => h
  | _, _, _, .lit _ _, h => h
  | _, _, _, .prim _, h => h
  | _, _, _, .other _ _, h => h
  | _, _, _, .ordered h, h2 => by cases h2 with | ordered h' => exact .ordered (h.trans h')
  | _, _, _, .unordered h hp, h2 => by
    cases h2 with
    | unordered h' hp' =>
      obtain ⟨ws, h1, h3⟩ := SameAll.perm_left hp.symm h'
      exact .unordered (h.trans h1) (h3.trans hp')
  | _, _, _, .comp h hu, h2 => by
    cases h2 with
    | comp h' hu' => exact .comp (h.trans h') (fun hc => (hu hc).trans (hu' hc))

theorem SameAll.trans : ∀ {xs ys zs : List Obj}, SameAll xs ys → SameAll ys zs → SameAll xs zs
  | _, _, _, .nil, h => h
  | _, _, _, .cons h hs, h2 => by
    cases h2 with | cons h' hs' => exact .cons (h.trans h') (hs.trans hs')
end

/-! ## Matching up duplicate-free lists -/

theorem sameAll_of_cover : ∀ (xs ys : List Obj), xs.length = ys.length →
    xs.Pairwise (fun x y => ¬ Same x y) → (∀ x ∈ xs, ∃ y ∈ ys, Same x y) →
    ∃ zs, SameAll xs zs ∧ zs.Perm ys
  | [], ys, hl, _, _ => by
    have : ys = [] := List.length_eq_zero_iff.1 hl.symm
    subst this
    exact ⟨[], .nil, .refl _⟩
  | x :: xs, ys, hl, hd, hc => by
    obtain ⟨y, hy, hxy⟩ := hc x (by simp)
    obtain ⟨l1, l2, rfl⟩ := List.append_of_mem hy
    have hp : (y :: (l1 ++ l2)).Perm (l1 ++ y :: l2) := List.perm_middle.symm
    obtain ⟨hd1, hd2⟩ := List.pairwise_cons.1 hd
    obtain ⟨zs, h1, h2⟩ := sameAll_of_cover xs (l1 ++ l2)
      (by simp at hl ⊢; omega) hd2 (by
        intro x' hx'
        obtain ⟨y', hy', hxy'⟩ := hc x' (by simp [hx'])
        rcases List.mem_cons.1 (hp.symm.mem_iff.1 hy') with rfl | h
        · exact absurd (hxy.trans hxy'.symm) (hd1 x' hx')
        · exact ⟨y', h, hxy'⟩)
    exact ⟨y :: zs, .cons hxy h1, (h2.cons y).trans hp⟩

end Cowl.ObjSpec

namespace Cowl
open ObjSpec

/-! ## The code's equality -/

theorem eqvRows_all (f : Bool) (q : (Obj → Bool) → Bool) : ∀ xs : List Obj,
    (eqvRows f xs).all q = xs.all fun x => q (x.eqv f)
  | [] => rfl
  | x :: xs => by simp [eqvRows, eqvRows_all f q xs]

theorem eqvRows_any (f : Bool) (q : (Obj → Bool) → Bool) : ∀ xs : List Obj,
    (eqvRows f xs).any q = xs.any fun x => q (x.eqv f)
  | [] => rfl
  | x :: xs => by simp [eqvRows, eqvRows_any f q xs]

theorem eqvPrefix_nil_left (f : Bool) (n : Nat) (ys : List Obj) :
    eqvPrefix f n [] ys = (n == 0) := by rw [eqvPrefix]

theorem eqvPrefix_zero (f : Bool) : ∀ (xs ys : List Obj), eqvPrefix f 0 xs ys = true
  | [], _ => by rw [eqvPrefix]; rfl
  | _ :: _, _ => by rw [eqvPrefix]

theorem eqvPrefix_cons (f : Bool) (n : Nat) (x y : Obj) (xs ys : List Obj) :
    eqvPrefix f (n + 1) (x :: xs) (y :: ys) = (x.eqv f y && eqvPrefix f n xs ys) := by
  rw [eqvPrefix]

theorem regularItems_iff : ∀ xs : List Obj, RegularItems xs ↔ ∀ x ∈ xs, Regular false x
  | [] => by simp [RegularItems]
  | x :: xs => by simp [RegularItems, regularItems_iff xs]

mutual
/-- `cowl_equals` called the other way round is the flipped mode. -/
theorem eqv_flip : ∀ (a b : Obj) (f : Bool), a.eqv f b = b.eqv (!f) a
  | .str s, b, f => by cases b <;> simp only [Obj.eqv]; exact BEq.comm
  | .lit v t, b, f => by
    cases b <;> simp only [Obj.eqv]
    rw [BEq.comm (a := t), BEq.comm (a := v)]
  | .prim p, b, f => by cases b <;> simp only [Obj.eqv]; exact BEq.comm
  | .other t a, b, f => by
    cases b <;> simp only [Obj.eqv]
    rw [BEq.comm (a := t), BEq.comm (a := a)]
  | .vec o xs, b, f => by
    cases b with
    | vec o' ys =>
      have hp := fun n => eqvPrefix_flip xs ys f n
      have hr := fun f => eqvRows_flip xs f
      rw [Obj.eqv, Obj.eqv]
      cases f <;> simp only [Bool.not_false, Bool.not_true, if_true, if_false, Bool.false_eq_true]
      · by_cases ho : o = true
        · simp only [ho, if_true]
          rw [Bool.eq_iff_iff]
          simp only [Bool.and_eq_true, beq_iff_eq]
          constructor
          · rintro ⟨h1, h2⟩; rw [hp] at h1; rw [← h2]; exact ⟨h1, rfl⟩
          · rintro ⟨h1, h2⟩; rw [h2] at h1; rw [hp]; exact ⟨h1, h2.symm⟩
        · simp only [ho, if_false, Bool.false_eq_true]
          rw [eqvRows_all]
          congr 1
          rw [Bool.eq_iff_iff]
          simp only [List.all_eq_true, List.any_eq_true, eqvRows_any]
          constructor
          · intro h x hx; obtain ⟨y, hy, hxy⟩ := h x hx
            exact ⟨y, hy, by rw [hr true x hx y] at hxy; exact hxy⟩
          · intro h x hx; obtain ⟨y, hy, hxy⟩ := h x hx
            exact ⟨y, hy, by rw [hr true x hx y]; exact hxy⟩
      · by_cases ho : o' = true
        · simp only [ho, if_true]
          rw [Bool.eq_iff_iff]
          simp only [Bool.and_eq_true, beq_iff_eq]
          constructor
          · rintro ⟨h1, h2⟩; rw [hp] at h1; rw [← h2]; exact ⟨h1, rfl⟩
          · rintro ⟨h1, h2⟩; rw [h2] at h1; rw [hp]; exact ⟨h1, h2.symm⟩
        · simp only [ho, if_false, Bool.false_eq_true]
          rw [eqvRows_all]
          congr 1
          rw [Bool.eq_iff_iff]
          simp only [List.all_eq_true, List.any_eq_true, eqvRows_any]
          constructor
          · intro h y hy; obtain ⟨x, hx, hxy⟩ := h y hy
            exact ⟨x, hx, by rw [hr false x hx y] at hxy; exact hxy⟩
          · intro h y hy; obtain ⟨x, hx, hxy⟩ := h y hy
            exact ⟨x, hx, by rw [hr false x hx y]; exact hxy⟩
    | _ => simp [Obj.eqv]
  | .comp t bit fs u, b, f => by
    cases b with
    | comp t' bit' fs' u' =>
      rw [Obj.eqv, Obj.eqv, eqvPrefix_flip fs fs' f]
      rw [Bool.eq_iff_iff]
      simp only [Bool.and_eq_true, beq_iff_eq, Bool.or_eq_true]
      constructor
      · rintro ⟨⟨⟨rfl, rfl⟩, h⟩, h2⟩
        exact ⟨⟨⟨rfl, rfl⟩, h⟩, h2.imp id Eq.symm⟩
      · rintro ⟨⟨⟨rfl, rfl⟩, h⟩, h2⟩
        exact ⟨⟨⟨rfl, rfl⟩, h⟩, h2.imp id Eq.symm⟩
    | _ => simp [Obj.eqv]

theorem eqvPrefix_flip : ∀ (xs ys : List Obj) (f : Bool) (n : Nat),
    eqvPrefix f n xs ys = eqvPrefix (!f) n ys xs
  | [], ys, f, n => by
    cases ys <;> cases n <;> simp [eqvPrefix]
  | x :: xs, ys, f, n => by
    cases n with
    | zero => simp [eqvPrefix_zero]
    | succ n =>
      cases ys with
      | nil => simp [eqvPrefix]
      | cons y ys =>
        rw [eqvPrefix_cons, eqvPrefix_cons, eqv_flip x y f, eqvPrefix_flip xs ys f n]

theorem eqvRows_flip : ∀ (xs : List Obj) (f : Bool) (x : Obj), x ∈ xs → ∀ y : Obj,
    x.eqv f y = y.eqv (!f) x
  | x :: xs, f, z, hz, y => by
    rcases List.mem_cons.1 hz with h | hz
    · rw [h]; exact eqv_flip x y f
    · exact eqvRows_flip xs f z hz y
end

mutual
/-- On regular objects the code's equality is the specified one. -/
theorem eqv_iff_same : ∀ (a b : Obj) (f c : Bool), Regular c a → Regular c b →
    (a.eqv f b = true ↔ Same a b)
  | .str s, b, f, c, _, _ => by
    cases b <;> simp only [Obj.eqv, Bool.false_eq_true, false_iff]
    · constructor
      · intro h; rw [beq_iff_eq.1 h]; exact .str _
      · intro h; cases h; simp
    all_goals intro h; cases h
  | .lit v t, b, f, c, _, _ => by
    cases b <;> simp only [Obj.eqv, Bool.false_eq_true, false_iff]
    case lit =>
      constructor
      · intro h; simp at h; rw [h.1, h.2]; exact .lit _ _
      · intro h; cases h; simp
    all_goals intro h; cases h
  | .prim p, b, f, c, _, _ => by
    cases b <;> simp only [Obj.eqv, Bool.false_eq_true, false_iff]
    case prim =>
      constructor
      · intro h; rw [beq_iff_eq.1 h]; exact .prim _
      · intro h; cases h; simp
    all_goals intro h; cases h
  | .other t a, b, f, c, _, _ => by
    cases b <;> simp only [Obj.eqv, Bool.false_eq_true, false_iff]
    case other =>
      constructor
      · intro h; simp at h; rw [h.1, h.2]; exact .other _ _
      · intro h; cases h; simp
    all_goals intro h; cases h
  | .vec o xs, b, f, c, ha, hb => by
    cases b with
    | vec o' ys =>
      rw [Regular] at ha hb
      obtain ⟨rfl, hdx, hix⟩ := ha
      obtain ⟨rfl, hdy, hiy⟩ := hb
      rw [regularItems_iff] at hiy
      have key := fun f => eqvRows_iff xs f hix
      have hord : ys.length = xs.length → (eqvPrefix f xs.length xs ys = true ↔ SameAll xs ys) :=
        fun hl => eqvItems_iff xs ys f hix ((regularItems_iff ys).2 hiy) hl.symm
      rw [Obj.eqv]
      cases o' with
      | true =>
        simp only [ite_self, if_true, Bool.and_eq_true, beq_iff_eq]
        constructor
        · rintro ⟨h1, h2⟩; exact .ordered ((hord h2.symm).1 h1)
        · intro h
          cases h with
          | ordered h => exact ⟨(hord h.length_eq.symm).2 h, h.length_eq⟩
      | false =>
        simp only [ite_self, if_false, Bool.false_eq_true]
        cases f with
        | false =>
          simp only [if_false, Bool.false_eq_true, Bool.and_eq_true, beq_iff_eq, eqvRows_all,
            List.all_eq_true, List.any_eq_true]
          constructor
          · rintro ⟨hl, h⟩
            obtain ⟨zs, h1, h2⟩ := sameAll_of_cover xs ys hl (hdx rfl) (by
              intro x hx
              obtain ⟨y, hy, hxy⟩ := h x hx
              exact ⟨y, hy, (key true x hx y (hiy y hy)).1 hxy⟩)
            exact .unordered h1 h2
          · intro h
            cases h with
            | unordered h hp =>
              refine ⟨h.length_eq.trans hp.length_eq, ?_⟩
              intro x hx
              obtain ⟨z, hz, hxz⟩ := h.mem_left x hx
              exact ⟨z, hp.mem_iff.1 hz, (key true x hx z (hiy z (hp.mem_iff.1 hz))).2 hxz⟩
        | true =>
          simp only [if_true, Bool.and_eq_true, beq_iff_eq, eqvRows_any,
            List.all_eq_true, List.any_eq_true]
          constructor
          · rintro ⟨hl, h⟩
            obtain ⟨zs, h1, h2⟩ := sameAll_of_cover ys xs hl (hdy rfl) (by
              intro y hy
              obtain ⟨x, hx, hxy⟩ := h y hy
              exact ⟨x, hx, ((key false x hx y (hiy y hy)).1 hxy).symm⟩)
            exact (Same.unordered h1 h2).symm
          · intro h
            cases h with
            | unordered h hp =>
              refine ⟨(h.length_eq.trans hp.length_eq).symm, ?_⟩
              intro y hy
              obtain ⟨x, hx, hxy⟩ := h.mem_right y (hp.mem_iff.2 hy)
              exact ⟨x, hx, (key false x hx y (hiy y hy)).2 hxy⟩
    | _ => simp only [Obj.eqv, Bool.false_eq_true, false_iff]; intro h; cases h
  | .comp t bit fs u, b, f, c, ha, hb => by
    cases b with
    | comp t' bit' gs u' =>
      rw [Regular] at ha hb
      rw [Obj.eqv]
      simp only [Bool.and_eq_true, beq_iff_eq, Bool.or_eq_true, Bool.not_eq_true']
      by_cases ht : t = t' ∧ bit = bit'
      · obtain ⟨rfl, rfl⟩ := ht
        have hl : fs.length = gs.length := ha.1.trans hb.1.symm
        have key := eqvFields_iff fs gs f (decide (t = .aSubObjProp)) ha.2 hb.2 hl
        rw [← ha.1, key]
        constructor
        · rintro ⟨⟨_, h1⟩, h2⟩
          refine .comp h1 (fun hc => ?_)
          rcases h2 with h2 | h2
          · rw [hc] at h2; cases h2
          · exact h2
        · intro h
          cases h with
          | comp h hu =>
            refine ⟨⟨⟨rfl, rfl⟩, h⟩, ?_⟩
            cases hc : t.flags.card
            · exact .inl rfl
            · exact .inr (hu hc)
      · constructor
        · rintro ⟨⟨h, _⟩, _⟩; exact absurd h ht
        · intro h; cases h; exact absurd ⟨rfl, rfl⟩ ht
    | _ => simp only [Obj.eqv, Bool.false_eq_true, false_iff]; intro h; cases h

theorem eqvRows_iff : ∀ (xs : List Obj) (f : Bool), RegularItems xs →
    ∀ x ∈ xs, ∀ y, Regular false y → (x.eqv f y = true ↔ Same x y)
  | x :: xs, f, h, z, hz, y, hy => by
    rw [RegularItems] at h
    rcases List.mem_cons.1 hz with h' | hz
    · rw [h']; exact eqv_iff_same x y f false h.1 hy
    · exact eqvRows_iff xs f h.2 z hz y hy

theorem eqvItems_iff : ∀ (xs ys : List Obj) (f : Bool), RegularItems xs → RegularItems ys →
    xs.length = ys.length → (eqvPrefix f xs.length xs ys = true ↔ SameAll xs ys)
  | [], ys, f, _, _, hl => by
    have : ys = [] := List.length_eq_zero_iff.1 hl.symm
    subst this
    simp only [List.length_nil, eqvPrefix_zero, true_iff]; exact .nil
  | x :: xs, ys, f, hx, hy, hl => by
    cases ys with
    | nil => simp at hl
    | cons y ys =>
      rw [RegularItems] at hx hy
      rw [List.length_cons, eqvPrefix_cons, Bool.and_eq_true,
        eqv_iff_same x y f false hx.1 hy.1, eqvItems_iff xs ys f hx.2 hy.2 (by simpa using hl)]
      constructor
      · rintro ⟨h1, h2⟩; exact .cons h1 h2
      · intro h; cases h with | cons h1 h2 => exact ⟨h1, h2⟩

theorem eqvFields_iff : ∀ (xs ys : List Obj) (f c : Bool), RegularFields c xs →
    RegularFields c ys → xs.length = ys.length →
    (eqvPrefix f xs.length xs ys = true ↔ SameAll xs ys)
  | [], ys, f, _, _, _, hl => by
    have : ys = [] := List.length_eq_zero_iff.1 hl.symm
    subst this
    simp only [List.length_nil, eqvPrefix_zero, true_iff]; exact .nil
  | x :: xs, ys, f, c, hx, hy, hl => by
    cases ys with
    | nil => simp at hl
    | cons y ys =>
      rw [RegularFields] at hx hy
      rw [List.length_cons, eqvPrefix_cons, Bool.and_eq_true,
        eqv_iff_same x y f c hx.1 hy.1, eqvItems_iff xs ys f hx.2 hy.2 (by simpa using hl)]
      constructor
      · rintro ⟨h1, h2⟩; exact .cons h1 h2
      · intro h; cases h with | cons h1 h2 => exact ⟨h1, h2⟩
end

/-! ## Reflexivity, for all objects -/

mutual
theorem eqv_refl : ∀ (a : Obj) (f : Bool), WellFormed a → a.eqv f a = true
  | .str s, f, _ => by simp [Obj.eqv]
  | .lit v t, f, _ => by simp [Obj.eqv]
  | .prim p, f, _ => by simp [Obj.eqv]
  | .other t a, f, _ => by simp [Obj.eqv]
  | .vec o xs, f, h => by
    rw [WellFormed] at h
    have h1 := eqvPrefix_refl xs f h
    have h2 := fun f => eqvRows_refl xs f h
    rw [Obj.eqv]
    simp only [ite_self]
    cases o
    · simp only [Bool.false_eq_true, if_false]
      split
      · simp only [beq_self_eq_true, Bool.true_and, List.all_eq_true, eqvRows_any, List.any_eq_true]
        intro x hx; exact ⟨x, hx, h2 false x hx⟩
      · simp only [beq_self_eq_true, Bool.true_and, eqvRows_all, List.all_eq_true, List.any_eq_true]
        intro x hx; exact ⟨x, hx, h2 true x hx⟩
    · simp [h1]
  | .comp t b fs u, f, h => by
    rw [WellFormed] at h
    have h1 := eqvPrefix_refl fs f h.2
    rw [Obj.eqv, ← h.1, h1]; simp

theorem eqvPrefix_refl : ∀ (xs : List Obj) (f : Bool), WellFormedAll xs →
    eqvPrefix f xs.length xs xs = true
  | [], f, _ => eqvPrefix_zero f _ _
  | x :: xs, f, h => by
    rw [WellFormedAll] at h
    rw [List.length_cons, eqvPrefix_cons, eqv_refl x f h.1, eqvPrefix_refl xs f h.2]; rfl

theorem eqvRows_refl : ∀ (xs : List Obj) (f : Bool), WellFormedAll xs → ∀ x ∈ xs, x.eqv f x = true
  | x :: xs, f, h, z, hz => by
    rw [WellFormedAll] at h
    rcases List.mem_cons.1 hz with h' | hz
    · rw [h']; exact eqv_refl x f h.1
    · exact eqvRows_refl xs f h.2 z hz
end

/-! ## Hash -/

theorem hashUnord_acc (H : Hasher) : ∀ (xs : List Obj) (h k : UInt32),
    hashUnord H xs (h ^^^ k) = hashUnord H xs h ^^^ k
  | [], h, k => by simp [hashUnord]
  | x :: xs, h, k => by
    rw [hashUnord, hashUnord, ← hashUnord_acc H xs]
    congr 1
    rw [UInt32.xor_assoc, UInt32.xor_assoc, UInt32.xor_comm k]

theorem hashUnord_perm (H : Hasher) {xs ys : List Obj} (hp : xs.Perm ys) :
    ∀ h, hashUnord H xs h = hashUnord H ys h := by
  induction hp with
  | nil => intro h; rfl
  | cons x _ ih => intro h; rw [hashUnord, hashUnord, ih]
  | swap x y l =>
    intro h
    simp only [hashUnord]
    rw [UInt32.xor_assoc, UInt32.xor_assoc, UInt32.xor_comm (x.hash H)]
  | trans _ _ ih1 ih2 => intro h; rw [ih1, ih2]

mutual
theorem hash_same (H : Hasher) : ∀ {a b : Obj}, Same a b → a.hash H = b.hash H
  | _, _, .str s => rfl
  | _, _, .lit v t => rfl
  | _, _, .prim p => rfl
  | _, _, .other t a => rfl
  | _, _, .ordered h => by
    rw [Obj.hash, Obj.hash]; simp only [if_true]; exact (hashAll_same H h).1 0
  | _, _, .unordered h hp => by
    rw [Obj.hash, Obj.hash]
    simp only [Bool.false_eq_true, if_false]
    rw [(hashAll_same H h).2.1 0, hashUnord_perm H hp]
  | _, _, .comp (t := t) h hu => by
    rw [Obj.hash, Obj.hash, (hashAll_same H h).2.2]
    by_cases hc : t.flags.card = true
    · simp [hc, hu hc]
    · simp [hc]

theorem hashAll_same (H : Hasher) : ∀ {xs ys : List Obj}, SameAll xs ys →
    (∀ h, hashOrd H xs h = hashOrd H ys h) ∧ (∀ h, hashUnord H xs h = hashUnord H ys h) ∧
    (∀ n h, hashPrefix H n xs h = hashPrefix H n ys h)
  | _, _, .nil => ⟨fun _ => rfl, fun _ => rfl, fun _ _ => rfl⟩
  | _, _, .cons hxy hs => by
    obtain ⟨h1, h2, h3⟩ := hashAll_same H hs
    have hh := hash_same H hxy
    refine ⟨fun h => ?_, fun h => ?_, fun n h => ?_⟩
    · rw [hashOrd, hashOrd, hh, h1]
    · rw [hashUnord, hashUnord, hh, h2]
    · cases n with
      | zero => rw [hashPrefix, hashPrefix]
      | succ n => rw [hashPrefix, hashPrefix]; simp only [hh, h3]
end

end Cowl
