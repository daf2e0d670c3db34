import Verif.CollSpec
/-! # Lemmas on the ownership of collections -/
namespace Cowl.Coll

/-- Counts after references were added. -/
theorem retainAll_eq (l : List Nat) : ∀ rc : Rc, (∀ a ∈ l, 0 < rc a) →
    retainAll rc l = some fun x => rc x + l.count x := by
  induction l with
  | nil => intro rc _; rfl
  | cons b l ih =>
    intro rc h
    have hb : rc b ≠ 0 := Nat.pos_iff_ne_zero.1 (h b List.mem_cons_self)
    rw [retainAll, retain, if_neg hb, Option.bind_some, ih _ (fun a ha => ?_)]
    · congr 1; funext x
      rw [List.count_cons]
      by_cases hx : x = b
      · subst hx; simp; omega
      · rw [if_neg hx, if_neg (by simp; exact fun e => hx e.symm)]; omega
    · have := h a (List.mem_cons_of_mem _ ha)
      split <;> omega

theorem releaseAll_eq (l : List Nat) : ∀ rc : Rc, (∀ a, l.count a ≤ rc a) →
    releaseAll rc l = some fun x => rc x - l.count x := by
  induction l with
  | nil => intro rc _; rfl
  | cons b l ih =>
    intro rc h
    have hb := h b
    rw [List.count_cons_self] at hb
    rw [releaseAll, release, if_neg (by omega), Option.bind_some, ih _ (fun a => ?_)]
    · congr 1; funext x
      rw [List.count_cons]
      by_cases hx : x = b
      · subst hx; simp; omega
      · rw [if_neg hx, if_neg (by simp; exact fun e => hx e.symm)]; omega
    · have := h a
      rw [List.count_cons] at this
      by_cases hx : a = b
      · subst hx; simp at this ⊢; omega
      · rw [if_neg (by simp; exact fun e => hx e.symm)] at this; rw [if_neg hx]; omega

theorem retainEntries_all (e : Entries) : ∀ rc, retainEntries rc e = retainAll rc (objects e) := by
  induction e with
  | nil => intro rc; rfl
  | cons x l ih =>
    intro rc
    obtain ⟨k, v⟩ := x
    have : objects ((k, v) :: l) = k :: (v.toList ++ objects l) := rfl
    rw [this, retainEntries, retainAll]
    cases v with
    | none => simp only [Option.toList_none, List.nil_append, ih]
    | some v => simp only [Option.toList_some, List.singleton_append, retainAll, ih]

theorem releaseEntries_all (e : Entries) : ∀ rc, releaseEntries rc e = releaseAll rc (objects e) := by
  induction e with
  | nil => intro rc; rfl
  | cons x l ih =>
    intro rc
    obtain ⟨k, v⟩ := x
    have : objects ((k, v) :: l) = k :: (v.toList ++ objects l) := rfl
    rw [this, releaseEntries, releaseAll]
    cases v with
    | none => simp only [Option.toList_none, List.nil_append, ih]
    | some v => simp only [Option.toList_some, List.singleton_append, releaseAll, ih]

theorem objects_count (e : Entries) (a : Nat) :
    (e.map fun e => (if e.1 = a then 1 else 0) + if e.2 = some a then 1 else 0).sum = (objects e).count a := by
  induction e with
  | nil => rfl
  | cons x l ih =>
    obtain ⟨k, v⟩ := x
    have : objects ((k, v) :: l) = k :: (v.toList ++ objects l) := rfl
    rw [this, List.map_cons, List.sum_cons, ih, List.count_cons, List.count_append]
    cases v with
    | none => simp; omega
    | some v => simp [List.count_singleton]; omega

theorem objects_set (l : List Nat) : objects (l.map fun a => (a, none)) = l := by
  induction l with
  | nil => rfl
  | cons a l ih => show a :: objects (l.map fun a => (a, none)) = _; rw [ih]

/-- What one call of a collecting iterator does. -/
def Stores (keep : Bool) (f : Store → Bool → Nat → Option (Store × Ret)) : Prop :=
  ∀ s ok a, 0 < s.1 a → ∃ r, f s ok a = some r ∧
    ((r.2 ≠ .ok ∧ r.1 = s) ∨
     (r.2 = .ok ∧ r.1.2 = s.2 ++ [a] ∧
      ∀ x, r.1.1 x = s.1 x + if keep then [a].count x else 0))

theorem retain_eq (rc : Rc) (a : Nat) (h : 0 < rc a) :
    retain rc a = some fun x => rc x + [a].count x := by
  have := retainAll_eq [a] rc (by simpa using h)
  rw [retainAll] at this
  cases hr : retain rc a with
  | none => rw [hr] at this; cases this
  | some y => rw [hr] at this; exact this

theorem stores_yes (keep : Bool) (s : Store) (a : Nat) (h : 0 < s.1 a) :
    ∃ r, (if keep then (retain s.1 a).map fun rc => ((rc, s.2 ++ [a]), Ret.ok)
      else some ((s.1, s.2 ++ [a]), .ok)) = some r ∧
    ((r.2 ≠ .ok ∧ r.1 = s) ∨
     (r.2 = .ok ∧ r.1.2 = s.2 ++ [a] ∧
      ∀ x, r.1.1 x = s.1 x + if keep then [a].count x else 0)) := by
  cases keep with
  | true =>
    rw [if_pos rfl, retain_eq _ _ h]
    exact ⟨_, rfl, .inr ⟨rfl, rfl, fun x => rfl⟩⟩
  | false => exact ⟨_, rfl, .inr ⟨rfl, rfl, fun x => rfl⟩⟩

theorem storeVec_stores (keep : Bool) : Stores keep (storeVec keep) := by
  intro s ok a h
  cases ok with
  | false => exact ⟨_, rfl, .inl ⟨nofun, rfl⟩⟩
  | true => exact stores_yes keep s a h

theorem storeSet_stores (eq : Nat → Nat → Bool) (keep : Bool) : Stores keep (storeSet eq keep) := by
  intro s ok a h
  cases ok with
  | false => exact ⟨_, rfl, .inl ⟨nofun, rfl⟩⟩
  | true =>
    by_cases he : s.2.any (eq a) = true
    · refine ⟨(s, .no), ?_, .inl ⟨nofun, rfl⟩⟩
      rw [storeSet, if_neg (by simp), if_pos he]
    · obtain ⟨r, h1, h2⟩ := stores_yes keep s a h
      refine ⟨r, ?_, h2⟩
      rw [storeSet, if_neg (by simp), if_neg he, h1]

theorem each_stores {keep : Bool} {f : Store → Bool → Nat → Option (Store × Ret)} (hf : Stores keep f)
    (l : List Nat) : ∀ (mem : List Bool) (s : Store), (∀ a ∈ l, 0 < s.1 a) →
    ∃ r p, each f l mem s = some r ∧ p <+: l ∧ (r.2 = .ok → p = l) ∧ r.1.2 = s.2 ++ p ∧
      ∀ x, r.1.1 x = s.1 x + if keep then p.count x else 0 := by
  induction l with
  | nil => intro mem s _; exact ⟨_, [], rfl, List.prefix_refl _, fun _ => rfl, by simp, by simp⟩
  | cons a l ih =>
    intro mem s h
    obtain ⟨r, hr, hc⟩ := hf s (mem.headD true) a (h a List.mem_cons_self)
    rw [each, hr, Option.bind_some]
    rcases hc with ⟨h1, h2⟩ | ⟨h1, h2, h3⟩
    · rw [if_pos (by simpa [Ret.shouldStop] using h1)]
      exact ⟨r, [], rfl, List.nil_prefix, fun e => absurd e h1, by simp [h2], by simp [h2]⟩
    · rw [if_neg (by simp [Ret.shouldStop, h1])]
      obtain ⟨r', p, e1, e2, e3, e4, e5⟩ := ih mem.tail r.1 (fun b hb => by
        rw [h3]; have := h b (List.mem_cons_of_mem _ hb); omega)
      refine ⟨r', a :: p, e1, (List.prefix_cons_inj a).2 e2, fun e => by rw [e3 e], by rw [e4, h2]; simp, fun x => ?_⟩
      rw [e5, h3]
      cases keep with
      | false => simp
      | true => simp only [if_true, List.count_cons, List.count_nil]; omega

/-! ## Sums over lists -/

theorem sum_set {α : Type} (f : α → Nat) (l : List α) (i : Nat) (x y : α) (h : l[i]? = some x) :
    ((l.set i y).map f).sum + f x = (l.map f).sum + f y := by
  induction l generalizing i with
  | nil => simp at h
  | cons a l ih =>
    cases i with
    | zero => simp at h; subst h; simp; omega
    | succ i =>
      simp at h; have := ih i h
      rw [List.set_cons_succ, List.map_cons, List.map_cons, List.sum_cons, List.sum_cons]; omega

theorem sum_erase {α : Type} (f : α → Nat) (l : List α) (i : Nat) (x : α) (h : l[i]? = some x) :
    ((l.eraseIdx i).map f).sum + f x = (l.map f).sum := by
  induction l generalizing i with
  | nil => simp at h
  | cons a l ih =>
    cases i with
    | zero => simp at h; subst h; simp; omega
    | succ i => simp at h; have := ih i h; simp; omega

theorem sum_push {α : Type} (f : α → Nat) (l : List α) (x : α) :
    ((l ++ [x]).map f).sum = (l.map f).sum + f x := by simp

/-- Share of a raw collection. -/
abbrev fr (a : Nat) (r : Raw) : Nat := if r.keep then r.items.count a else 0
abbrev fv (a : Nat) (v : Nat × List Nat) : Nat := v.2.count a
abbrev ft (a : Nat) (t : Nat × Entries) : Nat := (objects t.2).count a

theorem owned_count (r : Raw) (a : Nat) : r.owned.count a = fr a r := by
  unfold Raw.owned fr; split <;> simp

end Cowl.Coll
