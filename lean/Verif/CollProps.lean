import Verif.CollLemmas
/-! # C85: collections hold a reference to each object they store -/
namespace Cowl
open Coll

namespace Coll

theorem owners_eq (s : St) (a : Nat) : s.owners a =
    s.held a + (s.raws.map (fr a)).sum + (s.vecs.map (fv a)).sum + (s.tabs.map (ft a)).sum := by
  have : ft a = fun t => (t.2.map fun e => (if e.1 = a then 1 else 0) + if e.2 = some a then 1 else 0).sum :=
    funext fun t => (objects_count t.2 a).symm
  rw [this]; rfl

/-- What C85 says of one operation. -/
theorem step_balanced (eq : Nat → Nat → Bool) (s : St) (o : Op) (hb : Balanced s) (hl : Legal s o)
    (hc : Covered o) : ∃ t, s.step eq o = some t ∧ Balanced t := by
  have alive : ∀ a, s.alive a → 0 < s.rc a := fun a h => by rw [hb a]; exact h
  cases o with
  | raw set keep =>
    refine ⟨_, rfl, fun a => ?_⟩
    have := hb a
    rw [owners_eq] at this ⊢
    dsimp only
    rw [sum_push]
    simpa [fr] using this
  | collect i objs mem =>
    unfold St.step; dsimp only
    cases hr : s.raws[i]? with
    | none => exact ⟨s, rfl, hb⟩
    | some r =>
      have hf : Stores r.keep (if r.set then storeSet eq r.keep else storeVec r.keep) := by
        split
        · exact storeSet_stores eq _
        · exact storeVec_stores _
      obtain ⟨x, p, e1, _, _, e4, e5⟩ := each_stores hf objs mem (s.rc, r.items)
        (fun a ha => alive a (hl a ha))
      dsimp only
      rw [e1]
      refine ⟨_, rfl, fun a => ?_⟩
      have := hb a
      rw [owners_eq] at this ⊢
      dsimp only
      have h1 := sum_set (fr a) s.raws i r { r with items := x.1.2 } hr
      have h2 : fr a { r with items := x.1.2 } = fr a r + if r.keep then p.count a else 0 := by
        unfold fr; dsimp only; rw [e4]; split <;> simp
      rw [e5]; dsimp only; omega
  | drop i =>
    unfold St.step; dsimp only
    cases hr : s.raws[i]? with
    | none => exact ⟨s, rfl, hb⟩
    | some r =>
      dsimp only
      have h1 := fun a => sum_erase (fr a) s.raws i r hr
      rw [releaseAll_eq _ _ (fun a => by
        have := hb a; have := h1 a; rw [owned_count]; rw [owners_eq] at *; omega)]
      refine ⟨_, rfl, fun a => ?_⟩
      have := hb a; have := h1 a
      rw [owners_eq] at *; dsimp only; rw [owned_count]; omega
  | vector i ok =>
    unfold St.step; dsimp only
    cases hr : s.raws[i]? with
    | none => exact ⟨s, rfl, hb⟩
    | some r =>
      dsimp only
      cases ok with
      | false => exact ⟨s, rfl, hb⟩
      | true =>
        have : Coll.vector s.rc r.items true = some (fun x => s.rc x + r.items.count x, some r.items) := by
          show (retainAll s.rc r.items).map _ = _
          rw [retainAll_eq _ _ (fun a ha => alive a ((hl r hr).2 a ha))]; rfl
        rw [this]
        refine ⟨_, rfl, fun a => ?_⟩
        have := hb a; have := sum_erase (fr a) s.raws i r hr
        rw [owners_eq] at *; dsimp only [gain]; rw [owned_count, sum_push]
        have : fv a (1, r.items) = r.items.count a := rfl
        omega
  | wrap i ok =>
    unfold St.step; dsimp only
    cases hr : s.raws[i]? with
    | none => exact ⟨s, rfl, hb⟩
    | some r =>
      cases ok with
      | false => exact ⟨s, rfl, hb⟩
      | true =>
        refine ⟨_, rfl, fun a => ?_⟩
        have := hb a; have := sum_erase (fr a) s.raws i r hr
        rw [owners_eq] at *; dsimp only; rw [sum_push]
        have h1 : fv a (1, r.items) = r.items.count a := rfl
        have h2 : fr a r = r.items.count a := by unfold fr; rw [(hl r hr).2]; rfl
        omega
  | vectorEmpty ok =>
    cases ok with
    | false => exact ⟨s, rfl, hb⟩
    | true =>
      refine ⟨_, rfl, fun a => ?_⟩
      have := hb a
      rw [owners_eq] at *; dsimp only; rw [sum_push]
      have h1 : fv a (1, []) = 0 := rfl
      omega
  | table i ok =>
    unfold St.step; dsimp only
    cases hr : s.raws[i]? with
    | none => exact ⟨s, rfl, hb⟩
    | some r =>
      dsimp only
      cases ok with
      | false =>
        refine ⟨_, rfl, fun a => ?_⟩
        have := hb a; have := sum_erase (fr a) s.raws i r hr
        rw [owners_eq] at *; dsimp only [gain, Option.map, Option.toList]
        rw [owned_count, List.append_nil]; omega
      | true =>
        have : Coll.table s.rc (some (r.items.map fun a => (a, none))) true =
            some (fun x => s.rc x + r.items.count x, some (r.items.map fun a => (a, none))) := by
          show (retainEntries s.rc (r.items.map fun a => (a, none))).map _ = _
          rw [retainEntries_all, objects_set, retainAll_eq _ _ (fun a ha => alive a ((hl r hr).2 a ha))]; rfl
        rw [this]
        refine ⟨_, rfl, fun a => ?_⟩
        have := hb a; have := sum_erase (fr a) s.raws i r hr
        rw [owners_eq] at *; dsimp only [gain, Option.map, Option.toList]; rw [owned_count, sum_push]
        have : ft a (1, r.items.map fun a => (a, none)) = r.items.count a := by unfold ft; rw [objects_set]
        omega
  | tableOf raw ok =>
    unfold St.step; dsimp only
    cases ok with
    | false =>
      cases raw with
      | none => exact absurd rfl hc
      | some e =>
        refine ⟨_, rfl, fun a => ?_⟩
        have := hb a
        rw [owners_eq] at *; dsimp only [Option.map, Option.toList]
        rw [List.append_nil]; omega
    | true =>
      have : Coll.table s.rc raw true = some (fun x => s.rc x + (objects (raw.getD [])).count x, some (raw.getD [])) := by
        show (retainEntries s.rc (raw.getD [])).map _ = _
        rw [retainEntries_all, retainAll_eq _ _ (fun a ha => ?_)]
        · rfl
        · cases raw with
          | none => cases ha
          | some e =>
            obtain ⟨x, hx, hm⟩ := List.mem_flatMap.1 ha
            rcases List.mem_cons.1 hm with rfl | hm
            · exact alive _ (hl e rfl x hx).1
            · exact alive _ ((hl e rfl x hx).2 a (Option.mem_toList.1 hm))
      rw [this]
      refine ⟨_, rfl, fun a => ?_⟩
      have := hb a
      rw [owners_eq] at *; dsimp only [Option.map, Option.toList]; rw [sum_push]
      have : ft a (1, raw.getD []) = (objects (raw.getD [])).count a := rfl
      omega
  | retain a =>
    unfold St.step; dsimp only
    rw [retain_eq _ _ (alive a hl)]
    refine ⟨_, rfl, fun x => ?_⟩
    have := hb x
    rw [owners_eq] at *; dsimp only [gain]; omega
  | release a =>
    have hp : ∀ x, [a].count x ≤ s.held x := fun x => by
      rw [List.count_singleton]; split
      · rename_i h; rw [← (beq_iff_eq.1 h)]; exact hl
      · exact Nat.zero_le _
    have hr : Coll.release s.rc a = some fun x => s.rc x - [a].count x := by
      have := releaseAll_eq [a] s.rc (fun x => by
        have := hb x; have := hp x; rw [owners_eq] at *; omega)
      rw [releaseAll] at this
      cases hr : Coll.release s.rc a with
      | none => rw [hr] at this; cases this
      | some y => rw [hr] at this; exact this
    unfold St.step; dsimp only
    rw [hr]
    refine ⟨_, rfl, fun x => ?_⟩
    have := hb x; have := hp x
    rw [owners_eq] at *; dsimp only [lose]; omega
  | add i a ok =>
    unfold St.step; dsimp only
    cases hr : s.vecs[i]? with
    | none => exact ⟨s, rfl, hb⟩
    | some v =>
      cases ok with
      | false =>
        refine ⟨_, rfl, fun x => ?_⟩
        have := hb x; have := sum_set (fv x) s.vecs i v (v.1, v.2) hr; have : fv x (v.1, v.2) = fv x v := rfl
        rw [owners_eq] at *; dsimp only; omega
      | true =>
        have : Coll.add s.rc v.2 a true = some (fun x => s.rc x + [a].count x, v.2 ++ [a], .ok) := by
          show (retain s.rc a).map _ = _
          rw [retain_eq _ _ (alive a hl)]; rfl
        dsimp only
        rw [this]
        refine ⟨_, rfl, fun x => ?_⟩
        have := hb x; have := sum_set (fv x) s.vecs i v (v.1, v.2 ++ [a]) hr
        have : fv x (v.1, v.2 ++ [a]) = fv x v + [a].count x := List.count_append
        rw [owners_eq] at *; dsimp only; omega
  | push i a ok =>
    have hp : ∀ x, [a].count x ≤ s.held x := fun x => by
      rw [List.count_singleton]; split
      · rename_i h; rw [← (beq_iff_eq.1 h)]; exact hl
      · exact Nat.zero_le _
    have hrel : Coll.release s.rc a = some fun x => s.rc x - [a].count x := by
      have := releaseAll_eq [a] s.rc (fun x => by
        have := hb x; have := hp x; rw [owners_eq] at *; omega)
      rw [releaseAll] at this
      cases hr : Coll.release s.rc a with
      | none => rw [hr] at this; cases this
      | some y => rw [hr] at this; exact this
    unfold St.step; dsimp only
    cases hr : s.vecs[i]? with
    | none => exact ⟨s, rfl, hb⟩
    | some v =>
      cases ok with
      | false =>
        have : Coll.push s.rc v.2 a false = some (fun x => s.rc x - [a].count x, v.2, .errMem) := by
          show (Coll.release s.rc a).map _ = _
          rw [hrel]; rfl
        dsimp only
        rw [this]
        refine ⟨_, rfl, fun x => ?_⟩
        have := hb x; have := hp x; have := sum_set (fv x) s.vecs i v (v.1, v.2) hr; have : fv x (v.1, v.2) = fv x v := rfl
        rw [owners_eq] at *; dsimp only [lose]; omega
      | true =>
        refine ⟨_, rfl, fun x => ?_⟩
        have := hb x; have := hp x; have := sum_set (fv x) s.vecs i v (v.1, v.2 ++ [a]) hr
        have : fv x (v.1, v.2 ++ [a]) = fv x v + [a].count x := List.count_append
        rw [owners_eq] at *; dsimp only [lose]; omega
  | retainVec i =>
    unfold St.step; dsimp only
    cases hr : s.vecs[i]? with
    | none => exact ⟨s, rfl, hb⟩
    | some v =>
      refine ⟨_, rfl, fun x => ?_⟩
      have := hb x; have := sum_set (fv x) s.vecs i v (v.1 + 1, v.2) hr; have : fv x (v.1 + 1, v.2) = fv x v := rfl
      rw [owners_eq] at *; dsimp only; omega
  | releaseVec i elements =>
    unfold St.step; dsimp only
    cases hr : s.vecs[i]? with
    | none => exact ⟨s, rfl, hb⟩
    | some v =>
      dsimp only
      have h1 : ∀ a, ((s.vecs.eraseIdx i).map (fv a)).sum + v.2.count a = (s.vecs.map (fv a)).sum :=
        fun a => sum_erase (fv a) s.vecs i v hr
      by_cases h : v.1 = 1
      · rw [if_neg (by simpa using h)]
        cases elements with
        | true =>
          rw [if_pos rfl, releaseAll_eq _ _ (fun a => by
            have := hb a; have := h1 a; rw [owners_eq] at *; omega)]
          refine ⟨_, rfl, fun a => ?_⟩
          have := hb a; have := h1 a
          rw [owners_eq] at *; dsimp only; omega
        | false =>
          refine ⟨_, rfl, fun a => ?_⟩
          have := hb a; have := h1 a
          rw [owners_eq] at *; dsimp only [gain]; omega
      · rw [if_pos h]
        refine ⟨_, rfl, fun x => ?_⟩
        have := hb x; have := sum_set (fv x) s.vecs i v (v.1 - 1, v.2) hr; have : fv x (v.1 - 1, v.2) = fv x v := rfl
        rw [owners_eq] at *; dsimp only; omega
  | retainTab i =>
    unfold St.step; dsimp only
    cases hr : s.tabs[i]? with
    | none => exact ⟨s, rfl, hb⟩
    | some v =>
      refine ⟨_, rfl, fun x => ?_⟩
      have := hb x; have := sum_set (ft x) s.tabs i v (v.1 + 1, v.2) hr; have : ft x (v.1 + 1, v.2) = ft x v := rfl
      rw [owners_eq] at *; dsimp only; omega
  | releaseTab i elements =>
    unfold St.step; dsimp only
    cases hr : s.tabs[i]? with
    | none => exact ⟨s, rfl, hb⟩
    | some v =>
      dsimp only
      have h1 : ∀ a, ((s.tabs.eraseIdx i).map (ft a)).sum + (objects v.2).count a = (s.tabs.map (ft a)).sum :=
        fun a => sum_erase (ft a) s.tabs i v hr
      by_cases h : v.1 = 1
      · rw [if_neg (by simpa using h)]
        cases elements with
        | true =>
          rw [if_pos rfl, releaseEntries_all, releaseAll_eq _ _ (fun a => by
            have := hb a; have := h1 a; rw [owners_eq] at *; omega)]
          refine ⟨_, rfl, fun a => ?_⟩
          have := hb a; have := h1 a
          rw [owners_eq] at *; dsimp only; omega
        | false =>
          refine ⟨_, rfl, fun a => ?_⟩
          have := hb a; have := h1 a
          rw [owners_eq] at *; dsimp only [gain]; omega
      · rw [if_pos h]
        refine ⟨_, rfl, fun x => ?_⟩
        have := hb x; have := sum_set (ft x) s.tabs i v (v.1 - 1, v.2) hr; have : ft x (v.1 - 1, v.2) = ft x v := rfl
        rw [owners_eq] at *; dsimp only; omega

theorem run_balanced (eq : Nat → Nat → Bool) (ops : List Op) : ∀ s, Balanced s → LegalRun eq s ops →
    (∀ o ∈ ops, Covered o) → ∃ t, s.run eq ops = some t ∧ Balanced t := by
  induction ops with
  | nil => intro s hb _ _; exact ⟨s, rfl, hb⟩
  | cons o l ih =>
    intro s hb hl hc
    obtain ⟨t, h1, h2⟩ := step_balanced eq s o hb hl.1 (hc o List.mem_cons_self)
    obtain ⟨t', h3, h4⟩ := ih t h2 (hl.2 t h1) (fun o ho => hc o (List.mem_cons_of_mem _ ho))
    exact ⟨t', by rw [St.run, h1]; exact h3, h4⟩

end Coll

/-- C85, all but `cowl_table_empty` without memory: whatever a client does with collections, and
whichever requests for memory fail, nothing undefined happens and the count of every object is the
number of references that the client and its collections hold. -/
theorem C85_partial (eq : Nat → Nat → Bool) (held : Nat → Nat) (ops : List Op)
    (hl : LegalRun eq (start held) ops) (hc : ∀ o ∈ ops, Covered o) :
    ∃ s, (start held).run eq ops = some s ∧ ∀ a, s.rc a = s.owners a :=
  run_balanced eq ops _ (fun a => by simp [St.owners, start]) hl hc

/-- C85: when all collections are gone, only the references of the client are left. -/
theorem C85_end (eq : Nat → Nat → Bool) (held : Nat → Nat) (ops : List Op)
    (hl : LegalRun eq (start held) ops) (hc : ∀ o ∈ ops, Covered o) (s : St)
    (hs : (start held).run eq ops = some s) (hr : s.raws = []) (hv : s.vecs = []) (ht : s.tabs = []) :
    s.rc = s.held := by
  obtain ⟨t, h1, h2⟩ := C85_partial eq held ops hl hc
  obtain rfl : t = s := Option.some.inj (h1.symm.trans hs)
  funext a
  rw [h2 a, St.owners, hr, hv, ht]; simp

/-- C85: a collecting iterator stores the objects it is called on, in order, from the first on; all of
them if the code is OK. Each object stored is retained once, if this was asked for, and no other. -/
theorem C85_collect (eq : Nat → Nat → Bool) (set keep : Bool) (objs : List Nat) (mem : List Bool)
    (rc : Nat → Nat) (items : List Nat) (h : ∀ a ∈ objs, 0 < rc a) :
    ∃ rc' p r, each (if set then storeSet eq keep else storeVec keep) objs mem (rc, items)
        = some ((rc', items ++ p), r) ∧
      p <+: objs ∧ (r = .ok → p = objs) ∧
      ∀ a, rc' a = rc a + if keep then p.count a else 0 := by
  have hf : Stores keep (if set then storeSet eq keep else storeVec keep) := by
    split
    · exact storeSet_stores eq _
    · exact storeVec_stores _
  obtain ⟨⟨⟨rc', it⟩, r⟩, p, e1, e2, e3, e4, e5⟩ := each_stores hf objs mem (rc, items) h
  exact ⟨rc', p, r, by rw [e1]; simp only at e4; rw [e4], e2, e3, e5⟩

/-- C85: what a set holds stays free of equal objects. -/
theorem C85_set (eq : Nat → Nat → Bool) (keep : Bool) (objs : List Nat) :
    ∀ (mem : List Bool) (rc : Nat → Nat) (items : List Nat) (x : Store × Ret),
    items.Pairwise (fun a b => eq b a = false) →
    each (storeSet eq keep) objs mem (rc, items) = some x →
    x.1.2.Pairwise (fun a b => eq b a = false) := by
  induction objs with
  | nil => intro mem rc items x hp hx; cases hx; exact hp
  | cons a l ih =>
    intro mem rc items x hp hx
    rw [each] at hx
    obtain ⟨r, hr, hx⟩ := Option.bind_eq_some_iff.1 hx
    have hr' : r.1.2.Pairwise (fun a b => eq b a = false) := by
      unfold storeSet at hr
      split at hr
      · cases hr; exact hp
      · split at hr
        · cases hr; exact hp
        · rename_i hn
          have hn' : (items ++ [a]).Pairwise (fun a b => eq b a = false) := by
            refine List.pairwise_append.2 ⟨hp, List.pairwise_singleton _ _, fun b hb c hc => ?_⟩
            rw [List.mem_singleton.1 hc]
            cases h : eq a b with
            | false => rfl
            | true => exact absurd (List.any_eq_true.2 ⟨b, hb, h⟩) hn
          split at hr
          · obtain ⟨y, _, rfl⟩ := Option.map_eq_some_iff.1 hr; exact hn'
          · cases hr; exact hn'
    split at hx
    · cases hx; exact hr'
    · obtain ⟨⟨rc', it⟩, c⟩ := r
      exact ih _ _ _ _ hr' hx

/-- Two objects the client holds once each are collected with `retain`, one twice, wrapped, and listed
in a table; everything is released again. -/
def collHistory : List Op :=
  [.raw false true, .collect 0 [1, 2, 1] [true, true, false], .collect 0 [1] [], .wrap 0 false, .wrap 0 true,
   .raw true false, .collect 0 [1, 2, 2, 1] [], .table 0 true, .tableOf (some [(1, some 2), (2, none)]) true,
   .push 0 2 false, .add 0 1 true, .releaseTab 0 true, .retainVec 0, .releaseVec 0 true, .releaseVec 0 false,
   .releaseTab 0 true]

/-- The hypotheses of C85 are met by this history: all operations are legal, and 1 is left with four
references of the client, 2 with one. -/
example : LegalRun (· == ·) (start fun a => if a = 1 ∨ a = 2 then 1 else 0) collHistory ∧
    (∀ o ∈ collHistory, Covered o) ∧
    (((start fun a => if a = 1 ∨ a = 2 then 1 else 0).run (· == ·) collHistory).map
      fun s => [s.rc 1, s.rc 2, s.rc 3, s.held 1, s.held 2, s.vecs.length, s.tabs.length, s.raws.length])
      = some [4, 1, 0, 4, 1, 0, 0, 0] := by
  refine ⟨?_, ?_, by decide +kernel⟩
  · decide +kernel
  · unfold collHistory Covered; simp

/-- C85 is false of the program: `cowl_table_empty` deinitialises NULL if there is no memory
(`cowl_table.c:42-45`). -/
theorem C85_fails : ¬ ∀ (eq : Nat → Nat → Bool) (held : Nat → Nat) (ops : List Op),
    LegalRun eq (start held) ops →
    ∃ s, (start held).run eq ops = some s ∧ ∀ a, s.rc a = s.owners a := by
  intro h
  obtain ⟨s, h1, _⟩ := h (· == ·) (fun _ => 0) [.tableOf none false] ⟨fun e he => (nomatch he), fun _ _ => trivial⟩
  cases h1

end Cowl
