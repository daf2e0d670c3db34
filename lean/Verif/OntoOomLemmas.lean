import Verif.OntoOomSpec
import Verif.OntoInv
/-! # Lemmas on additions when memory runs out -/
namespace Cowl.OntoOom
open ObjSpec IterSpec OntoSpec

theorem iterPrims_all {σ : Type} (k : Callback σ Prim) (x : Obj) (s : σ) :
    iterPrims Masks.pfAll k x s = iterList k (occ x) s := by
  rw [iterPrims_eq, List.filter_eq_self.2 (fun p _ => pfAll_bit p)]

theorem lookup_touch : ∀ (m : Idx) (q p : Prim),
    (touch m q).lookup p = if p = q then some (some (ix m p)) else m.lookup p
  | [], q, p => by
    by_cases h : p = q
    · subst h; simp [touch, ix]
    · have hf : (p == q) = false := by simpa using h
      simp [touch, List.lookup_cons, h, hf]
  | (r, v) :: m, q, p => by
    rw [touch]
    have ih := lookup_touch m q p
    by_cases hqr : q = r
    · subst hqr
      by_cases h : p = q
      · subst h; simp [ix]
      · have hf : (p == q) = false := by simpa using h
        simp [List.lookup_cons, h, hf]
    · by_cases hpr : p = r
      · subst hpr
        have : ¬ p = q := fun h => hqr h.symm
        simp [hqr, this]
      · have hf : (p == r) = false := by simpa using hpr
        simp only [hqr, if_false, List.lookup_cons, hf, ix]
        simpa [ix] using ih

theorem ix_touch (m : Idx) (q p : Prim) : ix (touch m q) p = ix m p := by
  rw [ix, lookup_touch]
  by_cases h : p = q <;> simp [h]

theorem keys_touch (m : Idx) (q p : Prim) :
    p ∈ (touch m q).map Prod.fst ↔ p ∈ m.map Prod.fst ∨ p = q := by
  rw [← lookup_isSome_iff, ← lookup_isSome_iff, lookup_touch]
  by_cases h : p = q <;> simp [h]

/-- What indexing an axiom does: all of it, or undefined behaviour, or an error
after part of it. -/
def Indexed (a : Ref) (L : List Prim) (os : List Out) (m : Idx) (r : Nat → Int)
    (res : St × Ret) : Prop :=
  (res.2 = .ok ∧ res.1 = some (os.drop L.length, L.foldl (putAxiom a) m, r)) ∨
  (res.2 = .errMem ∧ (res.1 = none ∧ .vec ∈ os ∨
    ∃ os' m' r' L1 L2, res.1 = some (os', m', r') ∧
      L = L1 ++ L2 ∧ L2 ≠ [] ∧ (∀ p, ix m' p = ix m p ++ List.replicate (L1.count p) a) ∧
      (∀ p, p ∈ m.map Prod.fst → p ∈ m'.map Prod.fst) ∧
      (∀ p, p ∈ m'.map Prod.fst → p ∈ m.map Prod.fst ∨ p ∈ L) ∧
      (r' = r ∨ (r' = bump r a.addr (-1) ∧ .push ∈ os)) ∧ (.put ∈ os ∨ .push ∈ os)))

theorem index_list (a : Ref) : ∀ (L : List Prim) (os : List Out) (m : Idx) (r : Nat → Int),
    Indexed a L os m r (iterList (addToMap a) L (some (os, m, r)))
  | [], os, m, r => by
    exact .inl ⟨rfl, rfl⟩
  | q :: L, os, m, r => by
    have good : addToMap a (some (os, m, r)) q = (some ((next os).2, putAxiom a m q, r), .ok) →
        next os = (os.headD .ok, os.drop 1) →
        Indexed a (q :: L) os m r (iterList (addToMap a) (q :: L) (some (os, m, r))) := fun e hn => by
      have ih := index_list a L (next os).2 (putAxiom a m q) r
      rw [← iterList_cons_ok (k := addToMap a) (x := q) (s := some (os, m, r)) e] at ih
      have hsub : ∀ y, y ∈ (next os).2 → y ∈ os := fun y hy => by
        rw [hn] at hy; exact List.mem_of_mem_drop hy
      rcases ih with ⟨h1, h2⟩ | ⟨h1, ⟨h2, h3⟩ | ⟨os', m', r', L1, L2, h2, h3, h4, h5, h6, h7, h8, h9⟩⟩
      · refine Or.inl ⟨h1, ?_⟩
        rw [h2, hn, List.drop_drop, List.length_cons, Nat.add_comm]
        rfl
      · exact Or.inr ⟨h1, .inl ⟨h2, hsub _ h3⟩⟩
      · refine Or.inr ⟨h1, .inr ⟨os', m', r', q :: L1, L2, h2, by rw [h3]; rfl, h4, ?_, ?_, ?_, ?_, ?_⟩⟩
        · intro p
          rw [h5, ix_putAxiom, List.append_assoc]
          congr 1
          by_cases h : p = q
          · subst h; simp [List.replicate_succ]
          · have : ¬ q = p := fun h' => h h'.symm
            simp [h, this]
        · exact fun p hp => h6 p ((keys_putAxiom a m q p).2 (.inl hp))
        · intro p hp
          rcases h7 p hp with h | h
          · rcases (keys_putAxiom a m q p).1 h with h | h
            · exact .inl h
            · exact .inr (h ▸ List.mem_cons_self ..)
          · exact .inr (List.mem_cons_of_mem _ h)
        · exact h8.imp_right fun h => ⟨h.1, hsub _ h.2⟩
        · exact h9.imp (hsub _) (hsub _)
    have hnx : next os = (os.headD .ok, os.drop 1) := by cases os <;> rfl
    have hmem : ∀ y, (next os).1 = y → y ≠ .ok → y ∈ os := fun y e hy => by
      cases os with
      | nil => exact absurd e.symm hy
      | cons b os => rw [← e]; exact List.mem_cons_self ..
    have bad : ∀ s, addToMap a (some (os, m, r)) q = (s, .errMem) →
        iterList (addToMap a) (q :: L) (some (os, m, r)) = (s, .errMem) := fun s e => by
      rw [iterList, e]; rfl
    cases hn : (next os).1 with
    | ok => exact good (by simp only [addToMap, hn]) hnx
    | put =>
      have e : addToMap a (some (os, m, r)) q = (some ((next os).2, m, r), .errMem) := by
        simp only [addToMap, hn]
      rw [bad _ e]
      exact Or.inr ⟨rfl, .inr ⟨_, m, r, [], q :: L, rfl, rfl, by simp, fun p => by simp, fun p h => h,
        fun p h => .inl h, .inl rfl, .inl (hmem _ hn (by simp))⟩⟩
    | vec =>
      by_cases hv : (m.lookup q).join.isSome = true
      · exact good (by simp only [addToMap, hn, if_pos hv]) hnx
      · rw [bad none (by simp only [addToMap, hn, if_neg hv])]
        exact Or.inr ⟨rfl, .inl ⟨rfl, hmem _ hn (by simp)⟩⟩
    | push =>
      have e : addToMap a (some (os, m, r)) q
          = (some ((next os).2, touch m q, bump r a.addr (-1)), .errMem) := by
        simp only [addToMap, hn]
      rw [bad _ e]
      have hp := hmem _ hn (by simp)
      refine Or.inr ⟨rfl, .inr ⟨_, touch m q, _, [], q :: L, rfl, rfl, by simp,
        fun p => by simp [ix_touch], fun p h => (keys_touch m q p).2 (.inl h), fun p h => ?_,
        .inr ⟨rfl, hp⟩, .inr hp⟩⟩
      exact ((keys_touch m q p).1 h).imp_right fun (h : p = q) => by rw [h]; exact List.mem_cons_self ..

/-- What noting the primitives of an annotation does. -/
theorem keys_list : ∀ (L : List Prim) (os : List Out) (m : Idx),
    ((iterList keyToMap L (os, m)).2 = .ok ∧ (iterList keyToMap L (os, m)).1 =
      (os.drop L.length, L.foldl putKey m)) ∨
    ((iterList keyToMap L (os, m)).2 = .errMem ∧ .put ∈ os ∧
      ix (iterList keyToMap L (os, m)).1.2 = ix m ∧
      (∀ p, p ∈ m.map Prod.fst → p ∈ (iterList keyToMap L (os, m)).1.2.map Prod.fst) ∧
      (∀ p, p ∈ (iterList keyToMap L (os, m)).1.2.map Prod.fst → p ∈ m.map Prod.fst ∨ p ∈ L))
  | [], os, m => .inl ⟨rfl, rfl⟩
  | q :: L, os, m => by
    have hn : next os = (os.headD .ok, os.drop 1) := by cases os <;> rfl
    by_cases hp : (next os).1 = .put
    · have e : keyToMap (os, m) q = (((next os).2, m), .errMem) := by simp only [keyToMap, hp]
      have e' : iterList keyToMap (q :: L) (os, m) = (((next os).2, m), .errMem) := by
        rw [iterList, e]; rfl
      rw [e']
      refine .inr ⟨rfl, ?_, rfl, fun _ h => h, fun _ h => .inl h⟩
      cases os with
      | nil => cases hp
      | cons b os => rw [show b = Out.put from hp]; exact List.mem_cons_self ..
    · have e : keyToMap (os, m) q = (((next os).2, putKey m q), .ok) := by
        unfold keyToMap
        cases h : (next os).1 with
        | put => exact absurd h hp
        | ok => rfl
        | vec => rfl
        | push => rfl
      have ih := keys_list L (next os).2 (putKey m q)
      rw [← iterList_cons_ok (k := keyToMap) (x := q) (s := (os, m)) e] at ih
      rcases ih with ⟨h1, h2⟩ | ⟨h1, h2, h3, h4, h5⟩
      · refine .inl ⟨h1, ?_⟩
        rw [h2, hn, List.drop_drop, List.length_cons, Nat.add_comm]
        rfl
      · refine .inr ⟨h1, ?_, h3.trans (ix_putKey m q), fun p h => h4 p ((keys_putKey m q p).2 (.inl h)),
          fun p h => ?_⟩
        · rw [hn] at h2; exact List.mem_of_mem_drop h2
        · rcases h5 p h with h | h
          · rcases (keys_putKey m q p).1 h with h | h
            · exact .inl h
            · exact .inr (h ▸ List.mem_cons_self ..)
          · exact .inr (List.mem_cons_of_mem _ h)

theorem vecPtrAddM_spec (os : List Out) (v : Option (List Ref)) (x : Ref) :
    (vecPtrAddM os v x = some (vecPtrAdd v x, true)) ∨
    (vecPtrAddM os v x = some (some (v.getD []), false) ∧ .push ∈ os) ∨
    (vecPtrAddM os v x = none ∧ .vec ∈ os ∧ v = none) := by
  have hmem : ∀ y, (next os).1 = y → y ≠ .ok → y ∈ os := fun y e hy => by
    cases os with
    | nil => exact absurd e.symm hy
    | cons b os => rw [← e]; exact List.mem_cons_self ..
  unfold vecPtrAddM
  cases hn : (next os).1 with
  | ok => exact .inl rfl
  | put => exact .inl rfl
  | push => exact .inr (.inl ⟨rfl, hmem _ hn (by simp)⟩)
  | vec =>
    cases v with
    | some v => exact .inl rfl
    | none => exact .inr (.inr ⟨rfl, hmem _ hn (by simp), rfl⟩)

/-- Same contents, apart from the index. -/
structure Alike (o o' : Onto) : Prop where
  type : ∀ t, (o'.tindex t).getD [] = (o.tindex t).getD []
  annot : o'.annot.getD [] = o.annot.getD []
  imports : o'.imports.getD [] = o.imports.getD []

theorem Alike.refl (o : Onto) : Alike o o := ⟨fun _ => rfl, rfl, rfl⟩

theorem Alike.trans {a b c : Onto} (h : Alike a b) (h' : Alike b c) : Alike a c :=
  ⟨fun t => (h'.type t).trans (h.type t), h'.annot.trans h.annot, h'.imports.trans h.imports⟩

theorem iterTypes_alike {o o' : Onto} (h : Alike o o') {σ : Type} (k : Callback σ Ref) :
    ∀ (ts : List Nat) (s : σ), iterTypes o' k ts s = iterTypes o k ts s
  | [], _ => rfl
  | t :: ts, s => by
    have e : o'.iterAxiomsOfType t k s = o.iterAxiomsOfType t k s := by
      simp only [Onto.iterAxiomsOfType, iterVec, h.type t]
    simp only [iterTypes, e, iterTypes_alike h k ts]

theorem Alike.same {o o' : Onto} (h : Alike o o') : Same o o' := by
  have hc : ∀ t, vecCount (o'.tindex t) = vecCount (o.tindex t) := fun t => by
    simp only [vecCount, h.type t]
  constructor
  · intro σ k s; exact iterTypes_alike h k _ s
  · intro t σ k s; simp only [Onto.iterAxiomsOfType, iterVec, h.type t]
  · intro f σ k s; exact iterTypes_alike h k _ s
  · intro σ k s; simp only [Onto.iterAnnot, iterVec, h.annot]
  · intro σ k s; simp only [Onto.iterImports, iterVec, h.imports]
  · simp only [Onto.axiomCount, hc]
  · intro t; simp only [Onto.axiomCountForType, hc]
  · intro f; simp only [Onto.axiomCountForTypes, Onto.axiomCountForType, hc]
  · simp only [Onto.importCount, vecCount, h.imports]
  · intro x; simp only [Onto.hasImport, h.imports]

/-- What an addition that fails leaves behind. -/
structure Left (o o' : Onto) (os : List Out) (x : Add) : Prop where
  alike : Alike o o'
  disabled : o'.disabled = o.disabled
  listed : ∀ p, ∃ n, n ≤ (occ x.obj.obj).count p ∧ ix o'.idx p = ix o.idx p ++ List.replicate n x.obj
  keys : ∀ p, p ∈ o.idx.map Prod.fst → p ∈ o'.idx.map Prod.fst
  new : ∀ p, p ∈ o'.idx.map Prod.fst → p ∈ o.idx.map Prod.fst ∨ p ∈ occ x.obj.obj
  refs : o'.refs = o.refs ∨ (o'.refs = bump o.refs x.obj.addr (-1) ∧ .push ∈ os)
  quiet : (o.disabled = true ∧ ∃ y, x = .ax y) ∨ (∃ y, x = .imp y) → o'.idx = o.idx ∧ o'.refs = o.refs
  annot : (∃ y, x = .annot y) → (∀ p, ix o'.idx p = ix o.idx p) ∧ o'.refs = o.refs

/-- Trichotomy of an addition. -/
theorem run_spec (os : List Out) (o : Onto) (x : Add) :
    (∃ o', x.run os o = some (o', .ok) ∧ o.step x.op = some o') ∨
    (∃ o', x.run os o = some (o', .errMem) ∧ Left o o' os x ∧ (.put ∈ os ∨ .push ∈ os)) ∨
    (x.run os o = none ∧ .vec ∈ os) := by
  have hz : ∀ (m : Idx) (b : Ref) (x : Obj) p, ∃ n, n ≤ (occ x).count p ∧
      ix m p = ix m p ++ List.replicate n b := fun m b x p => ⟨0, Nat.zero_le _, by simp⟩
  cases x with
  | imp x =>
    simp only [Add.run, addImport, Add.op, Onto.step]
    rcases vecPtrAddM_spec os o.imports x with e | ⟨e, hp⟩ | ⟨e, hv, _⟩
    · rw [e]; exact .inl ⟨_, rfl, rfl⟩
    · rw [e]
      exact .inr (.inl ⟨_, rfl, ⟨⟨fun _ => rfl, rfl, rfl⟩, rfl, hz _ _ _, fun _ h => h, fun _ h => .inl h,
        .inl rfl, fun _ => ⟨rfl, rfl⟩, fun _ => ⟨fun _ => rfl, rfl⟩⟩, .inr hp⟩)
    · rw [e]; exact .inr (.inr ⟨rfl, hv⟩)
  | annot x =>
    simp only [Add.run, addAnnot, Add.op, Onto.step, iterPrims_all]
    rcases keys_list (occ x.obj) os o.idx with ⟨h1, h2⟩ | ⟨h1, hp, h3, h4, h5⟩
    · rw [h1, h2]
      rw [if_neg (by simp [Ret.isErr])]
      have hidx : (o.addAnnot x).idx = (occ x.obj).foldl putKey o.idx := iterPrims_fold _ _ _
      obtain ⟨k1, k2, _⟩ := putKeys_spec (occ x.obj) o.idx
      rcases vecPtrAddM_spec (os.drop (occ x.obj).length) o.annot x with e | ⟨e, hp⟩ | ⟨e, hv, _⟩
      · rw [e]
        refine .inl ⟨_, rfl, ?_⟩
        rw [← hidx]; rfl
      · rw [e]
        refine .inr (.inl ⟨_, rfl, ⟨⟨fun _ => rfl, rfl, rfl⟩, rfl, ?_, ?_, ?_, .inl rfl, ?_, ?_⟩,
          .inr (List.mem_of_mem_drop hp)⟩)
        · intro p; rw [k1]; exact hz _ _ _ p
        · exact fun p h => (k2 p).2 (.inl h)
        · exact fun p h => (k2 p).1 h
        · rintro (⟨_, y, h⟩ | ⟨y, h⟩) <;> cases h
        · exact fun _ => ⟨fun p => by rw [k1], rfl⟩
      · rw [e]; exact .inr (.inr ⟨rfl, List.mem_of_mem_drop hv⟩)
    · rw [h1, if_pos (show Ret.errMem.isErr = true from rfl)]
      refine .inr (.inl ⟨_, rfl, ⟨⟨fun _ => rfl, rfl, rfl⟩, rfl, ?_, h4, h5, .inl rfl, ?_, ?_⟩,
        .inl hp⟩)
      · intro p; rw [h3]; exact hz _ _ _ p
      · rintro (⟨_, y, h⟩ | ⟨y, h⟩) <;> cases h
      · exact fun _ => ⟨fun p => by rw [h3], rfl⟩
  | ax a =>
    have hby : ∀ (os' : List Out) (m : Idx) (r : Nat → Int),
        (∃ o', addByType os' { o with idx := m, refs := r } a = some (o', .ok) ∧
          o' = { o with
            idx := m, byType := setType o.byType (axType a.obj) (vecPtrAdd (o.tindex (axType a.obj)) a)
            refs := bump r a.addr 1 }) ∨
        (∃ o', addByType os' { o with idx := m, refs := r } a = some (o', .errMem) ∧
          Alike o o' ∧ o'.disabled = o.disabled ∧ o'.idx = m ∧ o'.refs = r ∧ .push ∈ os') ∨
        (addByType os' { o with idx := m, refs := r } a = none ∧ .vec ∈ os') := by
      intro os' m r
      simp only [addByType, Onto.tindex]
      rcases vecPtrAddM_spec os' (o.byType (axType a.obj)) a with e | ⟨e, hp⟩ | ⟨e, hv, _⟩
      · rw [e]; exact .inl ⟨_, rfl, rfl⟩
      · rw [e]
        refine .inr (.inl ⟨_, rfl, ⟨fun t => ?_, rfl, rfl⟩, rfl, rfl,
          rfl, hp⟩)
        simp only [Onto.tindex, setType]
        by_cases h : t = axType a.obj
        · rw [if_pos h, h]; rfl
        · rw [if_neg h]
      · rw [e]; exact .inr (.inr ⟨rfl, hv⟩)
    simp only [Add.run, addAxiom, Add.op, Onto.step]
    by_cases hd : o.disabled = true
    · rw [if_pos hd]
      rcases hby os o.idx o.refs with ⟨o', e, rfl⟩ | ⟨o', e, h1, h2, h3, h4, h5⟩ | ⟨e, hv⟩
      · refine .inl ⟨_, e, ?_⟩
        simp only [Onto.addAxiom, if_pos hd]
      · refine .inr (.inl ⟨o', e, ⟨h1, h2, ?_, ?_, ?_, .inl h4, fun _ => ⟨h3, h4⟩, ?_⟩, .inr h5⟩)
        · intro p; rw [h3]; exact hz _ _ _ p
        · intro p; rw [h3]; exact id
        · intro p; rw [h3]; exact .inl
        · rintro ⟨y, h⟩; cases h
      · exact .inr (.inr ⟨e, hv⟩)
    · rw [if_neg hd]
      have hi := index_list a (occ a.obj) os o.idx o.refs
      rw [← iterPrims_all] at hi
      have hq : ∀ {P : Prop}, (o.disabled = true ∧ ∃ y, Add.ax a = .ax y) ∨
          (∃ y, Add.ax a = .imp y) → P := by
        rintro P (⟨h, _⟩ | ⟨y, h⟩)
        · exact absurd h hd
        · cases h
      rcases hi with ⟨h1, h2⟩ | ⟨h1, ⟨h2, hv⟩ | ⟨os', m', r', L1, L2, h2, hL, _, h5, h6, h7, h8, h9⟩⟩
      · have e0 : index a (some (os, o.idx, o.refs)) = (_, _) := Prod.ext h2 h1
        rw [e0]
        dsimp only
        rw [if_neg (by simp [Ret.isErr])]
        have hidx : (o.addAxiom a).idx = (occ a.obj).foldl (putAxiom a) o.idx := by
          simp only [Onto.addAxiom, if_neg hd]
          exact iterPrims_fold _ _ _
        rcases hby (os.drop (occ a.obj).length) ((occ a.obj).foldl (putAxiom a) o.idx) o.refs with
          ⟨o', e, rfl⟩ | ⟨o', e, k1, k2, k3, k4, k5⟩ | ⟨e, hv⟩
        · refine .inl ⟨_, e, ?_⟩
          rw [← hidx]; rfl
        · refine .inr (.inl ⟨o', e, ⟨k1, k2, ?_, ?_, ?_, .inl k4, hq, ?_⟩,
            .inr (List.mem_of_mem_drop k5)⟩)
          · intro p; rw [k3]; exact ⟨_, Nat.le_refl _, ix_putAll a _ _ p⟩
          · intro p h; rw [k3]; exact (keys_putAll a _ _ p).2 (.inl h)
          · intro p h; rw [k3] at h; exact (keys_putAll a _ _ p).1 h
          · rintro ⟨y, h⟩; cases h
        · exact .inr (.inr ⟨e, List.mem_of_mem_drop hv⟩)
      · have e0 : index a (some (os, o.idx, o.refs)) = (_, _) := Prod.ext h2 h1
        rw [e0]
        exact .inr (.inr ⟨rfl, hv⟩)
      · have e0 : index a (some (os, o.idx, o.refs)) = (_, _) := Prod.ext h2 h1
        rw [e0]
        dsimp only
        rw [if_pos (show Ret.errMem.isErr = true from rfl)]
        refine .inr (.inl ⟨_, rfl, ⟨⟨fun _ => rfl, rfl, rfl⟩, rfl, ?_, h6, h7, h8, hq, ?_⟩, h9⟩)
        · intro p
          refine ⟨_, ?_, h5 p⟩
          show L1.count p ≤ (occ a.obj).count p
          rw [hL, List.count_append]
          exact Nat.le_add_right ..
        · rintro ⟨y, h⟩; cases h

end Cowl.OntoOom
