import Verif.OntoSpec
import Verif.VectorProps
import Verif.MasksProps
/-! # Lemmas on the ontology model -/
namespace Cowl
open ObjSpec IterSpec OntoSpec

/-! ## Occurrences -/

theorem times_lit (p : Prim) (v : Str) (t : LitTag) :
    times p (.lit v t) = if p = .ent .datatype t.datatype then 1 else 0 := by
  cases t <;> (rw [times]; rfl)

theorem count_single (p q : Prim) : [q].count p = if p = q then 1 else 0 := by
  by_cases h : p = q
  · subst h; simp
  · have : ¬ q = p := fun h' => h h'.symm
    simp [h, this]

mutual
theorem count_occ (p : Prim) : ∀ o : Obj, WellFormed o → (occ o).count p = times p o
  | .str _, _ => by simp [occ, times]
  | .other _ _, _ => by simp [occ, times]
  | .prim q, _ => by rw [occ, times, count_single]
  | .lit v t, _ => by rw [times_lit, occ, count_single]
  | .vec _ xs, h => by
    rw [occ, times]; exact count_occAll p xs (by simpa [WellFormed] using h)
  | .comp t b fs u, h => by
    rw [WellFormed] at h
    rw [occ, times, List.count_append, ← h.1, count_occAll p fs h.2, Nat.add_assoc]
    congr 1
    cases b
    · by_cases h1 : t = .ceObjSome ∨ t = .ceObjAll
      · have h2 : ¬ (t = .ceDataSome ∨ t = .ceDataAll) := by
          rintro (h | h) <;> subst h <;> simp at h1
        simp [h1, h2, count_single]
      · by_cases h2 : t = .ceDataSome ∨ t = .ceDataAll
        · simp [h1, h2, count_single]
        · simp [h1, h2]
    · simp
theorem count_occAll (p : Prim) : ∀ xs : List Obj, WellFormedAll xs →
    (occAll xs.length xs).count p = timesAll p xs
  | [], _ => by simp [occAll, timesAll]
  | x :: xs, h => by
    rw [WellFormedAll] at h
    rw [List.length_cons, occAll, timesAll, List.count_append, count_occ p x h.1,
      count_occAll p xs h.2]
end

mutual
theorem times_pos (p : Prim) : ∀ o : Obj, 0 < times p o ↔ Occurs p o
  | .str _ => by simp [times]; intro h; cases h
  | .other _ _ => by simp [times]; intro h; cases h
  | .prim q => by
    simp only [times]
    constructor
    · intro h; by_cases hq : p = q
      · subst hq; exact .self p
      · simp [hq] at h
    · intro h; cases h; simp
  | .lit v (.dt i) => by
    simp only [times]
    constructor
    · intro h; by_cases hq : p = .ent .datatype i
      · subst hq; exact .datatype v i
      · simp [hq] at h
    · intro h; cases h; simp
  | .lit v (.lang l) => by
    simp only [times]
    constructor
    · intro h; by_cases hq : p = .ent .datatype rdfLangString
      · subst hq; exact .langString v l
      · simp [hq] at h
    · intro h; cases h; simp
  | .vec o xs => by
    rw [times, timesAll_pos p xs]
    constructor
    · rintro ⟨x, hx, h⟩; exact .item hx h
    · intro h; cases h with | item hx h => exact ⟨_, hx, h⟩
  | .comp t b fs u => by
    rw [times]
    have ih := timesAll_pos p fs
    constructor
    · intro h
      by_cases h1 : 0 < timesAll p fs
      · obtain ⟨x, hx, hp⟩ := ih.1 h1
        exact .field hx hp
      · split at h
        · rename_i h2
          obtain ⟨rfl, h2, rfl⟩ := h2
          exact .defaultFiller h2
        · split at h
          · rename_i h2
            obtain ⟨rfl, h2, rfl⟩ := h2
            exact .defaultRange h2
          · omega
    · intro h
      cases h with
      | field hx h => have := ih.2 ⟨_, hx, h⟩; omega
      | defaultFiller ht => simp [ht]
      | defaultRange ht => simp [ht]
theorem timesAll_pos (p : Prim) : ∀ xs : List Obj, 0 < timesAll p xs ↔ ∃ x ∈ xs, Occurs p x
  | [] => by simp [timesAll]
  | x :: xs => by
    have h1 := times_pos p x
    have h2 := timesAll_pos p xs
    rw [timesAll]
    simp only [List.mem_cons, exists_eq_or_imp]
    rw [← h1, ← h2]
    omega
end

theorem pfAll_bit (p : Prim) : Masks.pfAll.getLsbD p.bit = true := by
  have := bit_lt p
  generalize p.bit = n at this
  revert n
  decide

/-- An iterator that never stops is a fold over the occurrences. -/
theorem iterPrims_fold {σ : Type} (g : σ → Prim → σ) (x : Obj) (s : σ) :
    (iterPrims Masks.pfAll (fun m p => (g m p, Ret.ok)) x s).1 = (occ x).foldl g s := by
  rw [iterPrims_eq, List.filter_eq_self.2 (fun p _ => pfAll_bit p)]
  generalize occ x = L
  induction L generalizing s with
  | nil => simp [iterList]
  | cons p L ih =>
    rw [iterList_cons_ok (k := fun m p => (g m p, Ret.ok)) (x := p) (s := s) (s' := g s p) rfl, ih]
    rfl

/-! ## The primitive index -/

/-- Items of an index entry. -/
abbrev ix (m : List (Prim × Option (List Ref))) (p : Prim) : List Ref := (m.lookup p).join.getD []

theorem lookup_putAxiom (a : Ref) : ∀ (m : List (Prim × Option (List Ref))) (q p : Prim),
    (putAxiom a m q).lookup p = if p = q then some (some (ix m p ++ [a])) else m.lookup p
  | [], q, p => by
    by_cases h : p = q
    · subst h; simp [putAxiom, ix]
    · have hf : (p == q) = false := by simpa using h
      simp [putAxiom, List.lookup_cons, h, hf]
  | (r, v) :: m, q, p => by
    rw [putAxiom]
    have ih := lookup_putAxiom a m q p
    by_cases hqr : q = r
    · subst hqr
      by_cases h : p = q
      · subst h; simp [ix]
      · have hf : (p == q) = false := by simpa using h
        simp [List.lookup_cons, h, hf]
    · by_cases hpr : p = r
      · subst hpr
        have : ¬ p = q := fun h => hqr h.symm
        simp [hqr, this]
      · have hf : (p == r) = false := by simpa using hpr
        simp only [hqr, if_false, List.lookup_cons, hf, ix]
        simpa [ix] using ih

theorem ix_putAxiom (a : Ref) (m : List (Prim × Option (List Ref))) (q p : Prim) :
    ix (putAxiom a m q) p = ix m p ++ if p = q then [a] else [] := by
  rw [ix, lookup_putAxiom]
  by_cases h : p = q <;> simp [h, ix]

theorem ix_putAll (a : Ref) : ∀ (L : List Prim) (m : List (Prim × Option (List Ref))) (p : Prim),
    ix (L.foldl (putAxiom a) m) p = ix m p ++ List.replicate (L.count p) a
  | [], m, p => by simp
  | q :: L, m, p => by
    rw [List.foldl_cons, ix_putAll a L, ix_putAxiom, List.append_assoc]
    congr 1
    by_cases h : p = q
    · subst h; simp [List.replicate_succ]
    · have : ¬ q = p := fun h' => h h'.symm
      simp [h, this]

theorem keys_putAxiom (a : Ref) : ∀ (m : List (Prim × Option (List Ref))) (q p : Prim),
    p ∈ (putAxiom a m q).map Prod.fst ↔ p ∈ m.map Prod.fst ∨ p = q
  | [], q, p => by simp [putAxiom]
  | (r, v) :: m, q, p => by
    rw [putAxiom]
    by_cases hqr : q = r
    · subst hqr
      simp only [if_true, List.map_cons, List.mem_cons]
      constructor
      · rintro (h | h)
        · exact .inr h
        · exact .inl (.inr h)
      · rintro ((h | h) | h)
        · exact .inl h
        · exact .inr h
        · exact .inl h
    · simp only [hqr, if_false, List.map_cons, List.mem_cons]
      rw [keys_putAxiom a m q p]
      constructor
      · rintro (h | h | h)
        · exact .inl (.inl h)
        · exact .inl (.inr h)
        · exact .inr h
      · rintro ((h | h) | h)
        · exact .inl h
        · exact .inr (.inl h)
        · exact .inr (.inr h)

theorem nodup_putAxiom (a : Ref) : ∀ (m : List (Prim × Option (List Ref))) (q : Prim),
    (m.map Prod.fst).Nodup → ((putAxiom a m q).map Prod.fst).Nodup
  | [], q, _ => by simp [putAxiom]
  | (r, v) :: m, q, h => by
    rw [List.map_cons, List.nodup_cons] at h
    rw [putAxiom]
    by_cases hqr : q = r
    · subst hqr
      rw [if_pos rfl, List.map_cons, List.nodup_cons]
      exact h
    · rw [if_neg hqr, List.map_cons, List.nodup_cons, keys_putAxiom]
      refine ⟨?_, nodup_putAxiom a m q h.2⟩
      rintro (h' | h')
      · exact h.1 h'
      · exact hqr h'.symm

theorem keys_putAll (a : Ref) : ∀ (L : List Prim) (m : List (Prim × Option (List Ref))) (p : Prim),
    p ∈ (L.foldl (putAxiom a) m).map Prod.fst ↔ p ∈ m.map Prod.fst ∨ p ∈ L
  | [], m, p => by simp
  | q :: L, m, p => by
    rw [List.foldl_cons, keys_putAll a L, keys_putAxiom, List.mem_cons, or_assoc]

theorem nodup_putAll (a : Ref) : ∀ (L : List Prim) (m : List (Prim × Option (List Ref))),
    (m.map Prod.fst).Nodup → ((L.foldl (putAxiom a) m).map Prod.fst).Nodup
  | [], _, h => h
  | q :: L, m, h => nodup_putAll a L _ (nodup_putAxiom a m q h)

theorem lookup_isSome_iff (p : Prim) : ∀ m : List (Prim × Option (List Ref)),
    (m.lookup p).isSome = true ↔ p ∈ m.map Prod.fst
  | [] => by simp
  | (q, v) :: m => by
    by_cases h : p = q
    · subst h; simp
    · have hf : (p == q) = false := by simpa using h
      rw [List.lookup_cons, hf]
      simp only [lookup_isSome_iff p m, List.map_cons, List.mem_cons, h, false_or]

theorem lookup_append_none (m : List (Prim × Option (List Ref))) (p : Prim) :
    ix (m ++ [(p, none)]) = ix m := by
  funext q
  induction m with
  | nil =>
    by_cases h : q = p
    · subst h; simp [ix]
    · have hf : (q == p) = false := by simpa using h
      simp [ix, List.lookup_cons, hf]
  | cons e m ih =>
    obtain ⟨r, v⟩ := e
    by_cases h : q = r
    · subst h; simp [ix]
    · have hf : (q == r) = false := by simpa using h
      simpa [ix, List.lookup_cons, hf] using ih

theorem ix_putKey (m : List (Prim × Option (List Ref))) (q : Prim) : ix (putKey m q) = ix m := by
  unfold putKey
  split
  · rfl
  · exact lookup_append_none m q

theorem keys_putKey (m : List (Prim × Option (List Ref))) (q p : Prim) :
    p ∈ (putKey m q).map Prod.fst ↔ p ∈ m.map Prod.fst ∨ p = q := by
  unfold putKey
  split
  · rename_i h
    rw [lookup_isSome_iff] at h
    constructor
    · exact .inl
    · rintro (h' | rfl)
      · exact h'
      · exact h
  · simp

theorem nodup_putKey (m : List (Prim × Option (List Ref))) (q : Prim) (h : (m.map Prod.fst).Nodup) :
    ((putKey m q).map Prod.fst).Nodup := by
  unfold putKey
  split
  · exact h
  · rename_i h'
    rw [lookup_isSome_iff] at h'
    rw [List.map_append, List.nodup_append]
    refine ⟨h, by simp, ?_⟩
    intro x hx y hy
    simp only [List.map_cons, List.map_nil, List.mem_singleton] at hy
    subst hy
    intro h2
    subst h2
    exact h' hx

theorem putKeys_spec : ∀ (L : List Prim) (m : List (Prim × Option (List Ref))),
    ix (L.foldl putKey m) = ix m ∧
    (∀ p, p ∈ (L.foldl putKey m).map Prod.fst ↔ p ∈ m.map Prod.fst ∨ p ∈ L) ∧
    ((m.map Prod.fst).Nodup → ((L.foldl putKey m).map Prod.fst).Nodup)
  | [], m => by simp
  | q :: L, m => by
    obtain ⟨h1, h2, h3⟩ := putKeys_spec L (putKey m q)
    refine ⟨h1.trans (ix_putKey m q), fun p => ?_, fun h => h3 (nodup_putKey m q h)⟩
    rw [List.foldl_cons, h2, keys_putKey, List.mem_cons, or_assoc]

theorem ix_takeAxiom (a : Ref) : ∀ (m : List (Prim × Option (List Ref))) (q p : Prim),
    ix (takeAxiom a m q) p = if p = q then dropLastAt a (ix m p) else ix m p
  | [], q, p => by simp [takeAxiom, ix, dropLastAt]
  | (r, v) :: m, q, p => by
    rw [takeAxiom]
    have ih := ix_takeAxiom a m q p
    by_cases hqr : q = r
    · subst hqr
      by_cases h : p = q
      · subst h
        cases v <;> simp [ix, dropLastAt]
      · have hf : (p == q) = false := by simpa using h
        simp [ix, List.lookup_cons, h, hf]
    · by_cases hpr : p = r
      · subst hpr
        have : ¬ p = q := fun h => hqr h.symm
        simp [ix, hqr, this]
      · have hf : (p == r) = false := by simpa using hpr
        simp only [hqr, if_false, List.lookup_cons, hf, ix]
        simpa [ix] using ih

theorem keys_takeAxiom (a : Ref) : ∀ (m : List (Prim × Option (List Ref))) (q : Prim),
    (takeAxiom a m q).map Prod.fst = m.map Prod.fst
  | [], q => by simp [takeAxiom]
  | (r, v) :: m, q => by
    rw [takeAxiom]
    by_cases hqr : q = r
    · simp [hqr]
    · simp [hqr, keys_takeAxiom a m q]

theorem keys_takeAll (a : Ref) : ∀ (L : List Prim) (m : List (Prim × Option (List Ref))),
    (L.foldl (takeAxiom a) m).map Prod.fst = m.map Prod.fst
  | [], m => rfl
  | q :: L, m => by rw [List.foldl_cons, keys_takeAll a L, keys_takeAxiom]

/-- `n` removals of the same address. -/
def dropN (a : Ref) : Nat → List Ref → List Ref
  | 0, xs => xs
  | n + 1, xs => dropN a n (dropLastAt a xs)

theorem ix_takeAll (a : Ref) : ∀ (L : List Prim) (m : List (Prim × Option (List Ref))) (p : Prim),
    ix (L.foldl (takeAxiom a) m) p = dropN a (L.count p) (ix m p)
  | [], m, p => by simp [dropN]
  | q :: L, m, p => by
    rw [List.foldl_cons, ix_takeAll a L, ix_takeAxiom]
    by_cases h : p = q
    · subst h; simp [dropN]
    · have : ¬ q = p := fun h' => h h'.symm
      simp [h, this]

/-! ## Removal by address -/

theorem findIdx?_reverse_none {xs : List Ref} {a : Ref} (h : ∀ b ∈ xs, b.addr ≠ a.addr) :
    (xs.reverse.findIdx? fun y => y.addr = a.addr) = none := by
  rw [List.findIdx?_eq_none_iff]
  intro b hb
  simpa using h b (List.mem_reverse.1 hb)

theorem dropLastAt_absent {xs : List Ref} {a : Ref} (h : ∀ b ∈ xs, b.addr ≠ a.addr) :
    dropLastAt a xs = xs := by
  rw [dropLastAt, findIdx?_reverse_none h]

/-- If `i` is the last place holding the address, that place is removed. -/
theorem dropLastAt_at {xs : List Ref} {a : Ref} {i : Nat} (hi : i < xs.length)
    (h : xs[i].addr = a.addr) (hl : ∀ j, i < j → (hj : j < xs.length) → xs[j].addr ≠ a.addr) :
    dropLastAt a xs = swapRemove xs i := by
  have : (xs.reverse.findIdx? fun y => y.addr = a.addr) = some (xs.length - 1 - i) := by
    rw [List.findIdx?_eq_some_iff_getElem]
    refine ⟨by simp; omega, ?_, ?_⟩
    · rw [List.getElem_reverse]
      simp only [decide_eq_true_eq]
      have : xs.length - 1 - (xs.length - 1 - i) = i := by omega
      simp only [this, h]
    · intro j hj
      rw [List.getElem_reverse]
      simp only [decide_eq_true_eq]
      exact hl _ (by omega) (by omega)
  rw [dropLastAt, this]
  dsimp only
  congr 1
  omega

theorem exists_last_addr {xs : List Ref} {a : Ref} (h : ∃ b ∈ xs, b.addr = a.addr) :
    ∃ i, ∃ hi : i < xs.length, xs[i].addr = a.addr ∧
      ∀ j, i < j → (hj : j < xs.length) → xs[j].addr ≠ a.addr := by
  induction xs with
  | nil => simp at h
  | cons x xs ih =>
    by_cases h' : ∃ b ∈ xs, b.addr = a.addr
    · obtain ⟨i, hi, h1, h2⟩ := ih h'
      refine ⟨i + 1, by simp; omega, by simpa using h1, ?_⟩
      intro j hj hj'
      obtain ⟨j, rfl⟩ : ∃ k, j = k + 1 := ⟨j - 1, by omega⟩
      simpa using h2 j (by omega) (by simpa using hj')
    · obtain ⟨b, hb, hba⟩ := h
      rcases List.mem_cons.1 hb with h3 | h3
      · subst h3
        refine ⟨0, by simp, by simpa using hba, ?_⟩
        intro j hj hj'
        obtain ⟨j, rfl⟩ : ∃ k, j = k + 1 := ⟨j - 1, by omega⟩
        intro h4
        exact h' ⟨_, List.getElem_mem (by simpa using hj'), by simpa using h4⟩
      · exact absurd ⟨b, h3, hba⟩ h'

theorem dropLastAt_perm {xs : List Ref} {a : Ref} (hf : Fits xs a) (ha : a ∈ xs) :
    xs.Perm (a :: dropLastAt a xs) := by
  obtain ⟨i, hi, h1, h2⟩ := exists_last_addr ⟨a, ha, rfl⟩
  rw [dropLastAt_at hi h1 h2]
  have := hf _ (List.getElem_mem hi) h1
  have hp := swapRemove_perm xs i hi
  rw [this] at hp
  exact hp.symm

theorem dropN_perm {a : Ref} : ∀ {n : Nat} {xs ys : List Ref}, Fits xs a →
    xs.Perm (List.replicate n a ++ ys) → (dropN a n xs).Perm ys
  | 0, xs, ys, _, h => by simpa [dropN] using h
  | n + 1, xs, ys, hf, h => by
    have ha : a ∈ xs := h.mem_iff.2 (by simp [List.replicate_succ])
    have hp := dropLastAt_perm hf ha
    rw [dropN]
    apply dropN_perm (n := n)
    · intro b hb
      exact hf b (hp.mem_iff.2 (List.mem_cons_of_mem _ hb))
    · rw [List.replicate_succ, List.cons_append] at h
      exact List.Perm.cons_inv (hp.symm.trans h)

theorem dropN_absent {a : Ref} : ∀ {n : Nat} {xs : List Ref}, (∀ b ∈ xs, b.addr ≠ a.addr) →
    dropN a n xs = xs
  | 0, _, _ => rfl
  | n + 1, xs, h => by rw [dropN, dropLastAt_absent h]; exact dropN_absent h

end Cowl
