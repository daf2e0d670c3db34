import Verif.IterSpec
import Verif.ObjLemmas
/-! # Lemmas on iteration -/
namespace Cowl
open IterSpec ObjSpec

theorem iterList_run {σ α : Type} (k : Callback σ α) : ∀ (xs : List α) (s : σ),
    Run k xs s (iterList k xs s).1 (iterList k xs s).2
  | [], s => .done s
  | x :: xs, s => by
    simp only [iterList]
    by_cases h : (k s x).2.shouldStop = true
    · simp only [h, if_true]
      exact .stop rfl (by simpa [Ret.shouldStop] using h)
    · simp only [h, Bool.false_eq_true, if_false]
      have h' : (k s x).2 = .ok := by simpa [Ret.shouldStop] using h
      exact .go (by rw [← h']) (iterList_run k xs _)

theorem run_det {σ α : Type} {k : Callback σ α} {xs : List α} {s s1 s2 : σ} {r1 r2 : Ret}
    (h1 : Run k xs s s1 r1) (h2 : Run k xs s s2 r2) : s1 = s2 ∧ r1 = r2 := by
  induction h1 with
  | done s => cases h2; exact ⟨rfl, rfl⟩
  | stop h hr =>
    cases h2 with
    | stop h' hr' => rw [h] at h'; cases h'; exact ⟨rfl, rfl⟩
    | go h' hs' => rw [h] at h'; cases h'; exact absurd rfl hr
  | go h hs ih =>
    cases h2 with
    | stop h' hr' => rw [h] at h'; cases h'; exact absurd rfl hr'
    | go h' hs' => rw [h] at h'; cases h'; exact ih hs'

theorem iterList_cons_ok {σ α : Type} {k : Callback σ α} {s s' : σ} {x : α} {xs : List α}
    (h : k s x = (s', .ok)) : iterList k (x :: xs) s = iterList k xs s' := by
  rw [iterList, h]; rfl

theorem iterList_append {σ α : Type} (k : Callback σ α) : ∀ (xs ys : List α) (s : σ),
    iterList k (xs ++ ys) s =
      if (iterList k xs s).2.shouldStop then iterList k xs s
      else iterList k ys (iterList k xs s).1
  | [], ys, s => by simp [iterList, Ret.shouldStop]
  | x :: xs, ys, s => by
    simp only [List.cons_append, iterList]
    by_cases h : (k s x).2.shouldStop = true
    · simp [h]
    · simp only [h, Bool.false_eq_true, if_false]
      exact iterList_append k xs ys _

theorem iterList_singleton {σ α : Type} (k : Callback σ α) (x : α) (s : σ) :
    iterList k [x] s = k s x := by
  simp only [iterList]
  split
  · rfl
  · rename_i h
    have h' : (k s x).2 = .ok := by simpa [Ret.shouldStop] using h
    rw [← h']

/-- A stateless "stop when found" iteration answers whether some item satisfies the test. -/
theorem iterList_found {α : Type} (f : α → Bool) : ∀ xs : List α,
    ((iterList (fun (s : Unit) x => (s, if f x then Ret.no else .ok)) xs ()).2 == .no) = xs.any f
  | [] => rfl
  | x :: xs => by
    have := iterList_found f xs
    simp only [iterList, List.any_cons]
    by_cases h : f x = true
    · simp [h, Ret.shouldStop]
    · simp only [h]; simpa [Ret.shouldStop] using this

/-! ## Primitives -/

mutual
/-- The occurrences of primitives in an object, in visiting order. -/
def occ : Obj → List Prim
  | .str _ => []
  | .other _ _ => []
  | .prim p => [p]
  | .lit _ t => [.ent .datatype t.datatype]
  | .vec _ xs => occAll xs.length xs
  | .comp t b fs _ =>
    occAll (nFields t b) fs ++
      (if b then [] else if t = .ceObjSome ∨ t = .ceObjAll then [.ent .cls owlThing]
        else if t = .ceDataSome ∨ t = .ceDataAll then [.ent .datatype rdfsLiteral] else [])

def occAll (n : Nat) : List Obj → List Prim
  | [] => []
  | x :: xs =>
    match n with
    | 0 => []
    | n + 1 => occ x ++ occAll n xs
end

/-- The selected part of the occurrences. -/
def occSel (fl : BitVec 8) (o : Obj) : List Prim := (occ o).filter fun p => fl.getLsbD p.bit

theorem iteratePf_eq {σ : Type} (fl : BitVec 8) (k : Callback σ Prim) (p : Prim) (s : σ) :
    iteratePf fl k p s = iterList k ([p].filter fun p => fl.getLsbD p.bit) s := by
  unfold iteratePf
  by_cases h : fl.getLsbD p.bit = true
  · simp [h, iterList_singleton]
  · simp [h, iterList]

mutual
theorem iterPrims_eq {σ : Type} (fl : BitVec 8) (k : Callback σ Prim) : ∀ (o : Obj) (s : σ),
    iterPrims fl k o s = iterList k ((occ o).filter fun p => fl.getLsbD p.bit) s
  | .str _, s => by simp [iterPrims, occ, iterList]
  | .other _ _, s => by simp [iterPrims, occ, iterList]
  | .prim p, s => by rw [iterPrims, occ]; exact iteratePf_eq fl k p s
  | .lit _ t, s => by rw [iterPrims, occ]; exact iteratePf_eq fl k _ s
  | .vec _ xs, s => by rw [iterPrims, occ]; exact iterPrimsN_eq fl k xs _ s
  | .comp t b fs u, s => by
    have ih := iterPrimsN_eq fl k fs (nFields t b) s
    rw [iterPrims, occ, ih, List.filter_append, iterList_append]
    cases b with
    | true => simp [iterList]; intro h; have : ∀ r : Ret, r.shouldStop = false → r = .ok := by intro r; cases r <;> simp [Ret.shouldStop]
              exact Prod.ext rfl (this _ h)
    | false =>
      simp only [Bool.or_false, Bool.false_eq_true, if_false, iteratePf_eq]
      have this : ∀ r : Ret, r.shouldStop = false → r = .ok := by intro r; cases r <;> simp [Ret.shouldStop]
      split
      · rfl
      · split
        · rfl
        · split
          · rename_i h; exact rfl
          · rename_i h
            simp only [List.filter_nil, iterList]
            exact Prod.ext rfl (this _ (by simpa using h))

theorem iterPrimsN_eq {σ : Type} (fl : BitVec 8) (k : Callback σ Prim) : ∀ (xs : List Obj)
    (n : Nat) (s : σ),
    iterPrimsN fl k n xs s = iterList k ((occAll n xs).filter fun p => fl.getLsbD p.bit) s
  | [], n, s => by simp [iterPrimsN, occAll, iterList]
  | x :: xs, 0, s => by simp [iterPrimsN, occAll, iterList]
  | x :: xs, n + 1, s => by
    rw [iterPrimsN, occAll, List.filter_append, iterList_append]
    simp only [iterPrims_eq fl k x s, iterPrimsN_eq fl k xs n]
end

theorem mem_occAll : ∀ (xs : List Obj) (p : Prim),
    p ∈ occAll xs.length xs ↔ ∃ x ∈ xs, p ∈ occ x
  | [], p => by simp [occAll]
  | x :: xs, p => by
    rw [List.length_cons, occAll, List.mem_append, mem_occAll xs p]
    simp

theorem wellFormedAll_iff : ∀ xs : List Obj, WellFormedAll xs ↔ ∀ x ∈ xs, WellFormed x
  | [] => by simp [WellFormedAll]
  | x :: xs => by simp [WellFormedAll, wellFormedAll_iff xs]

mutual
theorem mem_occ_iff : ∀ (o : Obj) (p : Prim), WellFormed o → (p ∈ occ o ↔ Occurs p o)
  | .str _, p, _ => by simp [occ]; intro h; cases h
  | .other _ _, p, _ => by simp [occ]; intro h; cases h
  | .prim q, p, _ => by
    simp [occ]
    constructor
    · rintro rfl; exact .self _
    · intro h; cases h; rfl
  | .lit v t, p, _ => by
    cases t with
    | lang l =>
      simp [occ, LitTag.datatype]
      constructor
      · rintro rfl; exact .langString _ _
      · intro h; cases h; rfl
    | dt i =>
      simp [occ, LitTag.datatype]
      constructor
      · rintro rfl; exact .datatype _ _
      · intro h; cases h; rfl
  | .vec o xs, p, h => by
    rw [WellFormed] at h
    rw [occ, mem_occAll]
    have ih := mem_occ_all xs p h
    constructor
    · rintro ⟨x, hx, hp⟩; exact .item hx ((ih x hx).1 hp)
    · intro h; cases h with
      | item hx h => exact ⟨_, hx, (ih _ hx).2 h⟩
  | .comp t b fs u, p, h => by
    rw [WellFormed] at h
    rw [occ, ← h.1, List.mem_append, mem_occAll]
    have ih := mem_occ_all fs p h.2
    constructor
    · rintro (⟨x, hx, hp⟩ | h')
      · exact .field hx ((ih x hx).1 hp)
      · cases b with
        | true => simp at h'
        | false =>
          simp only [Bool.false_eq_true, if_false] at h'
          split at h'
          · rename_i ht; simp at h'; subst h'; exact .defaultFiller ht
          · split at h'
            · rename_i ht; simp at h'; subst h'; exact .defaultRange ht
            · simp at h'
    · intro h'
      cases h' with
      | field hx h' => exact .inl ⟨_, hx, (ih _ hx).2 h'⟩
      | defaultFiller ht => right; simp [ht]
      | defaultRange ht =>
        right
        have hn : ¬ (t = .ceObjSome ∨ t = .ceObjAll) := by
          rcases ht with rfl | rfl <;> simp
        simp [ht, hn]

theorem mem_occ_all : ∀ (xs : List Obj) (p : Prim), WellFormedAll xs →
    ∀ x ∈ xs, (p ∈ occ x ↔ Occurs p x)
  | y :: xs, p, h, x, hx => by
    rw [WellFormedAll] at h
    rcases List.mem_cons.1 hx with h' | hx
    · rw [h']; exact mem_occ_iff y p h.1
    · exact mem_occ_all xs p h.2 x hx
end

theorem selects_iff (fl : BitVec 8) (p : Prim) : Selects fl p ↔ fl.getLsbD p.bit = true := by
  have key : ∀ fl : BitVec 8, ((fl &&& 0x01#8 ≠ 0#8) ↔ fl.getLsbD 0 = true) ∧
      ((fl &&& 0x02#8 ≠ 0#8) ↔ fl.getLsbD 1 = true) ∧
      ((fl &&& 0x04#8 ≠ 0#8) ↔ fl.getLsbD 2 = true) ∧
      ((fl &&& 0x08#8 ≠ 0#8) ↔ fl.getLsbD 3 = true) ∧
      ((fl &&& 0x10#8 ≠ 0#8) ↔ fl.getLsbD 4 = true) ∧
      ((fl &&& 0x20#8 ≠ 0#8) ↔ fl.getLsbD 5 = true) ∧
      ((fl &&& 0x40#8 ≠ 0#8) ↔ fl.getLsbD 6 = true) ∧
      ((fl &&& 0x80#8 ≠ 0#8) ↔ fl.getLsbD 7 = true) := by decide +kernel
  obtain ⟨h0, h1, h2, h3, h4, h5, h6, h7⟩ := key fl
  match p with
  | .ent .cls _ => exact h0
  | .ent .datatype _ => exact h1
  | .ent .objProp _ => exact h2
  | .ent .dataProp _ => exact h3
  | .ent .annotProp _ => exact h4
  | .ent .namedInd _ => exact h5
  | .anon _ => exact h6
  | .iri _ => exact h7

theorem bit_lt (p : Prim) : p.bit < 8 := by
  rcases p with i | ⟨k, i⟩ | i
  · simp [Prim.bit]
  · cases k <;> simp [Prim.bit]
  · simp [Prim.bit]

theorem ownBit (p : Prim) : (BitVec.ofNat 8 (2 ^ p.bit)).getLsbD p.bit = true := by
  have := bit_lt p
  generalize p.bit = n at this
  revert n
  decide

theorem hasPrimitive_eq (o : Obj) (p : Prim) : hasPrimitive o p = (occ o).any (· = p) := by
  unfold hasPrimitive
  have hcb : containsPrimCb p = fun (s : Unit) q => (s, if decide (q = p) then Ret.no else .ok) := by
    funext s q; simp [containsPrimCb]
  rw [iterPrims_eq, hcb]
  rw [iterList_found (fun q => decide (q = p))]
  rw [Bool.eq_iff_iff]
  simp only [List.any_eq_true, List.mem_filter, decide_eq_true_eq]
  constructor
  · rintro ⟨x, ⟨h1, _⟩, rfl⟩; exact ⟨x, h1, rfl⟩
  · rintro ⟨x, h1, rfl⟩; exact ⟨x, ⟨h1, ownBit x⟩, rfl⟩

/-! ## Operands -/

/-- An operand, expanded. -/
def expand : Obj → List Obj
  | .vec _ xs => xs
  | o => [o]

theorem mem_expand (op x : Obj) : x ∈ expand op ↔ Expands op x := by
  cases op <;> simp [expand, Expands]

/-- The visited operands. -/
def opsFrom (n : Nat) (pos : BitVec 8) : Nat → List Obj → List Obj
  | _, [] => []
  | i, x :: xs => (if indexAllowed n i pos then expand x else []) ++ opsFrom n pos (i + 1) xs

/-- The operands of an axiom at the given position, in visiting order. -/
def opsAt (ax : Obj) (pos : BitVec 8) : List Obj :=
  match ax with
  | .comp t _ fs _ => opsFrom t.fieldCount pos 0 (fs.take t.fieldCount)
  | _ => []

theorem iterOperand_eq {σ : Type} (k : Callback σ Obj) (op : Obj) (s : σ) :
    iterOperand k op s = iterList k (expand op) s := by
  cases op <;> simp [iterOperand, expand, iterList_singleton]

theorem iterOperandsFrom_eq {σ : Type} (n : Nat) (pos : BitVec 8) (k : Callback σ Obj) :
    ∀ (xs : List Obj) (i : Nat) (s : σ),
    iterOperandsFrom n pos k i xs s = iterList k (opsFrom n pos i xs) s
  | [], i, s => by simp [iterOperandsFrom, opsFrom, iterList]
  | x :: xs, i, s => by
    rw [iterOperandsFrom, opsFrom, iterList_append]
    by_cases h : indexAllowed n i pos = true
    · simp only [h, if_true, iterOperand_eq, iterOperandsFrom_eq n pos k xs]
    · simp only [h, Bool.false_eq_true, if_false, iterOperandsFrom_eq n pos k xs, iterList]
      simp [Ret.shouldStop]

theorem iterOperands_eq {σ : Type} (ax : Obj) (pos : BitVec 8) (k : Callback σ Obj) (s : σ) :
    iterOperands ax pos k s = iterList k (opsAt ax pos) s := by
  cases ax <;> simp [iterOperands, opsAt, iterList, iterOperandsFrom_eq]

theorem mem_opsFrom (n : Nat) (pos : BitVec 8) : ∀ (xs : List Obj) (i : Nat) (x : Obj),
    x ∈ opsFrom n pos i xs ↔
      ∃ j op, xs[j]? = some op ∧ indexAllowed n (i + j) pos = true ∧ Expands op x
  | [], i, x => by simp [opsFrom]
  | y :: xs, i, x => by
    rw [opsFrom, List.mem_append, mem_opsFrom n pos xs (i + 1) x]
    constructor
    · rintro (h | ⟨j, op, h1, h2, h3⟩)
      · by_cases ha : indexAllowed n i pos = true
        · rw [if_pos ha, mem_expand] at h
          exact ⟨0, y, by simp, by simpa using ha, h⟩
        · simp [ha] at h
      · exact ⟨j + 1, op, by simpa using h1, by rw [← h2]; congr 1; omega, h3⟩
    · rintro ⟨j, op, h1, h2, h3⟩
      cases j with
      | zero =>
        simp at h1; subst h1
        left
        rw [if_pos (by simpa using h2), mem_expand]; exact h3
      | succ j =>
        right
        exact ⟨j, op, by simpa using h1, by rw [← h2]; congr 1; omega, h3⟩

theorem indexAllowed_iff (n i : Nat) (pos : BitVec 8) (hn : n ≤ 3) (hi : i < n) :
    indexAllowed n i pos = true ↔ SitsAt n i pos := by
  unfold SitsAt
  have k1 : indexAllowed 1 0 pos = true ↔
      (pos &&& psLeft ≠ 0#8 ∨ pos &&& psRight ≠ 0#8 ∨ pos &&& psMiddle ≠ 0#8) := by
    revert pos; decide +kernel
  match n, i, hn, hi with
  | 1, 0, _, _ => simpa using k1
  | 2, 0, _, _ => simp [indexAllowed, positionOf]
  | 2, 1, _, _ => simp [indexAllowed, positionOf]
  | 3, 0, _, _ => simp [indexAllowed, positionOf]
  | 3, 1, _, _ => simp [indexAllowed, positionOf]
  | 3, 2, _, _ => simp [indexAllowed, positionOf]
  | n + 4, _, h, _ => omega

theorem opsFrom_eq (n : Nat) (pos : BitVec 8) (hn : n ≤ 3) : ∀ (xs : List Obj) (i : Nat),
    i + xs.length ≤ n → opsFrom n pos i xs =
      ((xs.zipIdx i).filter fun (_, i) => SitsAt n i pos).flatMap fun (op, _) =>
        match op with
        | .vec _ xs => xs
        | o => [o]
  | [], i, _ => by simp [opsFrom]
  | x :: xs, i, h => by
    simp only [List.length_cons] at h
    rw [opsFrom, opsFrom_eq n pos hn xs (i + 1) (by omega), List.zipIdx_cons]
    have hi := indexAllowed_iff n i pos hn (by omega)
    by_cases ha : indexAllowed n i pos = true
    · have hs := hi.1 ha
      rw [if_pos ha, List.filter_cons_of_pos (by simpa using hs), List.flatMap_cons]
      congr 1
    · have hs := fun h => ha (hi.2 h)
      rw [if_neg ha, List.filter_cons_of_neg (by simpa using hs)]
      rfl

theorem fieldCount_le (t : OType) : t.fieldCount ≤ 3 := by cases t <;> decide

theorem opsAt_eq (t : OType) (b : Bool) (ops rest : List Obj) (u : Nat) (pos : BitVec 8)
    (h : ops.length = t.fieldCount) :
    opsAt (.comp t b (ops ++ rest) u) pos = operandsAt ops pos := by
  rw [opsAt, ← h, List.take_left' rfl, operandsAt,
    opsFrom_eq _ _ (by rw [h]; exact fieldCount_le t) _ _ (by omega)]
  rfl

/-! ## Collecting -/

theorem iterList_storeVec {α : Type} : ∀ (xs v : List α),
    iterList storeVecCb xs v = (v ++ xs, .ok)
  | [], v => by simp [iterList]
  | x :: xs, v => by
    rw [iterList_cons_ok (k := storeVecCb) (x := x) (s := v) (s' := v ++ [x]) rfl, iterList_storeVec]; simp

theorem iterList_count {α : Type} : ∀ (xs : List α) (n : BitVec 32),
    iterList countCb xs n = (n + BitVec.ofNat 32 xs.length, .ok)
  | [], n => by simp [iterList]
  | x :: xs, n => by
    rw [iterList_cons_ok (k := countCb) (x := x) (s := n) (s' := n + 1#32) rfl, iterList_count, List.length_cons, BitVec.ofNat_add,
      BitVec.add_assoc, BitVec.add_comm 1#32]

/-- With nothing equal to an earlier or stored item, everything is stored. -/
theorem iterList_storeSet {α : Type} (eq : α → α → Bool) : ∀ (xs v : List α),
    (v ++ xs).Pairwise (fun x y => eq x y = false) →
    iterList (storeSetCb eq) xs v = (v ++ xs, .ok)
  | [], v, _ => by simp [iterList]
  | x :: xs, v, h => by
    have hx : (v.any fun y => eq y x) = false := by
      rw [List.any_eq_false]
      intro y hy
      have := (List.pairwise_append.1 h).2.2 y hy x (by simp)
      simp [this]
    have ih := iterList_storeSet eq xs (v ++ [x]) (by simpa using h)
    rw [iterList_cons_ok (s' := v ++ [x]) (by simp only [storeSetCb, hx]; rfl), ih]; simp

end Cowl
