import Verif.OntoFilter
/-! # Lemmas on iteration over ontologies: what is visited -/
namespace Cowl
open ObjSpec IterSpec OntoSpec

theorem iterTypes_eq {σ : Type} (o : Onto) (k : Callback σ Ref) : ∀ (ts : List Nat) (s : σ),
    iterTypes o k ts s = iterList k (ts.flatMap fun t => (o.tindex t).getD []) s
  | [], s => by simp [iterTypes, iterList]
  | t :: ts, s => by
    rw [iterTypes, List.flatMap_cons, iterList_append, Onto.iterAxiomsOfType, iterVec]
    simp only [iterTypes_eq o k ts]

theorem flatMap_perm {α β : Type} {f g : α → List β} : ∀ {xs : List α},
    (∀ x ∈ xs, (f x).Perm (g x)) → (xs.flatMap f).Perm (xs.flatMap g)
  | [], _ => by simp
  | x :: xs, h => by
    rw [List.flatMap_cons, List.flatMap_cons]
    exact (h x (by simp)).append (flatMap_perm fun y hy => h y (List.mem_cons_of_mem _ hy))

theorem filter_split {α : Type} {p q : α → Bool} : ∀ {xs : List α},
    (∀ x ∈ xs, ¬ (p x = true ∧ q x = true)) →
    (xs.filter fun x => p x || q x).Perm (xs.filter p ++ xs.filter q)
  | [], _ => by simp
  | x :: xs, h => by
    have ih := filter_split (p := p) (q := q) (xs := xs) fun y hy => h y (List.mem_cons_of_mem _ hy)
    have hx := h x (by simp)
    cases hp : p x <;> cases hq : q x
    · simpa [hp, hq] using ih
    · simp only [List.filter_cons, hp, hq, Bool.or_true, if_true, Bool.false_eq_true, if_false]
      exact (ih.cons x).trans List.perm_middle.symm
    · simp only [List.filter_cons, hp, hq, Bool.or_false, if_true, Bool.false_eq_true, if_false]
      exact ih.cons x
    · exact absurd ⟨hp, hq⟩ hx

/-- Walking over the types of a duplicate-free list visits the axioms of these types. -/
theorem byTypes_perm {o : Onto} {s : Abs} (h : Inv o s) : ∀ (ts : List Nat), ts.Nodup →
    (ts.flatMap fun t => (o.tindex t).getD []).Perm (s.axioms.filter fun a => axType a.obj ∈ ts)
  | [], _ => by simp
  | t :: ts, hn => by
    rw [List.nodup_cons] at hn
    rw [List.flatMap_cons]
    have h1 := (h.type t).append (byTypes_perm h ts hn.2)
    refine h1.trans ((filter_split ?_).symm.trans ?_)
    · rintro a _ ⟨h2, h3⟩
      exact hn.1 (by simpa [← show axType a.obj = t by simpa using h2] using h3)
    · apply List.Perm.of_eq
      congr 1
      funext a
      simp

theorem typesOf_nodup (f : BitVec 64) : (typesOf f).Nodup := by
  rw [typesOf_eq]; exact List.Pairwise.filter _ List.nodup_range

theorem allTypes_perm {o : Onto} {s : Abs} (h : Inv o s) :
    ((List.range 37).flatMap fun t => (o.tindex t).getD []).Perm s.axioms := by
  refine (byTypes_perm h _ List.nodup_range).trans (List.Perm.of_eq ?_)
  rw [List.filter_eq_self]
  intro a ha
  simpa using (isAxiom_axType (h.axioms a ha)).1

theorem foldl_count (f : Nat → Nat) : ∀ (ts : List Nat) (c : BitVec 32),
    ts.foldl (fun c t => c + u32 (f t)) c = c + u32 ((ts.map f).sum)
  | [], c => by simp [u32]
  | t :: ts, c => by
    rw [List.foldl_cons, foldl_count f ts, List.map_cons, List.sum_cons]
    simp only [u32, BitVec.ofNat_add, BitVec.add_assoc]

theorem length_flatMap' {α β : Type} (f : α → List β) : ∀ xs : List α,
    (xs.flatMap f).length = (xs.map fun x => (f x).length).sum
  | [] => by simp
  | x :: xs => by simp [length_flatMap' f xs]

theorem count_types (o : Onto) (ts : List Nat) :
    ts.foldl (fun c t => c + u32 (vecCount (o.tindex t))) 0#32 =
      u32 (ts.flatMap fun t => (o.tindex t).getD []).length := by
  rw [foldl_count, length_flatMap']
  simp [vecCount]

/-! ## Primitives -/

/-- What `iterAxiomsForPrimitive` visits. -/
def forPrim (o : Onto) (p : Prim) : List Ref :=
  ix o.idx p ++ match p with
    | .ent _ i => ix o.idx (.iri i)
    | _ => []

theorem iterAxiomsForPrimitive_eq {σ : Type} (o : Onto) (p : Prim) (k : Callback σ Ref) (s : σ) :
    o.iterAxiomsForPrimitive p k s = iterList k (forPrim o p) s := by
  unfold Onto.iterAxiomsForPrimitive forPrim
  rw [iterList_append, iterVec, pindex_getD]
  generalize iterList k (ix o.idx p) s = r
  by_cases h : r.2.shouldStop = true
  · simp [h]
  · have h' : r.2 = .ok := by
      obtain ⟨r1, r2⟩ := r
      cases r2 <;> simp [Ret.shouldStop] at h ⊢
    cases p <;> simp [h, iterVec, Prim.entIri?, pindex_getD, iterList]

theorem axiomCountForPrimitive_eq (o : Onto) (p : Prim) :
    o.axiomCountForPrimitive p = u32 (forPrim o p).length := by
  unfold Onto.axiomCountForPrimitive forPrim
  cases p <;> simp [Prim.entIri?, vecCount, pindex_getD, u32, BitVec.ofNat_add]

theorem flatMap_append_perm {α β : Type} (f g : α → List β) : ∀ xs : List α,
    (xs.flatMap f ++ xs.flatMap g).Perm (xs.flatMap fun x => f x ++ g x)
  | [] => by simp
  | x :: xs => by
    simp only [List.flatMap_cons]
    have ih := flatMap_append_perm f g xs
    refine List.Perm.trans ?_ (ih.append_left (f x ++ g x))
    simp only [List.append_assoc]
    refine List.Perm.append_left _ ?_
    simp only [← List.append_assoc]
    exact List.perm_append_comm.append_right _

theorem forPrim_perm {o : Onto} {s : Abs} (h : Inv o s) (p : Prim) :
    (forPrim o p).Perm (s.axioms.flatMap fun a => List.replicate (mentions p a.obj) a) := by
  unfold forPrim mentions
  cases p with
  | iri i => simpa [refsTo] using h.prim (.iri i)
  | anon n => simpa [refsTo] using h.prim (.anon n)
  | ent k i =>
    refine ((h.prim _).append (h.prim (.iri i))).trans ((flatMap_append_perm _ _ _).trans ?_)
    simp only [List.replicate_append_replicate]
    exact List.Perm.refl _

theorem flatMap_replicate_le_one {α : Type} (n : α → Nat) : ∀ xs : List α, (∀ x ∈ xs, n x ≤ 1) →
    (xs.flatMap fun x => List.replicate (n x) x) = xs.filter fun x => 0 < n x
  | [], _ => rfl
  | x :: xs, h => by
    have h1 := h x (by simp)
    rw [List.flatMap_cons, flatMap_replicate_le_one n xs fun y hy => h y (List.mem_cons_of_mem _ hy),
      List.filter_cons]
    rcases Nat.lt_or_ge 0 (n x) with h2 | h2
    · have : n x = 1 := by omega
      simp [this]
    · have : n x = 0 := by omega
      simp [this]

theorem mem_mentions {held : List Ref} {p : Prim} {a : Ref} :
    a ∈ (held.flatMap fun a => List.replicate (mentions p a.obj) a) ↔
      a ∈ held ∧ 0 < mentions p a.obj := by
  simp only [List.mem_flatMap, List.mem_replicate]
  constructor
  · rintro ⟨b, hb, h1, rfl⟩; exact ⟨hb, by omega⟩
  · rintro ⟨h1, h2⟩; exact ⟨a, h1, by omega, rfl⟩

/-! ## Filters -/

theorem iterList_matching {σ : Type} (f : Filter) (k : Callback σ Ref) : ∀ (xs : List Ref) (s : σ),
    iterList (matchingCb f k) xs s = iterList k (xs.filter f.matches) s
  | [], s => by simp [iterList]
  | x :: xs, s => by
    rw [List.filter_cons]
    by_cases h : f.matches x = true
    · simp only [iterList, matchingCb, h, if_true]
      rw [← iterList_matching f k xs]
    · simp only [h, Bool.false_eq_true, if_false]
      rw [iterList_cons_ok (k := matchingCb f k) (x := x) (s := s) (s' := s)
        (by simp [matchingCb, h]), iterList_matching f k xs]

/-- The list visited by a filtered iteration. -/
def matching (o : Onto) (f0 : Filter) : List Ref :=
  let (f, best) := o.bestForFilter f0
  if f.types = 0#64 then []
  else match best with
    | some (p, _) => (forPrim o p).filter f.matches
    | none => ((typesOf f.types).flatMap fun t => (o.tindex t).getD []).filter
        { f with types := Masks.afAll : Filter }.matches

theorem matches_trivial {f : Filter} (h1 : f.types = Masks.afAll) (h2 : f.prims = [])
    (h3 : f.closure = none) (a : Ref) : f.matches a = true := by
  simp [Filter.matches, Filter.matchesTypes, Filter.matchesPrims, Filter.matchesClosure, h1, h2, h3]

theorem typesOf_afAll : typesOf Masks.afAll = List.range 37 := by
  rw [typesOf_eq, List.filter_eq_self]
  intro t ht
  exact hasType_afAll (by simpa using ht)

theorem iterAxiomsMatching_eq {σ : Type} (o : Onto) (f : Filter) (k : Callback σ Ref) (s : σ) :
    o.iterAxiomsMatching f k s = iterList k (matching o f) s := by
  unfold Onto.iterAxiomsMatching matching
  rcases o.bestForFilter f with ⟨g, best⟩
  dsimp only
  by_cases h0 : g.types = 0#64
  · simp [h0, iterList]
  rw [if_neg h0, if_neg h0]
  have hlen : ∀ {xs : List Prim}, (xs.length != 0) = false → xs = [] := by
    intro xs h; cases xs with
    | nil => rfl
    | cons x xs => simp at h
  have hcl : g.closure.isSome = false → g.closure = none := by
    cases g.closure <;> simp
  rcases best with _ | ⟨p, v⟩
  · dsimp only
    cases hT : (g.types != Masks.afAll) <;> cases hP : (g.prims.length != 0) <;>
      cases hC : g.closure.isSome <;>
      simp only [Bool.not_false, Bool.not_true, Bool.and_true, Bool.and_false, if_true,
        Bool.false_eq_true, if_false, Onto.iterAxioms, Onto.iterAxiomsOfTypes, iterTypes_eq,
        iterList_matching]
    all_goals try (have hT' : g.types = Masks.afAll := by simpa using hT)
    all_goals try rw [hT', typesOf_afAll]
    all_goals
      rw [List.filter_eq_self.2]
      intro a _
      exact matches_trivial (f := { g with types := Masks.afAll }) rfl (hlen hP) (hcl hC) a
  · dsimp only
    cases hT : (g.types != Masks.afAll) <;> cases hP : (g.prims.length != 0) <;>
      cases hC : g.closure.isSome <;>
      simp only [Bool.or_true, Bool.or_false, if_true, Bool.false_eq_true, if_false,
        iterAxiomsForPrimitive_eq, iterList_matching]
    rw [List.filter_eq_self.2]
    intro a _
    exact matches_trivial (by simpa using hT) (hlen hP) (hcl hC) a

theorem filter_matches {f : Filter} {held : List Ref} (h : ∀ a ∈ held, IsAxiom a.obj) :
    held.filter f.matches = held.filter fun a => Matches f a := by
  apply List.filter_congr
  intro a ha
  rw [Bool.eq_iff_iff, matches_iff f (h a ha)]
  simp

/-- What is visited: matching axioms found through `p`, its IRI included, or
through the types. -/
theorem matching_cases {o : Onto} {s : Abs} (h : Inv o s) (f : Filter) :
    (matching o f = [] ∧ ((∀ t < 37, f.types.getLsbD t = false) ∨ f.prims = [] ∨
      ∃ p ∈ f.prims, ∀ a ∈ s.axioms, times p a.obj = 0)) ∨
    (∃ p ∈ f.prims, ∃ g : Filter, (matching o f).Perm
      ((s.axioms.flatMap fun a => List.replicate (mentions p a.obj) a).filter fun a => Matches g a) ∧
      ∀ a, Matches f a ↔ Matches g a ∧ 0 < times p a.obj) ∨
    ((matching o f).Perm (s.axioms.filter fun a => Matches f a) ∧ f.prims ≠ []) := by
  have hmem : ∀ p, ∀ a ∈ (s.axioms.flatMap fun a => List.replicate (mentions p a.obj) a),
      IsAxiom a.obj := fun p a ha => h.axioms a (mem_mentions.1 ha).1
  have hno : ∀ {ts : BitVec 64}, Masks.hasNoTypes ts = false → ts ≠ 0#64 := by
    rintro ts h1 rfl
    revert h1; decide
  have hall0 : Masks.afAll ≠ 0#64 := by decide
  rcases bestForFilter_cases o f with ⟨h1, h2⟩ | ⟨p, g, h1, h2, h3, h4, h5⟩ | ⟨h1, h2, h3, h4⟩
  · left
    refine ⟨by simp [matching, h1], ?_⟩
    rcases h2 with h2 | h2 | ⟨p, hp, h2⟩
    · left
      intro t ht
      have := (Masks.C43_all_none f.types).2.1 h2 t ht
      rwa [Masks.hasType_eq _ _ (by omega)] at this
    · exact .inr (.inl h2)
    · right; right
      refine ⟨p, hp, fun a ha => ?_⟩
      have := (h.prim p).mem_iff (a := a)
      rw [h2, mem_refsTo] at this
      have := mt this.2 (by simp)
      simp only [ha, true_and] at this
      omega
  · right; left
    refine ⟨p, h2.mem_iff.2 (List.mem_cons_self ..), g, ?_, fun a => matches_rest h2 h3 h4⟩
    have hg0 : g.types ≠ 0#64 := by
      rcases h4 with ⟨h4, _⟩ | h4
      · rw [h4]; exact hall0
      · rw [h4]; exact hno h5
    have : matching o f = (forPrim o p).filter g.matches := by
      simp [matching, h1, hg0]
    rw [this, ← filter_matches (hmem p)]
    exact (forPrim_perm h p).filter _
  · right; right
    refine ⟨?_, h4⟩
    have : matching o f = ((typesOf f.types).flatMap fun t => (o.tindex t).getD []).filter
        { f with types := Masks.afAll : Filter }.matches := by
      simp [matching, h1, hno h2]
    rw [this]
    refine ((byTypes_perm h _ (typesOf_nodup _)).filter _).trans (List.Perm.of_eq ?_)
    rw [List.filter_filter]
    apply List.filter_congr
    intro a ha
    rw [Bool.eq_iff_iff]
    simp only [Bool.and_eq_true, decide_eq_true_eq]
    rw [matches_all_types f (h.axioms a ha)]
    exact and_comm

/-! ## Keys -/

theorem iterKeys_eq {σ : Type} (fl : BitVec 8) (k : Callback σ Prim) : ∀ (ps : List Prim) (s : σ),
    iterKeys fl k ps s = iterList k (ps.filter fun p => fl.getLsbD p.bit) s
  | [], s => by simp [iterKeys, iterList]
  | p :: ps, s => by
    rw [iterKeys, iterPrims_eq, occ, List.filter_cons]
    by_cases h : fl.getLsbD p.bit = true
    · simp only [List.filter_cons, List.filter_nil, h, if_true]
      rw [show p :: ps.filter (fun p => fl.getLsbD p.bit) = [p] ++ ps.filter (fun p => fl.getLsbD p.bit)
        from rfl, iterList_append]
      simp only [iterKeys_eq fl k ps]
    · simp only [List.filter_cons, List.filter_nil, h, Bool.false_eq_true, if_false, iterList]
      exact iterKeys_eq fl k ps s

theorem iterTables_eq {σ : Type} (o : Onto) (order : List Prim → List Prim) (fl : BitVec 8)
    (k : Callback σ Prim) : ∀ (is : List Nat) (s : σ),
    iterTables o order fl k is s =
      iterList k ((is.filter fun i => Masks.hasType fl i).flatMap fun i =>
        (order (o.keys i)).filter fun p => fl.getLsbD p.bit) s
  | [], s => by simp [iterTables, iterList]
  | i :: is, s => by
    rw [iterTables, List.filter_cons]
    by_cases h : Masks.hasType fl i = true
    · simp only [h, if_true]
      rw [List.flatMap_cons, iterList_append, iterKeys_eq]
      simp only [iterTables_eq o order fl k is]
    · simp only [h, Bool.false_eq_true, if_false]
      exact iterTables_eq o order fl k is s

theorem perm_flatMap_bit (xs : List Prim) : ∀ (is : List Nat), is.Nodup →
    (is.flatMap fun i => xs.filter fun p => p.bit = i).Perm (xs.filter fun p => p.bit ∈ is)
  | [], _ => by simp
  | i :: is, hn => by
    rw [List.nodup_cons] at hn
    rw [List.flatMap_cons]
    refine ((perm_flatMap_bit xs is hn.2).append_left _).trans ((filter_split ?_).symm.trans ?_)
    · rintro a _ ⟨h2, h3⟩
      exact hn.1 (by simpa [← show a.bit = i by simpa using h2] using h3)
    · apply List.Perm.of_eq
      congr 1
      funext a
      simp

/-- The visited keys are the keys selected by the mask. -/
theorem visitedKeys_perm (o : Onto) (order : List Prim → List Prim)
    (ho : ∀ ps, (order ps).Perm ps) (fl : BitVec 8) :
    (((List.range 8).filter fun i => Masks.hasType fl i).flatMap fun i =>
        (order (o.keys i)).filter fun p => fl.getLsbD p.bit).Perm
      ((o.idx.map Prod.fst).filter fun p => fl.getLsbD p.bit) := by
  have h1 : ∀ i ∈ (List.range 8).filter (fun i => Masks.hasType fl i),
      ((order (o.keys i)).filter fun p => fl.getLsbD p.bit).Perm
        ((o.idx.map Prod.fst).filter fun p => p.bit = i) := by
    intro i hi
    rw [List.mem_filter, List.mem_range] at hi
    refine ((ho _).filter _).trans (List.Perm.of_eq ?_)
    rw [Onto.keys, List.filter_filter]
    apply List.filter_congr
    intro p _
    by_cases hp : p.bit = i
    · have := hi.2
      rw [Masks.hasType_eq _ _ (by omega)] at this
      simp [hp, this]
    · simp [hp]
  refine (flatMap_perm h1).trans ((perm_flatMap_bit _ _ (List.Pairwise.filter _ List.nodup_range)).trans
    (List.Perm.of_eq ?_))
  apply List.filter_congr
  intro p _
  rw [Bool.eq_iff_iff]
  have := bit_lt p
  simp only [List.mem_filter, List.mem_range, decide_eq_true_eq, this, true_and]
  rw [Masks.hasType_eq _ _ (by omega)]

theorem primitiveCount_eq (o : Onto) (fl : BitVec 8) :
    o.primitiveCount fl = u32 ((o.idx.map Prod.fst).filter fun p => fl.getLsbD p.bit).length := by
  have h := (visitedKeys_perm o id (fun _ => List.Perm.refl _) fl).length_eq
  rw [← h]
  unfold Onto.primitiveCount
  have key : ∀ (is : List Nat) (c : BitVec 32), (∀ i ∈ is, i < 8) →
      is.foldl (fun c i => if Masks.hasType fl i then c + u32 (o.keys i).length else c) c =
      c + u32 ((is.filter fun i => Masks.hasType fl i).flatMap fun i =>
        (id (o.keys i)).filter fun p => fl.getLsbD p.bit).length := by
    intro is
    induction is with
    | nil => intro c _; simp [u32]
    | cons i is ih =>
      intro c hi
      rw [List.foldl_cons, List.filter_cons]
      by_cases ht : Masks.hasType fl i = true
      · simp only [ht, if_true]
        rw [ih _ fun j hj => hi j (List.mem_cons_of_mem _ hj), List.flatMap_cons, List.length_append]
        have : (id (o.keys i)).filter (fun p => fl.getLsbD p.bit) = o.keys i := by
          rw [id, List.filter_eq_self]
          intro p hp
          rw [Onto.keys, List.mem_filter] at hp
          have h8 := hi i (by simp)
          rw [Masks.hasType_eq _ _ (by omega)] at ht
          rw [show p.bit = i by simpa using hp.2, ht]
        rw [this]
        simp only [u32, BitVec.ofNat_add, BitVec.add_assoc]
      · simp only [ht, Bool.false_eq_true, if_false]
        exact ih _ fun j hj => hi j (List.mem_cons_of_mem _ hj)
  rw [key _ _ (fun i hi => by simpa using hi)]
  simp

/-! ## Related constructs -/

theorem iterList_related {σ : Type} (p : Prim) (k : Callback σ Obj) : ∀ (xs : List Obj) (s : σ),
    iterList (relatedOpCb p k) xs s = iterList k (xs.filter fun x => ¬ IsPrim p x) s
  | [], s => by simp [iterList]
  | x :: xs, s => by
    rw [List.filter_cons]
    by_cases h : IsPrim p x
    · have hx : relatedOpCb p k s x = (s, .ok) := by
        cases x <;> simp [IsPrim] at h
        simp [relatedOpCb, h]
      simp only [h, not_true_eq_false, decide_false, Bool.false_eq_true, if_false]
      rw [iterList_cons_ok hx, iterList_related p k xs]
    · have hx : relatedOpCb p k s x = k s x := by
        cases x <;> simp [IsPrim] at h <;> simp [relatedOpCb, h]
      simp only [h, not_false_eq_true, decide_true, if_true, iterList, hx]
      rw [← iterList_related p k xs]

theorem iterList_flatMap {σ α β : Type} (k : Callback σ β) (c : Callback σ α) (f : α → List β)
    (h : ∀ s a, c s a = iterList k (f a) s) : ∀ (xs : List α) (s : σ),
    iterList c xs s = iterList k (xs.flatMap f) s
  | [], s => by simp [iterList]
  | x :: xs, s => by
    rw [List.flatMap_cons, iterList_append, iterList, h]
    simp only [iterList_flatMap k c f h xs]

/-- The related constructs found in one axiom. -/
def relatedIn (p : Prim) (types : BitVec 64) (pos : BitVec 8) (a : Ref) : List Obj :=
  if Masks.hasType types (axType a.obj) && hasOperand a.obj (.prim p) psAny then
    (opsAt a.obj pos).filter fun x => ¬ IsPrim p x
  else []

theorem iterRelated_eq {σ : Type} (o : Onto) (p : Prim) (types : BitVec 64) (pos : BitVec 8)
    (k : Callback σ Obj) (s : σ) :
    o.iterRelated p types pos k s = iterList k ((ix o.idx p).flatMap (relatedIn p types pos)) s := by
  have hk : ∀ s a, relatedCb p types pos k s a = iterList k (relatedIn p types pos a) s := by
    intro s a
    unfold relatedCb relatedIn
    cases Masks.hasType types (axType a.obj) <;> cases hasOperand a.obj (.prim p) psAny <;>
      simp [iterList, iterOperands_eq, iterList_related]
  rw [← iterList_flatMap k _ _ hk]
  unfold Onto.iterRelated
  rw [← pindex_getD]
  cases o.pindex p <;> simp [iterList]

theorem flatMap_replicate {α β : Type} (f : α → List β) (a : α) : ∀ n,
    (List.replicate n a).flatMap f = (List.replicate n (f a)).flatten
  | 0 => rfl
  | n + 1 => by simp [List.replicate_succ, flatMap_replicate f a n]

theorem isPrim_iff {p : Prim} {x : Obj} : IsPrim p x ↔ x = .prim p := by
  cases x <;> simp [IsPrim]

theorem operandIs_iff {p : Prim} {op : Obj} : OperandIs p op ↔ Expands op (.prim p) := by
  cases op <;> simp [OperandIs, Expands, isPrim_iff, eq_comm]

theorem equals_prim {p : Prim} {y : Obj} : y.equals (.prim p) = true ↔ y = .prim p := by
  cases y <;> simp [Obj.equals, Obj.eqv]

theorem sitsAt_any : ∀ n, n ≤ 3 → ∀ i, i < n → SitsAt n i psAny := by decide

theorem has_operand_any (t : OType) (b : Bool) (ops annots : List Obj) (u : Nat) (p : Prim)
    (h : ops.length = t.fieldCount) :
    hasOperand (.comp t b (ops ++ annots) u) (.prim p) psAny = true ↔
      ∃ op ∈ ops, OperandIs p op := by
  rw [C09_has_operand t b ops annots u psAny h]
  constructor
  · rintro ⟨y, hy, he⟩
    rw [equals_prim] at he
    subst he
    obtain ⟨i, op, h1, _, h3⟩ := (C09_positions _ _ _).1 hy
    exact ⟨op, List.mem_of_getElem? h1, operandIs_iff.2 h3⟩
  · rintro ⟨op, ho, hx⟩
    obtain ⟨i, hi, rfl⟩ := List.getElem_of_mem ho
    refine ⟨.prim p, (C09_positions _ _ _).2 ⟨i, _, List.getElem?_eq_getElem hi, ?_,
      operandIs_iff.1 hx⟩, equals_prim.2 rfl⟩
    exact sitsAt_any _ (by rw [h]; exact fieldCount_le t) i hi

theorem relatedIn_eq {p : Prim} {types : BitVec 64} {pos : BitVec 8} {a : Ref} (h : IsAxiom a.obj) :
    relatedIn p types pos a = OntoSpec.related p types pos a := by
  obtain ⟨h1, h2⟩ := isAxiom_axType h
  obtain ⟨x, obj⟩ := a
  cases obj with
  | comp t b fs u =>
    obtain ⟨hw, ht⟩ := h
    have hw' := hw
    rw [WellFormed] at hw'
    have hlen : t.fieldCount ≤ fs.length := by rw [hw'.1, nFields]; split <;> omega
    have htake : (fs.take t.fieldCount).length = t.fieldCount := by simp; omega
    have hops := opsAt_eq t b (fs.take t.fieldCount) (fs.drop t.fieldCount) u pos htake
    rw [List.take_append_drop] at hops
    have hhas := has_operand_any t b (fs.take t.fieldCount) (fs.drop t.fieldCount) u p htake
    rw [List.take_append_drop] at hhas
    unfold relatedIn OntoSpec.related
    rw [hops]
    dsimp only [OntoSpec.operands]
    have hty : Masks.hasType types (axType (Obj.comp t b fs u)) = true ↔
        ∃ t', t' < 37 ∧ OfType t' ⟨x, .comp t b fs u⟩ ∧ types.getLsbD t' = true := by
      rw [Masks.hasType_eq _ _ (by simp at h1; omega)]
      constructor
      · intro h; exact ⟨_, h1, (h2 _).2 rfl, h⟩
      · rintro ⟨t', _, h3, h4⟩; rw [(h2 t').1 h3]; exact h4
    by_cases hc : TypeIn types ⟨x, .comp t b fs u⟩ ∧ HasOperand p ⟨x, .comp t b fs u⟩
    · rw [if_pos hc, if_pos]
      rw [Bool.and_eq_true]
      exact ⟨hty.2 hc.1, hhas.2 hc.2⟩
    · rw [if_neg hc, if_neg]
      rw [Bool.and_eq_true]
      rintro ⟨h3, h4⟩
      exact hc ⟨hty.1 h3, hhas.1 h4⟩
  | _ => exact absurd h.2 (by simp)

end Cowl
