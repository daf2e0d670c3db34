import Verif.PrtIndex
/-! # Lemmas about the indices of ProtocOWL -/
namespace Cowl.Prt
section
variable {α : Type} [DecidableEq α]

theorem lookup_setVal (x y : α) (i : Nat) : ∀ tab : List (α × Option Nat),
    (setVal tab x i).lookup y = if y = x then (tab.lookup y).map fun _ => some i else tab.lookup y
  | [] => by simp [setVal]
  | e :: tab => by
    have ih := lookup_setVal x y i tab
    obtain ⟨k, v⟩ := e
    simp only [setVal, List.map_cons] at ih ⊢
    by_cases hk : k = x
    · subst hk
      simp only [if_true, List.lookup_cons]
      by_cases hy : y = k
      · subst hy; simp
      · have hf : (y == k) = false := by simpa using hy
        simp only [hf, if_neg hy, ih]
    · simp only [if_neg hk, List.lookup_cons]
      by_cases hy : y = k
      · subst hy; simp [hk]
      · have hf : (y == k) = false := by simpa using hy
        simp only [hf, ih]

theorem lookup_syncLoop_not_mem (y : α) : ∀ (xs : List α) (tab : List (α × Option Nat)) (i : Nat), y ∉ xs →
    (syncLoop tab i xs).lookup y = tab.lookup y
  | [], _, _, _ => rfl
  | x :: xs, tab, i, h => by
    rw [syncLoop, lookup_syncLoop_not_mem y xs _ _ (fun h' => h (List.mem_cons_of_mem _ h')), lookup_setVal,
      if_neg (fun e => h (by rw [e]; exact List.mem_cons_self))]

theorem lookup_syncLoop (y : α) : ∀ (xs : List α) (tab : List (α × Option Nat)) (i j : Nat), xs.Nodup → xs[j]? = some y →
    (syncLoop tab i xs).lookup y = (tab.lookup y).map fun _ => some (i + j)
  | [], _, _, _, _, h => by simp at h
  | x :: xs, tab, i, 0, hn, h => by
    simp at h; subst h
    rw [syncLoop, lookup_syncLoop_not_mem _ _ _ _ (List.nodup_cons.1 hn).1, lookup_setVal, if_pos rfl]; rfl
  | x :: xs, tab, i, j + 1, hn, h => by
    simp only [List.getElem?_cons_succ] at h
    have hx : y ≠ x := fun e => (List.nodup_cons.1 hn).1 (e ▸ List.mem_of_getElem? h)
    rw [syncLoop, lookup_syncLoop y xs _ _ j (List.nodup_cons.1 hn).2 h, lookup_setVal, if_neg hx]
    congr 1; funext _; congr 1; omega

/-- The items are those encoded, those of the first kind, those of the second kind. -/
structure PVec.Inv (m : PVec α) (e a b : List α) : Prop where
  vec : m.vec = e ++ a ++ b
  enc : m.enc = e.length
  sep : m.sep = e.length + a.length
  nodup : m.vec.Nodup
  keys : ∀ x, (m.tab.lookup x).isSome ↔ x ∈ m.vec
  vals : ∀ i x, e[i]? = some x → m.tab.lookup x = some (some i)

theorem has_iff (m : PVec α) (x : α) : m.has x = true ↔ (m.tab.lookup x).isSome := by
  unfold PVec.has
  induction m.tab with
  | nil => simp
  | cons p t ih =>
    obtain ⟨k, v⟩ := p
    simp only [List.any_cons, List.lookup_cons]
    by_cases h : k = x
    · subst h; simp
    · have hf : (x == k) = false := by simpa using fun e => h e.symm
      simp only [hf, h, decide_false, Bool.false_or]; exact ih

theorem PVec.Inv.has {m : PVec α} {e a b : List α} (h : m.Inv e a b) (x : α) : m.has x = true ↔ x ∈ m.vec :=
  (has_iff m x).trans (h.keys x)

theorem PVec.Inv.firsts {m : PVec α} {e a b : List α} (h : m.Inv e a b) : m.firsts = a := by
  simp [PVec.firsts, h.vec, h.enc, h.sep]

theorem PVec.Inv.seconds {m : PVec α} {e a b : List α} (h : m.Inv e a b) : m.seconds = b := by
  rw [PVec.seconds, h.vec, h.sep, ← List.length_append, List.drop_left]

theorem PVec.inv_empty : ({} : PVec α).Inv [] [] [] := by
  constructor <;> simp

private theorem lookup_snoc (tab : List (α × Option Nat)) (x y : α) :
    (tab ++ [(x, none)]).lookup y = (tab.lookup y).or (if y = x then some none else none) := by
  rw [List.lookup_append]
  congr 1
  by_cases h : y = x
  · subst h; simp
  · simp [h]

private theorem keys_snoc {m : PVec α} {x : α} {v : List α} (hk : ∀ y, (m.tab.lookup y).isSome ↔ y ∈ m.vec)
    (hv : ∀ y, y ∈ v ↔ y = x ∨ y ∈ m.vec) (y : α) : ((m.tab ++ [(x, none)]).lookup y).isSome ↔ y ∈ v := by
  rw [lookup_snoc, hv, ← hk y]
  by_cases h : y = x
  · subst h; cases m.tab.lookup y <;> simp
  · simp [h]

theorem PVec.Inv.add_true {m : PVec α} {e a b : List α} (h : m.Inv e a b) (x : α) (hx : x ∉ m.vec) :
    (m.add x true).Inv e (a ++ [x]) (b.drop 1 ++ b.take 1) := by
  have hh : m.has x = false := by
    cases e1 : m.has x with
    | false => rfl
    | true => exact absurd ((h.has x).1 e1) hx
  have hvec : (m.add x true).vec = e ++ (a ++ [x]) ++ (b.drop 1 ++ b.take 1) := by
    simp only [PVec.add, hh, Bool.false_eq_true, if_false, if_true]
    rw [h.vec, h.sep, ← List.length_append]
    cases b with
    | nil => simp
    | cons f b =>
      simp only [List.getElem?_append_right (Nat.le_refl _), Nat.sub_self, List.getElem?_cons_zero]
      rw [List.append_assoc, List.set_append_right _ _ (Nat.le_refl _)]
      simp
  have hp : (m.add x true).vec.Perm (x :: m.vec) := by
    rw [hvec, h.vec]
    have : (b.drop 1 ++ b.take 1).Perm b := by
      refine List.perm_append_comm.trans ?_
      rw [List.take_append_drop]
    refine (List.Perm.append_left _ this).trans ?_
    simp only [List.append_assoc, List.cons_append, List.nil_append]
    rw [← List.append_assoc, ← List.append_assoc]
    exact List.perm_middle
  have hmem : ∀ y, y ∈ (m.add x true).vec ↔ y = x ∨ y ∈ m.vec := fun y => by rw [hp.mem_iff]; simp
  refine ⟨hvec, ?_, ?_, ?_, ?_, ?_⟩
  · simp only [PVec.add, hh, Bool.false_eq_true, if_false]; exact h.enc
  · simp only [PVec.add, hh, Bool.false_eq_true, if_false, if_true]; rw [h.sep]; simp; omega
  · exact hp.nodup_iff.2 (List.nodup_cons.2 ⟨hx, h.nodup⟩)
  · have : (m.add x true).tab = m.tab ++ [(x, none)] := by
      simp only [PVec.add, hh, Bool.false_eq_true, if_false]
    intro y; rw [this]; exact keys_snoc h.keys hmem y
  · intro i y hy
    have : (m.add x true).tab = m.tab ++ [(x, none)] := by
      simp only [PVec.add, hh, Bool.false_eq_true, if_false]
    rw [this, lookup_snoc, h.vals i y hy]; rfl

theorem PVec.Inv.add_false {m : PVec α} {e a b : List α} (h : m.Inv e a b) (x : α) (hx : x ∉ m.vec) :
    (m.add x false).Inv e a (b ++ [x]) := by
  have hh : m.has x = false := by
    cases e1 : m.has x with
    | false => rfl
    | true => exact absurd ((h.has x).1 e1) hx
  have hvec : (m.add x false).vec = m.vec ++ [x] := by
    simp only [PVec.add, hh, Bool.false_eq_true, if_false]
  have htab : (m.add x false).tab = m.tab ++ [(x, none)] := by
    simp only [PVec.add, hh, Bool.false_eq_true, if_false]
  have hmem : ∀ y, y ∈ (m.add x false).vec ↔ y = x ∨ y ∈ m.vec := by
    intro y; rw [hvec]; simp [or_comm]
  refine ⟨?_, ?_, ?_, ?_, ?_, ?_⟩
  · rw [hvec, h.vec]; simp
  · simp only [PVec.add, hh, Bool.false_eq_true, if_false]; exact h.enc
  · simp only [PVec.add, hh, Bool.false_eq_true, if_false]; exact h.sep
  · rw [hvec]; exact (List.perm_append_comm.nodup_iff).2 (List.nodup_cons.2 ⟨hx, h.nodup⟩)
  · intro y; rw [htab]; exact keys_snoc h.keys hmem y
  · intro i y hy
    rw [htab, lookup_snoc, h.vals i y hy]; rfl

theorem PVec.Inv.add_mem {m : PVec α} {e a b : List α} (h : m.Inv e a b) (x : α) (f : Bool) (hx : x ∈ m.vec) :
    m.add x f = m := by
  simp only [PVec.add, (h.has x).2 hx, if_true]

theorem PVec.Inv.sync {m : PVec α} {e a b : List α} (h : m.Inv e a b) : m.sync.Inv m.vec [] [] := by
  have hd : m.vec.drop m.enc = a ++ b := by rw [h.vec, h.enc, List.append_assoc, List.drop_left]
  have hn : (a ++ b).Nodup := by
    have := h.nodup; rw [h.vec, List.append_assoc] at this
    exact (List.nodup_append.1 this).2.1
  have hl : ∀ j y, (a ++ b)[j]? = some y → m.sync.tab.lookup y = some (some (m.enc + j)) := by
    intro j y hy
    have hmem : y ∈ m.vec := by
      rw [h.vec, List.append_assoc]; exact List.mem_append_right _ (List.mem_of_getElem? hy)
    obtain ⟨v, hv⟩ := Option.isSome_iff_exists.1 ((h.keys y).2 hmem)
    simp only [PVec.sync, hd]
    rw [lookup_syncLoop y _ _ _ j hn hy, hv]; rfl
  have hl2 : ∀ y, y ∉ a ++ b → m.sync.tab.lookup y = m.tab.lookup y := by
    intro y hy
    simp only [PVec.sync, hd]
    exact lookup_syncLoop_not_mem y _ _ _ hy
  refine ⟨by simp [PVec.sync], by simp [PVec.sync], by simp [PVec.sync], h.nodup, ?_, ?_⟩
  · intro y
    by_cases hy : y ∈ a ++ b
    · obtain ⟨j, hj⟩ := List.getElem?_of_mem hy
      rw [hl j y hj]
      simp only [Option.isSome_some, true_iff]
      show y ∈ m.vec
      rw [h.vec, List.append_assoc]; exact List.mem_append_right _ hy
    · rw [hl2 y hy]; exact h.keys y
  · intro i y hy
    by_cases hi : i < e.length
    · have he : e[i]? = some y := by
        rw [h.vec, List.append_assoc, List.getElem?_append_left hi] at hy; exact hy
      have : y ∉ a ++ b := by
        have hnn := h.nodup; rw [h.vec, List.append_assoc] at hnn
        intro hc
        exact (List.nodup_append.1 hnn).2.2 y (List.mem_of_getElem? he) y hc rfl
      rw [hl2 y this]; exact h.vals i y he
    · have hj : (a ++ b)[i - e.length]? = some y := by
        rw [h.vec, List.append_assoc, List.getElem?_append_right (by omega)] at hy; exact hy
      rw [hl _ y hj, h.enc]; congr 2; omega

/-- Once synchronised, the index of an item is its position. -/
theorem PVec.Inv.idx_iff {m : PVec α} {e : List α} (h : m.Inv e [] []) (x : α) (i : Nat) :
    m.idx x = some i ↔ e[i]? = some x := by
  have hv : m.vec = e := by simpa using h.vec
  constructor
  · intro hi
    have hs : (m.tab.lookup x).isSome := by
      cases hl : m.tab.lookup x with
      | none => simp [PVec.idx, hl] at hi
      | some v => rfl
    have hm := (h.keys x).1 hs
    rw [hv] at hm
    obtain ⟨j, hj⟩ := List.getElem?_of_mem hm
    have := h.vals j x hj
    simp [PVec.idx, this] at hi
    subst hi; exact hj
  · intro hi
    simp [PVec.idx, h.vals i x hi]

end
end Cowl.Prt
namespace Cowl.Prt

/-! ## Namespaces -/

/-- Invariant of the map of namespaces: the decoder knows `nss`. -/
def NsMap.Inv (m : NsMap) (nss : List Str) : Prop :=
  ∃ a b, m.pv.Inv nss a b ∧ ∀ n ∈ a, (m.pfx n).isSome

theorem NsMap.Inv.add {m : NsMap} {nss : List Str} (h : m.Inv nss) (n : Str) (p : Option Str) :
    (m.add n p).Inv nss ∧ ∀ k, k ∈ (m.add n p).pv.vec ↔ k = n ∨ k ∈ m.pv.vec := by
  obtain ⟨a, b, hi, hp⟩ := h
  by_cases hn : n ∈ m.pv.vec
  · have : m.add n p = m := by simp only [NsMap.add, (hi.has n).2 hn, if_true]
    rw [this]
    exact ⟨⟨a, b, hi, hp⟩, fun k => ⟨.inr, fun h => h.elim (fun e => e ▸ hn) id⟩⟩
  · have hh : m.pv.has n = false := by
      cases e1 : m.pv.has n with
      | false => rfl
      | true => exact absurd ((hi.has n).1 e1) hn
    cases p with
    | some p =>
      have : m.add n (some p) = ⟨m.pv.add n true, m.prefs ++ [(n, p)]⟩ := by
        simp only [NsMap.add, hh, Bool.false_eq_true, if_false, Option.isSome_some]
      rw [this]
      have hi' := hi.add_true n hn
      refine ⟨⟨_, _, hi', ?_⟩, ?_⟩
      · intro k hk
        rcases List.mem_append.1 hk with hk | hk
        · have := hp k hk
          simp only [NsMap.pfx, List.lookup_append] at this ⊢
          rw [Option.isSome_or, this]; rfl
        · have : k = n := by simpa using hk
          subst this
          simp only [NsMap.pfx, List.lookup_append]
          rw [Option.isSome_or]; simp
      · intro k
        rw [hi'.vec, hi.vec]
        cases b <;> simp <;> grind
    | none =>
      have : m.add n none = ⟨m.pv.add n false, m.prefs⟩ := by
        simp only [NsMap.add, hh, Bool.false_eq_true, if_false, Option.isSome_none]
      rw [this]
      have hi' := hi.add_false n hn
      refine ⟨⟨_, _, hi', hp⟩, ?_⟩
      intro k
      rw [hi'.vec, hi.vec]
      simp; grind

theorem NsMap.Inv.sync {m : NsMap} {nss : List Str} (h : m.Inv nss) :
    NsMap.Inv { m with pv := m.pv.sync } m.pv.vec := by
  obtain ⟨a, b, hi, _⟩ := h
  exact ⟨[], [], hi.sync, nofun⟩

theorem init_vec : NsMap.init.pv.vec = stdPrefixes.map (·.2) := by decide +kernel

theorem NsMap.inv_init : NsMap.init.Inv (stdPrefixes.map (·.2)) := by
  have h : ∀ (l : List (Str × Str)) (m : NsMap), m.Inv [] → (l.foldl (fun (m : NsMap) p => m.add p.2 (some p.1)) m).Inv [] := by
    intro l
    induction l with
    | nil => exact fun _ h => h
    | cons p l ih => exact fun m h => ih _ (h.add _ _).1
  have h0 : NsMap.Inv {} [] := ⟨[], [], PVec.inv_empty, nofun⟩
  have := (h stdPrefixes {} h0).sync
  rw [← init_vec]
  exact this

/-! ## The whole index -/

/-- The name the decoder stores for a name: IRIs are split anew. -/
def readAs : Id → Id
  | .iri i => .iri (mkIri i.ns i.rem)
  | .anon s => .anon s

/-- Agreement of the encoder's and the decoder's index. -/
structure Agree (x : Index) (d : DIndex) : Prop where
  ns : x.ns.Inv d.nss
  ids : ∃ e a b, x.ids.Inv e a b ∧ (∀ i ∈ a, ∃ r, i = .iri r) ∧ (∀ i ∈ b, ∃ s, i = .anon s) ∧ d.ids = e.map readAs
  have_ns : ∀ i, .iri i ∈ x.ids.vec → i.ns ∈ x.ns.pv.vec

theorem agree_init : Agree {} {} :=
  ⟨NsMap.inv_init, ⟨[], [], [], PVec.inv_empty, nofun, nofun, rfl⟩, nofun⟩

theorem Agree.addPrefix {x : Index} {d : DIndex} (h : Agree x d) (n p : Str) :
    Agree (x.addPrefix n p) d ∧ (x.addPrefix n p).ids = x.ids ∧
      ∀ k, k ∈ (x.addPrefix n p).ns.pv.vec ↔ k = n ∨ k ∈ x.ns.pv.vec := by
  have := h.ns.add n (some p)
  exact ⟨⟨this.1, h.ids, fun i hi => (this.2 _).2 (.inr (h.have_ns i hi))⟩, rfl, this.2⟩

theorem ids_add {m : PVec Id} {d a b : List Id} (hi : m.Inv d a b) (ha : ∀ i ∈ a, ∃ r, i = .iri r)
    (hb : ∀ i ∈ b, ∃ s, i = .anon s) (x : Id) (f : Bool) (hf : f = true ↔ ∃ r, x = .iri r) (hg : f = false → ∃ s, x = .anon s) :
    (∃ a b, (m.add x f).Inv d a b ∧ (∀ i ∈ a, ∃ r, i = .iri r) ∧ (∀ i ∈ b, ∃ s, i = .anon s)) ∧
      ∀ k, k ∈ (m.add x f).vec ↔ k = x ∨ k ∈ m.vec := by
  by_cases hx : x ∈ m.vec
  · rw [hi.add_mem x f hx]
    exact ⟨⟨a, b, hi, ha, hb⟩, fun k => ⟨.inr, fun h => h.elim (fun e => e ▸ hx) id⟩⟩
  · cases f with
    | true =>
      have hi' := hi.add_true x hx
      refine ⟨⟨_, _, hi', ?_, ?_⟩, ?_⟩
      · intro i h
        rcases List.mem_append.1 h with h | h
        · exact ha i h
        · have : i = x := by simpa using h
          rw [this]; exact hf.1 rfl
      · intro i h
        rcases List.mem_append.1 h with h | h
        · exact hb i (List.mem_of_mem_drop h)
        · exact hb i (List.mem_of_mem_take h)
      · intro k; rw [hi'.vec, hi.vec]; cases b <;> simp <;> grind
    | false =>
      have hi' := hi.add_false x hx
      refine ⟨⟨_, _, hi', ha, ?_⟩, ?_⟩
      · intro i h
        rcases List.mem_append.1 h with h | h
        · exact hb i h
        · have : i = x := by simpa using h
          rw [this]; exact hg rfl
      · intro k; rw [hi'.vec, hi.vec]; simp; grind

theorem Agree.addId {x : Index} {d : DIndex} (h : Agree x d) (i : Id) :
    Agree (x.addId i) d ∧ (∀ k, k ∈ (x.addId i).ids.vec ↔ k = i ∨ k ∈ x.ids.vec) ∧
      ∀ k, k ∈ (x.addId i).ns.pv.vec ↔ (∃ r, i = .iri ⟨k, r⟩) ∨ k ∈ x.ns.pv.vec := by
  obtain ⟨e, a, b, hi, ha, hb, he⟩ := h.ids
  cases i with
  | iri r =>
    have hn := h.ns.add r.ns none
    have hj := ids_add hi ha hb (.iri r) true (by simp) (by simp)
    obtain ⟨⟨a', b', hj1⟩, hj2⟩ := hj
    refine ⟨⟨hn.1, ⟨e, a', b', hj1.1, hj1.2.1, hj1.2.2, he⟩, ?_⟩, hj2, ?_⟩
    · intro i h'
      refine (hn.2 _).2 ?_
      rcases (hj2 _).1 h' with e | e
      · left; cases e; rfl
      · exact .inr (h.have_ns i e)
    · intro k
      refine (hn.2 k).trans ?_
      constructor
      · rintro (e | e)
        · exact .inl ⟨r.rem, by rw [e]⟩
        · exact .inr e
      · rintro (⟨q, e⟩ | e)
        · exact .inl (by cases e; rfl)
        · exact .inr e
  | anon s =>
    have hj := ids_add hi ha hb (.anon s) false (by simp) (by simp)
    obtain ⟨⟨a', b', hj1⟩, hj2⟩ := hj
    refine ⟨⟨h.ns, ⟨e, a', b', hj1.1, hj1.2.1, hj1.2.2, he⟩, ?_⟩, hj2, ?_⟩
    · intro i h'
      rcases (hj2 _).1 h' with e | e
      · cases e
      · exact h.have_ns i e
    · intro k
      constructor
      · exact .inr
      · rintro (⟨q, e⟩ | e)
        · cases e
        · exact e

theorem PVec.Inv.take {α : Type} [DecidableEq α] {m : PVec α} {e a b : List α} (h : m.Inv e a b) :
    m.vec.take m.enc = e := by
  rw [h.vec, h.enc, List.append_assoc, List.take_left]

theorem Agree.addId_take {x : Index} {d : DIndex} (h : Agree x d) (i : Id) :
    (x.addId i).ids.vec.take (x.addId i).ids.enc = x.ids.vec.take x.ids.enc := by
  obtain ⟨e, a, b, hi, ha, hb, he⟩ := h.ids
  rw [hi.take]
  cases i with
  | iri r =>
    obtain ⟨⟨_, _, h1, _⟩, _⟩ := ids_add hi ha hb (.iri r) true (by simp) (by simp)
    exact h1.take
  | anon s =>
    obtain ⟨⟨_, _, h1, _⟩, _⟩ := ids_add hi ha hb (.anon s) false (by simp) (by simp)
    exact h1.take

theorem Agree.reset {x : Index} {d : DIndex} (h : Agree x d) (p : Bool) : Agree (x.reset p) (d.reset p true) := by
  refine ⟨?_, ⟨[], [], [], PVec.inv_empty, nofun, nofun, rfl⟩, nofun⟩
  cases p with
  | true => exact NsMap.inv_init
  | false => exact h.ns

theorem mapM_some {α β : Type} {f : α → Option β} : ∀ {l : List α} {g : α → β}, (∀ x ∈ l, f x = some (g x)) → l.mapM f = some (l.map g)
  | [], _, _ => rfl
  | x :: l, g, h => by
    have := mapM_some (l := l) (g := g) fun y hy => h y (List.mem_cons_of_mem _ hy)
    simp [List.mapM_cons, h x List.mem_cons_self, this]

theorem mapM_bind {α β γ : Type} {f : α → Option β} {g : β → Option γ} {h : α → γ} :
    ∀ {l : List α} {m : List β}, l.mapM f = some m → (∀ x ∈ l, ∀ y, f x = some y → g y = some (h x)) → m.mapM g = some (l.map h)
  | [], m, e, _ => by simp at e; subst e; rfl
  | x :: l, m, e, hg => by
    simp only [List.mapM_cons, Option.bind_eq_bind, Option.bind_eq_some_iff, Option.pure_def, Option.some.injEq] at e
    obtain ⟨y, hy, ys, hys, rfl⟩ := e
    have := mapM_bind hys fun z hz => hg z (List.mem_cons_of_mem _ hz)
    simp [List.mapM_cons, hg x List.mem_cons_self y hy, this]

theorem mapM_exists {α β : Type} {f : α → Option β} : ∀ {l : List α}, (∀ x ∈ l, (f x).isSome) → ∃ m, l.mapM f = some m
  | [], _ => ⟨[], rfl⟩
  | x :: l, h => by
    obtain ⟨y, hy⟩ := Option.isSome_iff_exists.1 (h x List.mem_cons_self)
    obtain ⟨m, hm⟩ := mapM_exists (l := l) fun y hy => h y (List.mem_cons_of_mem _ hy)
    exact ⟨y :: m, by simp [List.mapM_cons, hy, hm]⟩

theorem mapM_map_eq {α β γ : Type} {f : α → Option β} {g : β → γ} {h : α → γ} :
    ∀ {l : List α} {m : List β}, l.mapM f = some m → (∀ x ∈ l, ∀ y, f x = some y → g y = h x) → m.map g = l.map h
  | [], m, e, _ => by simp at e; subst e; rfl
  | x :: l, m, e, hg => by
    simp only [List.mapM_cons, Option.bind_eq_bind, Option.bind_eq_some_iff, Option.pure_def, Option.some.injEq] at e
    obtain ⟨y, hy, ys, hys, rfl⟩ := e
    simp [hg x List.mem_cons_self y hy, mapM_map_eq hys fun z hz => hg z (List.mem_cons_of_mem _ hz)]

/-- Writing the declarations that are due and reading them keeps the indices in agreement;
afterwards the decoder knows all the names. -/
theorem Agree.flush {x : Index} {d : DIndex} (h : Agree x d) :
    ∃ ds, x.decls = some ds ∧ d.read ds = some ⟨x.ns.pv.vec, x.ids.vec.map readAs⟩ ∧
      Agree x.sync ⟨x.ns.pv.vec, x.ids.vec.map readAs⟩ := by
  obtain ⟨a, b, hi, hp⟩ := h.ns
  obtain ⟨e', a', b', hi', ha, hb, he'⟩ := h.ids
  have hs := hi.sync
  have hns : ∀ i ∈ a', (iriDecl x.ns.pv.sync i).isSome := by
    intro i hi2
    obtain ⟨r, rfl⟩ := ha i hi2
    have := h.have_ns r (by rw [hi'.vec]; simp [hi2])
    obtain ⟨j, hj⟩ := List.getElem?_of_mem this
    simp [iriDecl, (hs.idx_iff r.ns j).2 hj]
  have hpf : ∀ n ∈ a, ((x.ns.pfx n).map fun p => (p, n)).isSome := fun n hn => by
    rw [Option.isSome_map]; exact hp n hn
  have han : ∀ i ∈ b', (anonDecl i).isSome := fun i hi2 => by
    obtain ⟨s, rfl⟩ := hb i hi2; rfl
  obtain ⟨m1, h1⟩ := mapM_exists hpf
  obtain ⟨m2, h2⟩ := mapM_exists hns
  obtain ⟨m3, h3⟩ := mapM_exists han
  refine ⟨⟨m1, b, m2, m3⟩, ?_, ?_, ?_⟩
  · simp [Index.decls, hi.firsts, hi.seconds, hi'.firsts, hi'.seconds, h1, h2, h3]
  · have e1 : m1.map (·.2) = a := by
      have := mapM_map_eq (g := (·.2)) (h := id) h1 (by
        intro n _ y hy
        obtain ⟨p, _, rfl⟩ := Option.map_eq_some_iff.1 hy
        rfl)
      simpa using this
    have e3 : m3.map Id.anon = b'.map readAs := by
      have := mapM_map_eq (g := Id.anon) (h := readAs) h3 (by
        intro i _ y hy
        cases i with
        | anon s => simp [anonDecl] at hy; rw [hy]; rfl
        | iri r => simp [anonDecl] at hy)
      simpa using this
    have e2 : m2.mapM (readIri x.ns.pv.vec) = some (a'.map readAs) := by
      have := mapM_bind (g := readIri x.ns.pv.vec) (h := readAs) h2 (by
        intro i _ y hy
        cases i with
        | iri r =>
          simp only [iriDecl, Option.map_eq_some_iff] at hy
          obtain ⟨k, hk, rfl⟩ := hy
          simp [readIri, (hs.idx_iff _ _).1 hk, readAs]
        | anon s => simp [iriDecl] at hy)
      simpa using this
    simp only [DIndex.read, e1, e3]
    rw [← hi.vec, e2, Option.map_some, hi'.vec, he']
    simp
  · exact ⟨⟨[], [], hs, nofun⟩, ⟨_, [], [], hi'.sync, nofun, nofun, rfl⟩, h.have_ns⟩

end Cowl.Prt
