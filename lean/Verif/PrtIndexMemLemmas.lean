import Verif.PrtIndexMemSpec
/-! # Lemmas about the memory of the index of the ProtocOWL encoder -/
namespace Cowl.PIdx

/-- The references of the index are those to its contents. -/
def Owned (s : St) : Prop :=
  s.own.Perm (s.prefs.map (fun e => e.2.addr) ++ s.ns.vec.map (·.addr) ++ s.ids.vec.map (·.addr))

/-- Table and vector agree. -/
structure Fine (m : PVec) : Prop where
  keys : (m.tab.map (·.1)).Perm m.vec
  enc : m.enc ≤ m.sep
  sep : m.sep ≤ m.vec.length
  unset : ∀ e ∈ m.tab, e.2 = none → e.1 ∈ m.vec.drop m.enc

/-- The index is in order. -/
structure Good (s : St) : Prop where
  owned : Owned s
  ns : Fine s.ns
  ids : Fine s.ids
  prefs : ∀ e ∈ s.prefs, e.1 ∈ s.ns.vec

theorem releaseAll_perm : ∀ (l own r : List Nat), own.Perm (l ++ r) →
    ∃ o, releaseAll own l = some o ∧ o.Perm r
  | [], own, r, h => ⟨own, rfl, h⟩
  | a :: l, own, r, h => by
    have ha : a ∈ own := h.mem_iff.2 (by simp)
    rw [releaseAll, if_pos (by simpa using ha)]
    have h1 := h.erase a
    rw [List.cons_append, List.erase_cons_head] at h1
    exact releaseAll_perm l _ r h1

theorem alive_of {β : Type} {own : List Nat} {tab : List (Thing × β)} (h : ∀ e ∈ tab, e.1.addr ∈ own) :
    alive own tab = true := by
  unfold alive
  rw [List.all_eq_true]
  intro e he
  simpa using h e he

theorem Good.alive_ns {s : St} (h : Good s) : alive s.own s.ns.tab = true :=
  alive_of fun e he => h.owned.mem_iff.2 (by
    have : e.1 ∈ s.ns.vec := h.ns.keys.mem_iff.1 (List.mem_map_of_mem he)
    simp only [List.mem_append, List.mem_map]
    exact .inl (.inr ⟨_, this, rfl⟩))

theorem Good.alive_ids {s : St} (h : Good s) : alive s.own s.ids.tab = true :=
  alive_of fun e he => h.owned.mem_iff.2 (by
    have : e.1 ∈ s.ids.vec := h.ids.keys.mem_iff.1 (List.mem_map_of_mem he)
    simp only [List.mem_append, List.mem_map]
    exact .inr ⟨_, this, rfl⟩)

theorem Good.alive_prefs {s : St} (h : Good s) : alive s.own s.prefs = true :=
  alive_of fun e he => h.owned.mem_iff.2 (by
    have := h.prefs e he
    simp only [List.mem_append, List.mem_map]
    exact .inl (.inr ⟨_, this, rfl⟩))

theorem set_push : ∀ (l : List Thing) (i : Nat) (f x : Thing), l[i]? = some f →
    ((l ++ [f]).set i x).Perm (l ++ [x])
  | [], i, f, x, h => by simp at h
  | y :: l, 0, f, x, h => by
    simp only [List.getElem?_cons_zero, Option.some.injEq] at h
    subst h
    simp only [List.cons_append, List.set_cons_zero]
    refine (List.Perm.cons x List.perm_append_comm).trans ?_
    refine List.Perm.trans ?_ (List.Perm.cons y List.perm_append_comm)
    exact List.Perm.swap ..
  | y :: l, i + 1, f, x, h => by
    simp only [List.getElem?_cons_succ] at h
    simp only [List.cons_append, List.set_cons_succ]
    exact (set_push l i f x h).cons y

theorem push_perm (m : PVec) (x : Thing) (first : Bool) : (m.push x first).vec.Perm (m.vec ++ [x]) := by
  unfold PVec.push
  cases first with
  | false => exact .refl _
  | true =>
    simp only [if_true]
    cases h : m.vec[m.sep]? with
    | none => exact .refl _
    | some f => exact set_push _ _ _ _ h

theorem push_drop {m : PVec} (he : m.enc ≤ m.sep) (hs : m.sep ≤ m.vec.length) (x : Thing) (first : Bool) :
    ((m.push x first).vec.drop m.enc).Perm (m.vec.drop m.enc ++ [x]) := by
  have hl : m.enc ≤ m.vec.length := Nat.le_trans he hs
  have happ : (m.vec ++ [x]).drop m.enc = m.vec.drop m.enc ++ [x] := List.drop_append_of_le_length hl
  unfold PVec.push
  cases first with
  | false =>
    simp only [Bool.false_eq_true, if_false]
    rw [happ]
  | true =>
    simp only [if_true]
    cases h : m.vec[m.sep]? with
    | none => dsimp only; rw [happ]
    | some f =>
      dsimp only
      have h1 : (m.vec.drop m.enc)[m.sep - m.enc]? = some f := by
        rw [List.getElem?_drop, ← h]; congr 1; omega
      have h2 : ((m.vec ++ [f]).set m.sep x).drop m.enc =
          ((m.vec.drop m.enc) ++ [f]).set (m.sep - m.enc) x := by
        rw [List.drop_set, if_neg (by omega), List.drop_append_of_le_length hl]
      rw [h2]
      exact set_push _ _ _ _ h1

theorem fine_push {m : PVec} (h : Fine m) (x : Thing) (first : Bool) :
    Fine ({ m with tab := m.tab ++ [(x, none)] }.push x first) := by
  have hp := push_perm { m with tab := m.tab ++ [(x, none)] } x first
  have hd := push_drop (m := { m with tab := m.tab ++ [(x, none)] }) h.enc h.sep x first
  refine ⟨?_, ?_, ?_, fun e he hn => ?_⟩
  · refine List.Perm.trans ?_ hp.symm
    show ((m.tab ++ [(x, none)]).map Prod.fst).Perm _
    rw [List.map_append]
    exact h.keys.append_right _
  · have := h.enc
    unfold PVec.push
    cases first <;> dsimp only <;> simp <;> omega
  · have hl := hp.length_eq
    have hs := h.sep
    rw [hl]
    unfold PVec.push
    cases first
    · dsimp only; simp; omega
    · dsimp only; simp; omega
  · have he : e ∈ m.tab ++ [(x, none)] := he
    have : e.1 ∈ m.vec.drop m.enc ++ [x] := by
      rcases List.mem_append.1 he with h1 | h1
      · exact List.mem_append_left _ (h.unset e h1 hn)
      · simp only [List.mem_singleton] at h1
        rw [h1]; simp
    exact hd.mem_iff.2 this

theorem putPref_new {ns p : Thing} : ∀ {l : List (Thing × Thing)}, (∀ e ∈ l, e.1.key ≠ ns.key) →
    putPref ns p l = l ++ [(ns, p)]
  | [], _ => rfl
  | e :: l, h => by
    rw [putPref, if_neg (by simpa using h e (by simp)), putPref_new fun x hx => h x (by simp [hx])]
    rfl

theorem ask_true {l : List Bool} (h : ∀ b ∈ l, b = true) : (ask l).1 = true ∧ ∀ b ∈ (ask l).2, b = true := by
  cases l with
  | nil => exact ⟨rfl, by simp [ask]⟩
  | cons b l => exact ⟨h b (by simp), fun x hx => h x (by simp [ask] at hx; simp [hx])⟩

/-- Requests of the table of prefixes succeed. -/
def PrefsMem (mem : Mem) : Prop := ∀ b ∈ mem.prefs, b = true

/-- What a call does to an index in order: it is in order afterwards, or the call fails and the
references are those to the contents. -/
def After (x : Option (St × Ret × Mem)) : Prop :=
  ∃ s r mem, x = some (s, r, mem) ∧ PrefsMem mem ∧ ((r = .ok ∧ Good s) ∨ (r = .errMem ∧ Owned s))

theorem not_has {β : Type} {tab : List (Thing × β)} {x : Thing} (h : ¬ has tab x = true) :
    ∀ e ∈ tab, e.1.key ≠ x.key := by
  intro e he hk
  exact h (List.any_eq_true.2 ⟨e, he, by simp [hk]⟩)

theorem addNs_after {s : St} (h : Good s) {mem : Mem} (hm : PrefsMem mem) (ns : Thing) (p : Option Thing) :
    After (addNs s mem ns p) := by
  unfold addNs PVec.add
  rw [if_neg (by simp [h.alive_ns])]
  by_cases hh : has s.ns.tab ns = true
  · rw [if_pos hh]
    exact ⟨_, _, _, rfl, hm, .inl ⟨rfl, h⟩⟩
  rw [if_neg hh]
  dsimp only
  cases ht : (ask mem.tabs).1 with
  | false =>
    simp only [Bool.not_false, if_true]
    exact ⟨_, _, _, rfl, hm, .inr ⟨rfl, h.owned⟩⟩
  | true =>
    simp only [Bool.not_true, Bool.false_eq_true, if_false]
    cases hv : (ask mem.vecs).1 with
    | false =>
      simp only [Bool.not_false, if_true]
      exact ⟨_, _, _, rfl, hm, .inr ⟨rfl, h.owned⟩⟩
    | true =>
      simp only [Bool.not_true, Bool.false_eq_true, if_false]
      have hf := fine_push h.ns ns p.isSome
      have hp := push_perm { s.ns with tab := s.ns.tab ++ [(ns, none)] } ns p.isSome
      have hmem : ∀ e ∈ s.prefs, e.1 ∈ ({ s.ns with tab := s.ns.tab ++ [(ns, none)] }.push ns p.isSome).vec :=
        fun e he => hp.mem_iff.2 (List.mem_append_left _ (h.prefs e he))
      have hown := h.owned
      unfold Owned at hown
      cases p with
      | none =>
        refine ⟨_, _, _, rfl, hm, .inl ⟨rfl, ?_, hf, h.ids, hmem⟩⟩
        unfold Owned
        dsimp only
        refine ((hown.cons ns.addr)).trans ?_
        refine List.Perm.trans ?_ (((List.Perm.refl _).append (hp.symm.map (·.addr))).append (.refl _))
        simp only [List.map_append, List.map_cons, List.map_nil, List.append_assoc, List.cons_append, List.nil_append]
        exact (List.perm_middle.symm).trans
          (List.Perm.append_left _ List.perm_middle.symm) |>.trans (.refl _)
      | some p =>
        dsimp only
        rw [if_neg (by simp [h.alive_prefs])]
        obtain ⟨hq, hq'⟩ := ask_true hm
        rw [if_neg (by simp [hq])]
        have hnew : ∀ e ∈ s.prefs, e.1.key ≠ ns.key := by
          intro e he
          have h1 := h.ns.keys.mem_iff.2 (h.prefs e he)
          obtain ⟨t, ht, h2⟩ := List.mem_map.1 h1
          rw [← h2]
          exact not_has hh t ht
        rw [putPref_new hnew]
        refine ⟨_, _, _, rfl, hq', .inl ⟨rfl, ?_, hf, h.ids, ?_⟩⟩
        · unfold Owned
          dsimp only
          refine ((hown.cons p.addr).cons ns.addr).trans ?_
          refine List.Perm.trans ?_ (((List.Perm.refl _).append (hp.symm.map (·.addr))).append (.refl _))
          simp only [List.map_append, List.map_cons, List.map_nil, List.append_assoc, List.cons_append, List.nil_append]
          refine List.Perm.trans (.swap ..) ?_
          refine List.Perm.trans (.cons _ ?_) List.perm_middle.symm
          exact (List.perm_middle.symm).trans (List.Perm.append_left _ List.perm_middle.symm)
        · intro e he
          rcases List.mem_append.1 he with h1 | h1
          · exact hmem e h1
          · simp only [List.mem_singleton] at h1
            rw [h1]; exact hp.mem_iff.2 (by simp)

theorem addId_after {s : St} (h : Good s) {mem : Mem} (hm : PrefsMem mem) (x : Thing) (b : Bool) :
    After (addId s mem x b) := by
  unfold addId PVec.add
  rw [if_neg (by simp [h.alive_ids])]
  by_cases hh : has s.ids.tab x = true
  · rw [if_pos hh]
    exact ⟨_, _, _, rfl, hm, .inl ⟨rfl, h⟩⟩
  rw [if_neg hh]
  dsimp only
  cases ht : (ask mem.tabs).1 with
  | false =>
    simp only [Bool.not_false, if_true]
    exact ⟨_, _, _, rfl, hm, .inr ⟨rfl, h.owned⟩⟩
  | true =>
    simp only [Bool.not_true, Bool.false_eq_true, if_false]
    cases hv : (ask mem.vecs).1 with
    | false =>
      simp only [Bool.not_false, if_true]
      exact ⟨_, _, _, rfl, hm, .inr ⟨rfl, h.owned⟩⟩
    | true =>
      simp only [Bool.not_true, Bool.false_eq_true, if_false]
      have hf := fine_push h.ids x b
      have hp := push_perm { s.ids with tab := s.ids.tab ++ [(x, none)] } x b
      have hown := h.owned
      unfold Owned at hown
      refine ⟨_, _, _, rfl, hm, .inl ⟨rfl, ?_, h.ns, hf, h.prefs⟩⟩
      unfold Owned
      dsimp only
      refine ((hown.cons x.addr)).trans ?_
      refine List.Perm.trans ?_ ((List.Perm.refl _).append (hp.symm.map (·.addr)))
      simp only [List.map_append, List.map_cons, List.map_nil]
      rw [← List.append_assoc]
      exact (List.perm_append_singleton ..).symm

theorem addIri_after {s : St} (h : Good s) {mem : Mem} (hm : PrefsMem mem) (i ns : Thing) :
    After (addIri s mem i ns) := by
  unfold addIri
  obtain ⟨s', r, mem', h1, h2, h3⟩ := addNs_after h hm ns none
  rw [h1]
  dsimp only
  rcases h3 with ⟨rfl, h4⟩ | ⟨rfl, h4⟩
  · rw [if_pos rfl]; exact addId_after h4 h2 i true
  · rw [if_neg (by simp)]; exact ⟨_, _, _, rfl, h2, .inr ⟨rfl, h4⟩⟩

theorem setVal_keys (tab : List (Thing × Option Nat)) (x : Thing) (i : Nat) :
    (setVal tab x i).map (·.1) = tab.map (·.1) := by
  unfold setVal
  rw [List.map_map]
  apply List.map_congr_left
  intro e _
  dsimp only [Function.comp]
  split <;> rfl

theorem has_setVal (tab : List (Thing × Option Nat)) (x y : Thing) (i : Nat) :
    has (setVal tab x i) y = has tab y := by
  have h : ∀ t : List (Thing × Option Nat), has t y = (t.map (·.1)).any fun z => z.key == y.key := by
    intro t; unfold has; rw [List.any_map]; rfl
  rw [h, h, setVal_keys]

theorem syncLoop_spec : ∀ (xs : List Thing) (i : Nat) (tab : List (Thing × Option Nat)),
    (∀ x ∈ xs, has tab x = true) →
    ∃ t, syncLoop tab i xs = some t ∧ t.map (·.1) = tab.map (·.1) ∧
      ∀ e ∈ t, e.2 = none → e ∈ tab ∧ ∀ x ∈ xs, e.1.key ≠ x.key
  | [], i, tab, _ => ⟨tab, rfl, rfl, fun e he _ => ⟨he, by simp⟩⟩
  | x :: xs, i, tab, h => by
    rw [syncLoop, if_pos (h x (by simp))]
    obtain ⟨t, h1, h2, h3⟩ := syncLoop_spec xs (i + 1) (setVal tab x i)
      fun y hy => by rw [has_setVal]; exact h y (by simp [hy])
    refine ⟨t, h1, h2.trans (setVal_keys ..), fun e he hn => ?_⟩
    obtain ⟨h4, h5⟩ := h3 e he hn
    unfold setVal at h4
    obtain ⟨e', h6, h7⟩ := List.mem_map.1 h4
    by_cases hk : (e'.1.key == x.key) = true
    · rw [if_pos hk] at h7
      rw [← h7] at hn
      cases hn
    · rw [if_neg hk] at h7
      subst h7
      refine ⟨h6, fun y hy => ?_⟩
      rcases List.mem_cons.1 hy with rfl | hy
      · simpa using hk
      · exact h5 y hy

theorem sync_fine {own : List Nat} {m : PVec} (h : Fine m) (ha : alive own m.tab = true) :
    ∃ t, m.sync own = some { m with tab := t, enc := m.vec.length, sep := m.vec.length } ∧
      t.map (·.1) = m.tab.map (·.1) ∧ ∀ e ∈ t, e.2 ≠ none := by
  obtain ⟨t, h1, h2, h3⟩ := syncLoop_spec (m.vec.drop m.enc) m.enc m.tab (by
    intro x hx
    obtain ⟨e, he, hx⟩ := List.mem_map.1 (h.keys.mem_iff.2 (List.mem_of_mem_drop hx))
    exact List.any_eq_true.2 ⟨e, he, by simp [hx]⟩)
  refine ⟨t, ?_, h2, fun e he hn => ?_⟩
  · unfold PVec.sync
    rw [if_neg (by simp [ha]), h1]
  · obtain ⟨h4, h5⟩ := h3 e he hn
    exact h5 e.1 (h.unset e h4 hn) rfl

theorem fine_synced {m : PVec} (h : Fine m) {t : List (Thing × Option Nat)} (h1 : t.map (·.1) = m.tab.map (·.1))
    (h2 : ∀ e ∈ t, e.2 ≠ none) : Fine { m with tab := t, enc := m.vec.length, sep := m.vec.length } :=
  ⟨by dsimp only; rw [h1]; exact h.keys, Nat.le_refl _, Nat.le_refl _, fun e he hn => absurd hn (h2 e he)⟩

theorem alive_keys {own : List Nat} {t u : List (Thing × Option Nat)} (h : t.map (·.1) = u.map (·.1))
    (ha : alive own u = true) : alive own t = true := by
  have hk : ∀ l : List (Thing × Option Nat), alive own l = (l.map (·.1)).all fun z => own.contains z.addr := by
    intro l; unfold alive; rw [List.all_map]; rfl
  rw [hk, h, ← hk]; exact ha

theorem looks_synced {own : List Nat} {m : PVec} (ha : alive own m.tab = true) (h : ∀ e ∈ m.tab, e.2 ≠ none)
    (xs : List Thing) : looks own m xs = true := by
  unfold looks
  rw [List.all_eq_true]
  intro x _
  unfold PVec.idx
  rw [if_neg (by simp [ha])]
  cases hf : m.tab.find? fun e => e.1.key == x.key with
  | none => rfl
  | some e =>
    have h1 := h e (List.mem_of_find?_eq_some hf)
    obtain ⟨k, v⟩ := e
    cases v with
    | none => exact absurd rfl h1
    | some v => rfl

theorem flush_good {s : St} (h : Good s) (nss ids : List Thing) : ∃ s', flush s nss ids = some s' ∧ Good s' := by
  obtain ⟨t, h1, h2, h3⟩ := sync_fine h.ns h.alive_ns
  obtain ⟨u, g1, g2, g3⟩ := sync_fine h.ids h.alive_ids
  unfold flush PVec.unencoded
  rw [if_pos ⟨h.ns.enc, h.ns.sep⟩, h1]
  dsimp only
  rw [if_neg (by simp [h.alive_prefs]), if_pos ⟨h.ids.enc, h.ids.sep⟩, g1]
  dsimp only
  rw [looks_synced (m := ⟨s.ns.vec, t, _, _⟩) (alive_keys h2 h.alive_ns) h3,
    looks_synced (m := ⟨s.ids.vec, u, _, _⟩) (alive_keys g2 h.alive_ids) g3]
  exact ⟨_, rfl, h.owned, fine_synced h.ns h2 h3, fine_synced h.ids g2 g3, h.prefs⟩

theorem fine_empty : Fine {} := ⟨.refl _, Nat.le_refl _, Nat.le_refl _, by simp⟩

theorem resetIds_owned {s : St} (h : Owned s) : ∃ s', resetIds s = some s' ∧ Owned s' ∧ s'.ids = {} ∧
    s'.ns = s.ns ∧ s'.prefs = s.prefs := by
  obtain ⟨o, h1, h2⟩ := releaseAll_perm (s.ids.vec.map (·.addr)) s.own
    (s.prefs.map (fun e => e.2.addr) ++ s.ns.vec.map (·.addr)) (h.trans List.perm_append_comm)
  unfold resetIds
  rw [h1]
  exact ⟨_, rfl, by unfold Owned; simpa using h2, rfl, rfl, rfl⟩

theorem deinitNs_owned {s : St} (h : Owned s) : ∃ s', deinitNs s = some s' ∧ Owned s' ∧ s'.ids = s.ids ∧
    s'.ns.vec = [] ∧ s'.prefs = [] := by
  unfold Owned at h
  rw [List.append_assoc] at h
  obtain ⟨o, h1, h2⟩ := releaseAll_perm _ s.own _ h
  obtain ⟨o', h3, h4⟩ := releaseAll_perm _ o _ h2
  unfold deinitNs
  rw [h1]
  dsimp only
  rw [h3]
  exact ⟨_, rfl, by unfold Owned; simpa using h4, rfl, rfl, rfl⟩

theorem addStd_after : ∀ (l : List (Thing × Thing)) {s : St}, Good s → ∀ {mem : Mem}, PrefsMem mem →
    After (addStd s mem l)
  | [], s, h, mem, hm => ⟨_, _, _, rfl, hm, .inl ⟨rfl, h⟩⟩
  | e :: l, s, h, mem, hm => by
    obtain ⟨s', r, mem', h1, h2, h3⟩ := addNs_after h hm e.1 (some e.2)
    rw [addStd, h1]
    dsimp only
    rcases h3 with ⟨rfl, h4⟩ | ⟨rfl, h4⟩
    · rw [if_pos rfl]; exact addStd_after l h4 h2
    · rw [if_neg (by simp)]; exact ⟨_, _, _, rfl, h2, .inr ⟨rfl, h4⟩⟩

theorem initNs_after (std : List (Thing × Thing)) {s : St} (h : Owned s) (hi : s.ids = {}) (hv : s.ns.vec = [])
    (hp : s.prefs = []) {mem : Mem} (hm : PrefsMem mem) : After (initNs std s mem) := by
  have hg : Good { s with ns := {}, prefs := [] } := by
    refine ⟨?_, fine_empty, by dsimp only; rw [hi]; exact fine_empty, by simp⟩
    unfold Owned at h ⊢
    rw [hv, hp] at h
    exact h
  unfold initNs
  obtain ⟨s', r, mem', h1, h2, h3⟩ := addStd_after std hg hm
  rw [h1]
  dsimp only
  rcases h3 with ⟨rfl, h4⟩ | ⟨rfl, h4⟩
  · rw [if_pos rfl]
    obtain ⟨t, g1, g2, g3⟩ := sync_fine h4.ns h4.alive_ns
    rw [g1]
    exact ⟨_, _, _, rfl, h2, .inl ⟨rfl, h4.owned, fine_synced h4.ns g2 g3, h4.ids, h4.prefs⟩⟩
  · rw [if_neg (by simp)]
    obtain ⟨s'', g1, g2, _⟩ := deinitNs_owned h4
    rw [g1]
    exact ⟨_, _, _, rfl, h2, .inr ⟨rfl, g2⟩⟩

theorem resetAll_after (std : List (Thing × Thing)) {s : St} (h : Owned s) {mem : Mem} (hm : PrefsMem mem) :
    After (reset std s mem true) := by
  obtain ⟨s1, h1, h2, h3, _, _⟩ := resetIds_owned h
  obtain ⟨s2, g1, g2, g3, g4, g5⟩ := deinitNs_owned h2
  unfold reset
  rw [h1]
  dsimp only
  rw [if_neg (by simp), g1]
  exact initNs_after std g2 (g3.trans h3) g4 g5 hm

theorem exec_after (std : List (Thing × Thing)) {s : St} (h : Good s) {mem : Mem} (hm : PrefsMem mem) (c : Call) :
    After (exec std s mem c) := by
  cases c with
  | addPrefix ns p => exact addNs_after h hm ns (some p)
  | addIri i ns => exact addIri_after h hm i ns
  | addAnon x => exact addId_after h hm x false
  | flush nss ids =>
    obtain ⟨s', h1, h2⟩ := flush_good h nss ids
    exact ⟨s', .ok, mem, by simp [exec, h1], hm, .inl ⟨rfl, h2⟩⟩
  | reset p =>
    cases p with
    | true => exact resetAll_after std h.owned hm
    | false =>
      obtain ⟨s1, h1, h2, h3, h4, h5⟩ := resetIds_owned h.owned
      refine ⟨s1, .ok, mem, by simp [exec, reset, h1], hm, .inl ⟨rfl, h2, ?_, ?_, ?_⟩⟩
      · rw [h4]; exact h.ns
      · rw [h3]; exact fine_empty
      · rw [h4, h5]; exact h.prefs

theorem run_prudent (std : List (Thing × Thing)) : ∀ (cs : List Call) {r : Ret} {s : St} {mem : Mem}, PrefsMem mem →
    (r = .ok ∧ Good s) ∨ (r = .errMem ∧ Owned s) → prudent std r s mem cs = true →
    ∃ s' rs, run std s mem cs = some (s', rs) ∧ Owned s'
  | [], r, s, mem, _, h, _ => ⟨s, [], rfl, by
      rcases h with ⟨_, h⟩ | ⟨_, h⟩
      · exact h.owned
      · exact h⟩
  | c :: l, r, s, mem, hm, h, hp => by
    have ha : After (exec std s mem c) := by
      rcases h with ⟨_, h⟩ | ⟨h1, h⟩
      · exact exec_after std h hm c
      · rw [prudent, Bool.and_eq_true, h1] at hp
        have hc : c = .reset true := by simpa using hp.1
        rw [hc]; exact resetAll_after std h hm
    obtain ⟨s', r', mem', h1, h2, h3⟩ := ha
    rw [prudent, h1, Bool.and_eq_true] at hp
    obtain ⟨s'', rs, g1, g2⟩ := run_prudent std l h2 h3 hp.2
    rw [run, h1]
    dsimp only
    rw [g1]
    exact ⟨_, _, rfl, g2⟩

theorem deinit_owned {s : St} (h : Owned s) : ∃ s', deinit s = some s' ∧ s'.own = [] := by
  obtain ⟨s1, h1, h2, h3, h4, h5⟩ := deinitNs_owned h
  obtain ⟨s2, g1, g2, g3, g4, g5⟩ := resetIds_owned h2
  unfold deinit
  rw [h1]
  refine ⟨s2, g1, ?_⟩
  unfold Owned at g2
  rw [g3, g4, g5, h4, h5] at g2
  exact g2.eq_nil

end Cowl.PIdx
