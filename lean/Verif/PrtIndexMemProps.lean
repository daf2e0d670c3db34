import Verif.PrtIndexMemLemmas
/-! # C82: memory of the index of the ProtocOWL encoder -/
namespace Cowl.PIdx

theorem keys_has (m : PVec) (x : Thing) : m.keys.has x.key = has m.tab x := by
  unfold Prt.PVec.has has PVec.keys
  rw [List.any_map]
  refine congrArg (m.tab.any ·) (funext fun e => ?_)
  rw [Bool.eq_iff_iff]
  simp [Function.comp]

theorem keys_push (m : PVec) (x : Thing) (first : Bool) (h : has m.tab x = false) :
    (({ m with tab := m.tab ++ [(x, none)] } : PVec).push x first).keys = m.keys.add x.key first := by
  unfold Prt.PVec.add
  rw [keys_has, h, if_neg (by simp)]
  unfold PVec.push PVec.keys
  cases first with
  | false => simp
  | true =>
    simp only [if_true, List.getElem?_map]
    cases hv : m.vec[m.sep]? <;> simp [List.map_set]

theorem keys_add {own : List Nat} {m m' : PVec} {mem mem' : Mem} {x : Thing} {first : Bool}
    (h : m.add own mem x first = .done m' mem') : m'.keys = m.keys.add x.key first := by
  unfold PVec.add at h
  split at h
  · cases h
  · split at h
    · cases h
    · rename_i hk
      dsimp only at h
      split at h
      · cases h
      · split at h
        · cases h
        · cases h
          exact keys_push m x first (by simpa using hk)

theorem keys_known {own : List Nat} {m : PVec} {mem mem' : Mem} {x : Thing} {first : Bool}
    (h : m.add own mem x first = .known mem') : m.keys.add x.key first = m.keys := by
  unfold PVec.add at h
  split at h
  · cases h
  · split at h
    · rename_i hk
      unfold Prt.PVec.add
      rw [keys_has, hk, if_pos rfl]
    · dsimp only at h
      split at h
      · cases h
      · split at h <;> cases h

theorem keys_setVal (tab : List (Thing × Option Nat)) (x : Thing) (i : Nat) :
    (setVal tab x i).map (fun e => (e.1.key, e.2)) = Prt.setVal (tab.map fun e => (e.1.key, e.2)) x.key i := by
  unfold setVal Prt.setVal
  rw [List.map_map, List.map_map]
  refine List.map_congr_left fun e _ => ?_
  by_cases h : e.1.key = x.key <;> simp [h]

theorem keys_loop : ∀ (l : List Thing) (tab t : List (Thing × Option Nat)) (i : Nat), syncLoop tab i l = some t →
    t.map (fun e => (e.1.key, e.2)) = Prt.syncLoop (tab.map fun e => (e.1.key, e.2)) i (l.map (·.key))
  | [], tab, t, i, h => by cases h; rfl
  | x :: l, tab, t, i, h => by
    rw [syncLoop] at h
    split at h
    · rw [keys_loop l _ t (i + 1) h, keys_setVal]; rfl
    · cases h

theorem keys_sync {own : List Nat} {m m' : PVec} (h : m.sync own = some m') : m'.keys = m.keys.sync := by
  unfold PVec.sync at h
  split at h
  · cases h
  · cases hl : syncLoop m.tab m.enc (m.vec.drop m.enc) with
    | none => rw [hl] at h; cases h
    | some t =>
      rw [hl] at h
      cases h
      unfold PVec.keys Prt.PVec.sync
      simp only [keys_loop _ _ _ _ hl, List.map_drop, List.length_map]

theorem keys_addNs {s s' : St} {mem mem' : Mem} {ns : Thing} {p : Option Thing} (h : addNs s mem ns p = some (s', .ok, mem')) :
    s'.ns.keys = s.ns.keys.add ns.key p.isSome ∧ s'.ids = s.ids := by
  unfold addNs at h
  cases ha : s.ns.add s.own mem ns p.isSome with
  | undef => rw [ha] at h; cases h
  | known m => rw [ha] at h; cases h; exact ⟨(keys_known ha).symm, rfl⟩
  | fails m m1 => rw [ha] at h; cases h
  | done m m1 =>
    rw [ha] at h
    cases p with
    | none => cases h; exact ⟨keys_add ha, rfl⟩
    | some p =>
      dsimp only at h
      split at h
      · cases h
      · split at h
        · cases h
        · cases h; exact ⟨keys_add ha, rfl⟩

theorem keys_addId {s s' : St} {mem mem' : Mem} {x : Thing} {b : Bool} (h : addId s mem x b = some (s', .ok, mem')) :
    s'.ids.keys = s.ids.keys.add x.key b ∧ s'.ns = s.ns := by
  unfold addId at h
  cases ha : s.ids.add s.own mem x b with
  | undef => rw [ha] at h; cases h
  | known m => rw [ha] at h; cases h; exact ⟨(keys_known ha).symm, rfl⟩
  | fails m m1 => rw [ha] at h; cases h
  | done m m1 => rw [ha] at h; cases h; exact ⟨keys_add ha, rfl⟩

theorem keys_addStd : ∀ (l : List (Thing × Thing)) {s s' : St} {mem mem' : Mem}, addStd s mem l = some (s', .ok, mem') →
    s'.ns.keys = l.foldl (fun (m : Prt.PVec Nat) e => m.add e.1.key true) s.ns.keys ∧ s'.ids = s.ids
  | [], s, s', mem, mem', h => by cases h; exact ⟨rfl, rfl⟩
  | e :: l, s, s', mem, mem', h => by
    rw [addStd] at h
    cases ha : addNs s mem e.1 (some e.2) with
    | none => rw [ha] at h; cases h
    | some y =>
      obtain ⟨t, r, m⟩ := y
      rw [ha] at h
      dsimp only at h
      by_cases hr : r = .ok
      · subst hr
        rw [if_pos rfl] at h
        obtain ⟨h1, h2⟩ := keys_addStd l h
        obtain ⟨h3, h4⟩ := keys_addNs ha
        exact ⟨by rw [h1, h3]; rfl, h2.trans h4⟩
      · rw [if_neg hr] at h
        cases h
        exact absurd rfl hr

theorem deinit_ids {s s' : St} (h : deinitNs s = some s') : s'.ids = s.ids := by
  unfold deinitNs at h
  split at h
  · cases h
  · split at h
    · cases h
    · cases h; rfl

end Cowl.PIdx

namespace Cowl
open PIdx

/-- C82 for callers that reset the index after a failure, if the table of prefixes can grow: whatever
else fails, nothing is used after it was released and every reference is given back. Missing from the
full statement: see `C82_fails`. -/
theorem C82_partial (std : List (Thing × Thing)) {mem : Mem} (hm : ∀ b ∈ mem.prefs, b = true) {cs : List Call}
    (hp : prudentLife std mem cs = true) : Clean std mem cs := by
  have h0 : Owned {} := .refl _
  obtain ⟨s, r, mem', h1, h2, h3⟩ := initNs_after std h0 rfl rfl rfl (mem := mem) hm
  unfold prudentLife at hp
  rw [h1] at hp
  obtain ⟨s', rs, g1, g2⟩ := run_prudent std cs h2 h3 hp
  obtain ⟨s'', k1, k2⟩ := deinit_owned g2
  unfold Clean life
  rw [h1]
  dsimp only
  rw [g1]
  dsimp only
  rw [k1]
  exact ⟨_, by simp [k2]; rfl⟩

/-- C82 with memory: all calls are possible in any order. -/
theorem C82_memory (std : List (Thing × Thing)) (cs : List Call) : Clean std {} cs := by
  have hadd : ∀ (own : List Nat) (m : PVec) (x : Thing) (b : Bool) (mem : Mem), mem = {} →
      (∃ m', m.add own mem x b = .done m' {}) ∨ m.add own mem x b = .known {} ∨ m.add own mem x b = .undef := by
    rintro own m x b _ rfl
    unfold PVec.add
    split
    · exact .inr (.inr rfl)
    · split
      · exact .inr (.inl rfl)
      · exact .inl ⟨_, rfl⟩
  have hns : ∀ s ns p x, addNs s {} ns p = some x → x.2 = (.ok, {}) := by
    intro s ns p x h
    unfold addNs at h
    rcases hadd s.own s.ns ns p.isSome {} rfl with ⟨m', h1⟩ | h1 | h1
    · rw [h1] at h
      cases p with
      | none => cases h; rfl
      | some p =>
        dsimp only at h
        split at h
        · cases h
        · cases h; rfl
    · rw [h1] at h; cases h; rfl
    · rw [h1] at h; cases h
  have hid : ∀ s y b x, addId s {} y b = some x → x.2 = (.ok, {}) := by
    intro s y b x h
    unfold addId at h
    rcases hadd s.own s.ids y b {} rfl with ⟨m', h1⟩ | h1 | h1
    · rw [h1] at h; cases h; rfl
    · rw [h1] at h; cases h; rfl
    · rw [h1] at h; cases h
  have hstd : ∀ l s x, addStd s {} l = some x → x.2 = (.ok, {}) := by
    intro l
    induction l with
    | nil => intro s x h; cases h; rfl
    | cons e l ih =>
      intro s x h
      rw [addStd] at h
      cases ha : addNs s {} e.1 (some e.2) with
      | none => rw [ha] at h; cases h
      | some y =>
        obtain ⟨s', r, mem⟩ := y
        have h1 := hns _ _ _ _ ha
        rw [ha] at h
        cases h1
        exact ih s' x h
  have hinit : ∀ s x, initNs std s {} = some x → x.2 = (.ok, {}) := by
    intro s x h
    unfold initNs at h
    cases ha : addStd { s with ns := {}, prefs := [] } {} std with
    | none => rw [ha] at h; cases h
    | some y =>
      obtain ⟨s', r, mem⟩ := y
      have h1 := hstd _ _ _ ha
      rw [ha] at h
      cases h1
      dsimp only at h
      rw [if_pos rfl, Option.map_eq_some_iff] at h
      obtain ⟨m, _, rfl⟩ := h
      rfl
  have hexec : ∀ s c x, exec std s {} c = some x → x.2 = (.ok, {}) := by
    intro s c x h
    cases c with
    | addPrefix ns p => exact hns _ _ _ _ h
    | addIri i ns =>
      simp only [exec, addIri] at h
      cases ha : addNs s {} ns none with
      | none => rw [ha] at h; cases h
      | some y =>
        obtain ⟨s', r, mem⟩ := y
        have h1 := hns _ _ _ _ ha
        rw [ha] at h
        cases h1
        exact hid _ _ _ _ h
    | addAnon y => exact hid _ _ _ _ h
    | flush nss ids =>
      rw [exec, Option.map_eq_some_iff] at h
      obtain ⟨m, _, rfl⟩ := h
      rfl
    | reset p =>
      simp only [exec, reset] at h
      cases ha : resetIds s with
      | none => rw [ha] at h; cases h
      | some s' =>
        rw [ha] at h
        dsimp only at h
        split at h
        · cases h; rfl
        · cases hb : deinitNs s' with
          | none => rw [hb] at h; cases h
          | some s'' => rw [hb] at h; exact hinit _ _ h
  have hpr : ∀ (l : List Call) s, prudent std .ok s {} l = true := by
    intro l
    induction l with
    | nil => intro s; rfl
    | cons c l ih =>
      intro s
      rw [prudent, Bool.and_eq_true]
      refine ⟨rfl, ?_⟩
      cases he : exec std s {} c with
      | none => rfl
      | some x =>
        obtain ⟨s', r', mem'⟩ := x
        have := hexec s c _ he
        cases this
        exact ih s'
  refine C82_partial std (by simp) ?_
  unfold prudentLife
  cases he : initNs std {} {} with
  | none => rfl
  | some x =>
    obtain ⟨s', r', mem'⟩ := x
    have := hinit _ _ he
    cases this
    exact hpr cs s'

/-- C82, what is in the index: a call that succeeds does what C33 says, however much memory failed
before. -/
theorem C82_values {std : List (Thing × Thing)} {s s' : St} {mem mem' : Mem} {c : Call}
    (h : exec std s mem c = some (s', .ok, mem')) : (s'.ns.keys, s'.ids.keys) = meant std (s.ns.keys, s.ids.keys) c := by
  cases c with
  | addPrefix ns p =>
    obtain ⟨h1, h2⟩ := keys_addNs h
    rw [h1, h2]; rfl
  | addIri i ns =>
    simp only [exec, addIri] at h
    cases ha : addNs s mem ns none with
    | none => rw [ha] at h; cases h
    | some y =>
      obtain ⟨t, r, m⟩ := y
      rw [ha] at h
      dsimp only at h
      by_cases hr : r = .ok
      · subst hr
        rw [if_pos rfl] at h
        obtain ⟨h1, h2⟩ := keys_addNs ha
        obtain ⟨h3, h4⟩ := keys_addId h
        rw [h3, h4, h1, h2]; rfl
      · rw [if_neg hr] at h
        cases h
  | addAnon x =>
    obtain ⟨h1, h2⟩ := keys_addId h
    rw [h1, h2]; rfl
  | flush nss ids =>
    rw [exec, Option.map_eq_some_iff] at h
    obtain ⟨t, ht, e⟩ := h
    cases e
    unfold flush PVec.unencoded at ht
    by_cases h1 : s.ns.enc ≤ s.ns.sep ∧ s.ns.sep ≤ s.ns.vec.length
    · by_cases h2 : s.ids.enc ≤ s.ids.sep ∧ s.ids.sep ≤ s.ids.vec.length
      · rw [if_pos h1, if_pos h2] at ht
        cases ha : s.ns.sync s.own with
        | none => rw [ha] at ht; cases ht
        | some ns =>
          cases hb : s.ids.sync s.own with
          | none => rw [ha, hb] at ht; dsimp only at ht; split at ht <;> cases ht
          | some i =>
            rw [ha, hb] at ht
            dsimp only at ht
            split at ht
            · cases ht
            · split at ht
              · cases ht
                rw [meant, ← keys_sync ha, ← keys_sync hb]
              · cases ht
      · rw [if_pos h1, if_neg h2] at ht
        cases ha : s.ns.sync s.own with
        | none => rw [ha] at ht; cases ht
        | some ns => rw [ha] at ht; dsimp only at ht; split at ht <;> cases ht
    · rw [if_neg h1] at ht; cases ht
  | reset p =>
    simp only [exec, reset] at h
    cases ha : resetIds s with
    | none => rw [ha] at h; cases h
    | some t =>
      have ht : t.ids = {} ∧ t.ns = s.ns := by
        unfold resetIds at ha
        split at ha
        · cases ha
        · cases ha; exact ⟨rfl, rfl⟩
      rw [ha] at h
      dsimp only at h
      cases p with
      | false =>
        rw [if_pos (by rfl)] at h
        cases h
        rw [ht.1, ht.2]; rfl
      | true =>
        rw [if_neg (by simp)] at h
        cases hb : deinitNs t with
        | none => rw [hb] at h; cases h
        | some t2 =>
          rw [hb] at h
          dsimp only at h
          have h2 := deinit_ids hb
          unfold initNs at h
          cases hd : addStd { t2 with ns := {}, prefs := [] } mem std with
          | none => rw [hd] at h; cases h
          | some y =>
            obtain ⟨t3, r, m⟩ := y
            rw [hd] at h
            dsimp only at h
            by_cases hr : r = .ok
            · subst hr
              rw [if_pos rfl, Option.map_eq_some_iff] at h
              obtain ⟨n, hn, e⟩ := h
              cases e
              obtain ⟨h3, h4⟩ := keys_addStd std hd
              simp only [keys_sync hn, h3, h4, h2, ht.1]
              rfl
            · rw [if_neg hr, Option.map_eq_some_iff] at h
              obtain ⟨n, hn, e⟩ := h
              cases e

/-! ## Samples -/

/-- A thing, by its address. -/
def thing (a : Nat) : Thing := ⟨a, a⟩

/-- Two standard prefixes. -/
def idxStd : List (Thing × Thing) := [(thing 1, thing 2), (thing 3, thing 4)]

/-- Two documents, the second of which is abandoned as there is no room for an individual. -/
def idxCalls : List Call :=
  [.reset true, .addPrefix (thing 10) (thing 11), .addIri (thing 20) (thing 10), .addAnon (thing 21),
   .addIri (thing 22) (thing 12), .flush [thing 10] [thing 20, thing 99], .reset true,
   .addIri (thing 20) (thing 10), .addAnon (thing 21), .reset true]

/-- Memory for the first 13 items of vectors. -/
def idxMem : Mem := { vecs := List.replicate 13 true ++ [false] }

/-- The calls are prudent, and memory runs out in the second document. -/
example : prudentLife idxStd idxMem idxCalls = true ∧ (∀ b ∈ idxMem.prefs, b = true) ∧
    life idxStd idxMem idxCalls = some ([.ok, .ok, .ok, .ok, .ok, .ok, .ok, .ok, .ok, .errMem, .ok], []) :=
  ⟨by decide +kernel, by decide, by decide +kernel⟩

/-- A call that succeeds after one that failed. -/
example : ((run idxStd {} { tabs := [true, true, false] } [.reset true, .addAnon ⟨20, 20⟩, .addIri ⟨21, 21⟩ ⟨1, 1⟩]).map fun x =>
    (x.2, x.1.ids.keys.vec, x.1.ns.keys.vec)) = some ([.ok, .errMem, .ok], [21], [1, 3]) := by decide +kernel

/-- C82 is false as stated.
* If a prefix cannot be stored, its namespace is released when the index is, though it was not retained;
  when the index is made this befalls the namespaces of the vocabularies.
* If there is no room in the vector, the table has the name, without a position and without a reference
  to it.
* If a reset fails, what is added afterwards is not where it is looked for. -/
theorem C82_fails :
    (∀ cs, ¬ Clean idxStd { prefs := [false] } cs) ∧
    ¬ Clean idxStd { prefs := [true, true, false] } [.addPrefix (thing 10) (thing 11)] ∧
    ((run idxStd {} { vecs := [true, true, false] } [.reset true, .addAnon (thing 20)]).map fun x =>
        (x.2, x.1.ids.tab, x.1.ids.vec, x.1.own.contains 20)) =
      some ([.ok, .errMem], [(thing 20, none)], [], false) ∧
    ¬ Clean idxStd { vecs := [true, true, false] } [.addAnon (thing 20), .flush [] [thing 20]] ∧
    ((run idxStd {} { tabs := [true, false] } [.reset true, .addPrefix (thing 10) (thing 11)]).map fun x =>
        (x.2, x.1.ns.vec.length, x.1.ns.sep)) = some ([.errMem, .ok], 1, 2) ∧
    ¬ Clean idxStd { tabs := [true, false] } [.addPrefix (thing 10) (thing 11), .flush [] []] := by
  have hn : ∀ {mem : Mem} {cs : List Call}, life idxStd mem cs = none → ¬ Clean idxStd mem cs := by
    rintro mem cs h ⟨rs, h1⟩
    rw [h] at h1; cases h1
  refine ⟨fun cs => hn ?_, hn (by decide +kernel), by decide +kernel, hn (by decide +kernel),
    by decide +kernel, hn (by decide +kernel)⟩
  have h : initNs idxStd {} { prefs := [false] } = none := by decide +kernel
  unfold life
  rw [h]

end Cowl
