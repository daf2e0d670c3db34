import Verif.PrefixOomSpec
import Verif.PrefixMapLemmas
/-! # Lemmas about prefix maps when memory runs out -/
namespace Cowl.PrefixOom
open Cowl.Prefix Cowl.PrefixSpec

theorem putAll_spec : ∀ (f : Fwd) (mem : List Bool) (r : Rev),
    (∃ g : Fwd, (∀ e ∈ g, e ∈ f) ∧ (putAll mem f r).1 = g.foldl (fun r e => revPut e.1 e.2 r) r) ∧
    ((putAll mem f r).2.1 = true → (putAll mem f r).1 = f.foldl (fun r e => revPut e.1 e.2 r) r)
  | [], mem, r => ⟨⟨[], by simp, rfl⟩, fun _ => rfl⟩
  | e :: f, mem, r => by
    rw [putAll]
    split
    · obtain ⟨⟨g, h1, h2⟩, h3⟩ := putAll_spec f (ask mem).2 (revPut e.1 e.2 r)
      refine ⟨⟨e :: g, fun x hx => ?_, by rw [h2]; rfl⟩, fun h => by rw [h3 h]; rfl⟩
      rcases List.mem_cons.1 hx with h | h
      · simp [h]
      · simp [h1 x h]
    · exact ⟨⟨[], by simp, rfl⟩, fun h => by cases h⟩

/-- What asking for the reverse table does, whether it succeeds or not. -/
theorem update_oom (m : OMap) (mem : List Bool) :
    (m.update mem).1.map.fwd = m.map.fwd ∧
    ((m.update mem).2.1 = true → (m.update mem).1.map = m.map.updateReverse) ∧
    ∀ {c : Prop} {a : Abs}, Inv c m.map a → Inv c (m.update mem).1.map a := by
  unfold OMap.update
  cases hd : m.map.dirty with
  | false =>
    simp only [Bool.not_false, if_true]
    exact ⟨trivial, fun _ => by simp [PMap.updateReverse, hd], fun h => h⟩
  | true =>
    simp only [Bool.not_true, Bool.false_eq_true, if_false]
    obtain ⟨⟨g, h1, h2⟩, h3⟩ := putAll_spec m.map.fwd mem m.map.rev
    refine ⟨trivial, fun h => ?_, fun {c a} hi => ?_⟩
    · simp [PMap.updateReverse, hd, h3 h, h]
    · obtain ⟨g1, g2, _, _⟩ := fold_spec g m.map.rev hi.revDistinct
      refine ⟨hi.distinct, by dsimp only; rw [h2]; exact g1, hi.mean, fun h => ?_, fun hc n k hk => ?_⟩
      · dsimp only at h ⊢
        rw [h3 (by simpa using h)]
        exact (fold_spec m.map.fwd m.map.rev hi.revDistinct).2.2.2
      · dsimp only at hk ⊢
        rw [h2] at hk
        rcases g2 n k hk with h | h
        · exact hi.sound hc n k h
        · exact h1 _ h

theorem revTable_oom (m : OMap) (mem : List Bool) :
    (m.revTable mem).1.map.fwd = m.map.fwd ∧
    ((m.revTable mem).2.1 = true → (m.revTable mem).1.map = m.map.updateReverse) ∧
    ∀ {c : Prop} {a : Abs}, Inv c m.map a → Inv c (m.revTable mem).1.map a := by
  unfold OMap.revTable
  split
  · exact update_oom m mem
  · split
    · exact update_oom { m with hasRev := true } _
    · exact ⟨rfl, (fun h => absurd h (by simp)), fun h => h⟩

theorem add_noErr (m : PMap) (p : SRef) (n : Str) (ow : Bool) :
    (m.add p n ow).2 = .ok ∨ (m.add p n ow).2 = .no := by
  unfold PMap.add
  cases fwdFind p.txt m.fwd with
  | none => exact .inl rfl
  | some e => cases ow <;> simp

/-- Registering fails and leaves everything as it was, or succeeds as if there were memory. -/
theorem add_oom (m : OMap) (mem : List Bool) (p : SRef) (n : Str) (ow : Bool) :
    ((m.add mem p n ow).2.1 = .errMem ∧ (m.add mem p n ow).1 = m) ∨
    ((m.add mem p n ow).2.1 ≠ .errMem ∧ (m.add mem p n ow).1.map = (m.map.add p n ow).1 ∧
      (m.add mem p n ow).2.1 = (m.map.add p n ow).2) := by
  unfold OMap.add
  dsimp only
  split
  · exact .inl ⟨rfl, rfl⟩
  · split
    · exact .inl ⟨rfl, rfl⟩
    · refine .inr ⟨?_, rfl, rfl⟩
      rcases add_noErr m.map p n ow with h | h <;> simp [h]

theorem isErr_add {m : OMap} {mem : List Bool} {p : SRef} {n : Str} {ow : Bool} :
    (m.add mem p n ow).2.1.isErr = true ↔ (m.add mem p n ow).2.1 = .errMem := by
  rcases add_oom m mem p n ow with ⟨h, _⟩ | ⟨h, _, h2⟩
  · simp [h, Ret.isErr]
  · rcases add_noErr m.map p n ow with h3 | h3 <;> simp [h2, h3, Ret.isErr]

/-- Merging does the first of the entries; all of them unless it fails. -/
theorem mergeLoop_oom (ow : Bool) : ∀ (src : Fwd) (m : OMap) (mem : List Bool) (ret : Ret), ret ≠ .errMem →
    ((mergeLoop ow src m mem ret).2 = .errMem ∧
      ∃ k, k < src.length ∧ (mergeLoop ow src m mem ret).1.map = (Prefix.mergeLoop ow (src.take k) m.map ret).1) ∨
    ((mergeLoop ow src m mem ret).2 ≠ .errMem ∧
      (mergeLoop ow src m mem ret).1.map = (Prefix.mergeLoop ow src m.map ret).1 ∧
      (mergeLoop ow src m mem ret).2 = (Prefix.mergeLoop ow src m.map ret).2)
  | [], m, mem, ret, h => .inr ⟨h, rfl, rfl⟩
  | e :: src, m, mem, ret, h => by
    rw [mergeLoop]
    split
    · rename_i he
      have he := isErr_add.1 he
      rcases add_oom m mem e.1 e.2 ow with ⟨_, h2⟩ | ⟨h1, _⟩
      · exact .inl ⟨he, 0, by simp, by rw [h2]; rfl⟩
      · exact absurd he h1
    · rename_i he
      rcases add_oom m mem e.1 e.2 ow with ⟨h1, _⟩ | ⟨h1, h2, h3⟩
      · exact absurd (isErr_add.2 h1) he
      · rcases mergeLoop_oom ow src (m.add mem e.1 e.2 ow).1 (m.add mem e.1 e.2 ow).2.2
          (if (m.add mem e.1 e.2 ow).2.1 = .ok then .ok else ret) (by split <;> simp [h]) with
          ⟨g1, k, g2, g3⟩ | ⟨g1, g2, g3⟩
        · refine .inl ⟨g1, k + 1, by simpa using g2, ?_⟩
          rw [g3, h2, h3, List.take_succ_cons, Prefix.mergeLoop]
        · refine .inr ⟨g1, ?_, ?_⟩
          · rw [g2, h2, h3, Prefix.mergeLoop]
          · rw [g3, h2, h3, Prefix.mergeLoop]

theorem distinct_take {f : Fwd} (h : Distinct f) (k : Nat) : Distinct (f.take k) :=
  List.Pairwise.sublist (List.take_sublist k f) h

theorem mergeLoop_noErr (ow : Bool) : ∀ (src : Fwd) (m : PMap) (ret : Ret), ret = .ok ∨ ret = .no →
    (Prefix.mergeLoop ow src m ret).2 = .ok ∨ (Prefix.mergeLoop ow src m ret).2 = .no
  | [], _, _, h => h
  | e :: src, m, ret, h => by
    rw [Prefix.mergeLoop]
    exact mergeLoop_noErr ow src _ _ (by split <;> simp [h])

theorem registerLoop_oom : ∀ (l : List ((Str × Str) × Nat)) (m : OMap) (mem : List Bool) {r},
    registerLoop l m mem = some r →
    r.1.map = l.foldl (fun m e => (m.add ⟨e.2, e.1.1⟩ e.1.2 false).1) m.map
  | [], _, _, r, h => by cases h; rfl
  | e :: l, m, mem, r, h => by
    rw [registerLoop] at h
    split at h
    · cases h
    · rename_i he
      rcases add_oom m mem ⟨e.2, e.1.1⟩ e.1.2 false with ⟨h1, _⟩ | ⟨_, h2, _⟩
      · exact absurd (isErr_add.2 h1) he
      · rw [registerLoop_oom l _ _ h, h2]; rfl

/-- A map is created whole or not at all. -/
theorem create_oom {mem : List Bool} {ks : List Nat} {dflt : Fwd} {m : OMap}
    (h : create mem ks dflt = some m) : m.map = Prefix.create ks dflt := by
  unfold create at h
  split at h
  · cases h
  split at h
  · cases h
  split at h
  · cases h
  · rename_i m' mem' hr
    dsimp only at h
    split at h
    · cases h
    · rename_i he
      cases h
      have h1 := registerLoop_oom _ _ _ hr
      dsimp only at h1
      rcases mergeLoop_oom false dflt m' mem' .no (by simp) with ⟨h2, _⟩ | ⟨_, h2, _⟩
      · exact absurd (by rw [OMap.merge, h2]; rfl) he
      · rw [OMap.merge, h2, h1]; rfl

/-- Unregistering a prefix, without failure. -/
theorem removePrefix_ok {m : OMap} {mem : List Bool} {p : Str} (h : (m.removePrefix mem p).2 ≠ .errMem) :
    (m.removePrefix mem p).1.map = (m.map.removePrefix p).1 ∧
    (m.removePrefix mem p).2 = (m.map.removePrefix p).2 := by
  unfold OMap.removePrefix at h ⊢
  unfold PMap.removePrefix
  cases hf : fwdFind p m.map.fwd with
  | none => exact ⟨rfl, rfl⟩
  | some e =>
    obtain ⟨k, n⟩ := e
    rw [hf] at h
    dsimp only at h ⊢
    obtain ⟨_, h2, _⟩ :=
      revTable_oom { m with map := { m.map with fwd := fwdErase p m.map.fwd } } mem
    generalize OMap.revTable _ mem = r at *
    cases hr : r.2.1 with
    | false => rw [hr] at h; exact absurd rfl h
    | true =>
      have h2 := h2 hr
      simp only [Bool.not_true, Bool.false_eq_true, if_false]
      rw [h2]
      dsimp only
      cases revFind n (PMap.updateReverse ⟨fwdErase p m.map.fwd, m.map.rev, m.map.dirty⟩).rev with
      | none => exact ⟨h2, rfl⟩
      | some k' =>
        dsimp only
        split
        · exact ⟨rfl, rfl⟩
        · exact ⟨h2, rfl⟩

/-- Unregistering a prefix, with failure: the prefix was registered, and is not any longer. -/
theorem removePrefix_err {m : OMap} {mem : List Bool} {p : Str} {a : Abs} (hi : Inv False m.map a)
    (h : (m.removePrefix mem p).2 = .errMem) :
    Inv False (m.removePrefix mem p).1.map (a.removePrefix p) ∧ a p ≠ none := by
  have hm := hi.mean p
  rw [← fwdFind_meaning] at hm
  unfold OMap.removePrefix at h ⊢
  cases hf : fwdFind p m.map.fwd with
  | none => rw [hf] at h; cases h
  | some e =>
    obtain ⟨k, n⟩ := e
    rw [hf] at h hm
    dsimp only at h ⊢
    refine ⟨?_, by rw [← hm]; simp⟩
    have he : Inv False ({ m with map := { m.map with fwd := fwdErase p m.map.fwd } } : OMap).map
        (a.removePrefix p) :=
      ⟨distinct_erase hi.distinct, hi.revDistinct,
        fun q => by dsimp only; rw [meaning_erase hi.distinct, hi.mean]; rfl,
        fun hd e he => hi.covers hd e ((mem_erase hi.distinct e).1 he).1, fun f => f.elim⟩
    have h3 := (revTable_oom { m with map := { m.map with fwd := fwdErase p m.map.fwd } } mem).2.2 he
    generalize OMap.revTable _ mem = r at *
    cases hr : r.2.1 with
    | false => exact h3
    | true =>
      rw [hr] at h
      simp only [Bool.not_true, Bool.false_eq_true, if_false] at h
      cases hv : revFind n r.1.map.rev with
      | none => rw [hv] at h; cases h
      | some k' =>
        rw [hv] at h
        dsimp only at h
        split at h <;> cases h

/-- Unregistering a namespace, without failure. -/
theorem removeNs_ok {m : OMap} {mem : List Bool} {n : Str} (h : (m.removeNs mem n).2 ≠ .errMem) :
    (m.removeNs mem n).1.map = (m.map.removeNs n).1 ∧
    (m.removeNs mem n).2 = (m.map.removeNs n).2 := by
  unfold OMap.removeNs at h ⊢
  unfold PMap.removeNs
  dsimp only at h ⊢
  obtain ⟨_, h2, _⟩ :=
    revTable_oom { m with map := { m.map with fwd := m.map.fwd.filter fun e => ¬ e.2 = n } } mem
  generalize OMap.revTable _ mem = r at *
  cases hr : r.2.1 with
  | false => rw [hr] at h; exact absurd rfl h
  | true =>
    have h2 := h2 hr
    simp only [Bool.not_true, Bool.false_eq_true, if_false]
    rw [h2]
    exact ⟨rfl, trivial⟩

/-- Unregistering a namespace, with failure: its prefixes are gone. -/
theorem removeNs_err {m : OMap} {mem : List Bool} {n : Str} {a : Abs} (hi : Inv False m.map a)
    (h : (m.removeNs mem n).2 = .errMem) :
    Inv False (m.removeNs mem n).1.map (a.removeNs n) := by
  unfold OMap.removeNs at h ⊢
  dsimp only at h ⊢
  have he : Inv False ({ m with map := { m.map with fwd := m.map.fwd.filter fun e => ¬ e.2 = n } } : OMap).map
      (a.removeNs n) :=
    ⟨hi.distinct.sublist List.filter_sublist, hi.revDistinct,
      fun q => by dsimp only; rw [meaning_filter hi.distinct, hi.mean]; rfl,
      fun hd e he => hi.covers hd e (List.mem_filter.1 he).1, fun f => f.elim⟩
  have h3 := (revTable_oom
    { m with map := { m.map with fwd := m.map.fwd.filter fun e => ¬ e.2 = n } } mem).2.2 he
  generalize OMap.revTable _ mem = r at *
  cases hr : r.2.1 with
  | false => exact h3
  | true =>
    rw [hr] at h
    simp only [Bool.not_true, Bool.false_eq_true, if_false] at h
    split at h <;> cases h

theorem inv_weak {c : Prop} {m : PMap} {a : Abs} (h : Inv c m a) : Inv False m a :=
  ⟨h.distinct, h.revDistinct, h.mean, h.covers, fun f => f.elim⟩

theorem inv_own {c : Prop} {m : PMap} {a : Abs} (h : Inv c m a) : Inv c m m.getNs :=
  inv_congr h fun q => by rw [getNs_meaning, h.mean]

theorem registers_take {src : Fwd} {k : Nat} {p n : Str} (h : Registers (src.take k) p n) :
    Registers src p n := by
  obtain ⟨e, h1, h2⟩ := h
  exact ⟨e, List.mem_of_mem_take h1, h2⟩

theorem inv_reaches_oom {c : Prop} {m : OMap} {a : Abs} (h : Reaches c m a) : Inv c m.map a := by
  induction h with
  | create mem ks dflt hk hd he => rw [create_oom he]; exact inv_create ks dflt hk hd
  | @add m a mem p n ow _ he hc ih =>
    rcases add_oom m mem p n ow with ⟨h1, _⟩ | ⟨_, h2, _⟩
    · exact absurd h1 he
    · rw [h2]; exact (inv_add ih p n ow hc).1
  | @addFails m a mem p n ow _ he ih =>
    rcases add_oom m mem p n ow with ⟨_, h2⟩ | ⟨h1, _⟩
    · rw [h2]; exact ih
    · exact absurd he h1
  | removePrefix mem p _ he ih => rw [(removePrefix_ok he).1]; exact (inv_removePrefix ih p).1
  | removePrefixFails mem p _ hn he ih =>
    have h := inv_own (removePrefix_err (inv_weak ih) he).1
    exact ⟨h.distinct, h.revDistinct, h.mean, h.covers, fun hc => absurd hc hn⟩
  | removeNs mem n _ he ih => rw [(removeNs_ok he).1]; exact (inv_removeNs ih n).1
  | removeNsFails mem n _ hn he ih =>
    have h := inv_own (removeNs_err (inv_weak ih) he)
    exact ⟨h.distinct, h.revDistinct, h.mean, h.covers, fun hc => absurd hc hn⟩
  | @merge m a mem src ow _ hd he hc ih =>
    rcases mergeLoop_oom ow src m mem .no (by simp) with ⟨h1, _⟩ | ⟨_, h2, _⟩
    · exact absurd h1 he
    · rw [OMap.merge, h2]; exact (inv_mergeLoop ow src _ _ .no ih hd hc).1
  | @mergeFails m a mem src ow _ hd he hc ih =>
    rcases mergeLoop_oom ow src m mem .no (by simp) with ⟨_, k, _, h2⟩ | ⟨h1, _⟩
    · refine inv_own (a := a.merge (src.take k) ow) ?_
      rw [OMap.merge, h2]
      exact (inv_mergeLoop ow (src.take k) _ _ .no ih (distinct_take hd k)
        fun hcc ho p n n' hr => hc hcc ho p n n' (registers_take hr)).1
    · exact absurd he h1
  | getPrefix mem n _ ih => exact (revTable_oom _ mem).2.2 ih
  | reorder f _ hp ih =>
    have hd := hp.symm.pairwise ih.distinct (fun h => h.symm)
    refine ⟨hd, ih.revDistinct, fun q => ?_, fun hdirty e he => ih.covers hdirty e (hp.mem_iff.1 he),
      fun hc n k hk => hp.mem_iff.2 (ih.sound hc n k hk)⟩
    dsimp only
    rw [meaning_perm hp hd, ih.mean]

end Cowl.PrefixOom
