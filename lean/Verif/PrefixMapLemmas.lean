import Verif.PrefixMapSpec
/-! # Lemmas on prefix maps -/
namespace Cowl.Prefix
open PrefixSpec

/-! ## Forward table -/

theorem fwdFind_meaning (p : Str) : ∀ f : Fwd, (fwdFind p f).map Prod.snd = meaning f p
  | [] => rfl
  | e :: f => by
    rw [fwdFind, meaning]
    split
    · rfl
    · exact fwdFind_meaning p f

theorem fwdFind_some {p : Str} : ∀ {f : Fwd} {e}, fwdFind p f = some e → e ∈ f ∧ e.1.txt = p
  | [], _, h => by cases h
  | x :: f, e, h => by
    rw [fwdFind] at h
    split at h
    · rename_i hx; cases h; exact ⟨by simp, hx⟩
    · have := fwdFind_some h; exact ⟨by simp [this.1], this.2⟩

theorem fwdFind_none {p : Str} : ∀ {f : Fwd}, fwdFind p f = none ↔ ∀ e ∈ f, e.1.txt ≠ p
  | [] => by simp [fwdFind]
  | x :: f => by
    rw [fwdFind]
    split
    · rename_i hx; simp [hx]
    · rename_i hx; simp [hx, fwdFind_none (f := f)]

theorem meaning_none {p : Str} {f : Fwd} : meaning f p = none ↔ ∀ e ∈ f, e.1.txt ≠ p := by
  rw [← fwdFind_meaning, Option.map_eq_none_iff, fwdFind_none]

theorem meaning_some {p n : Str} {f : Fwd} (h : meaning f p = some n) :
    ∃ k, (k, n) ∈ f ∧ k.txt = p := by
  rw [← fwdFind_meaning, Option.map_eq_some_iff] at h
  obtain ⟨e, h1, rfl⟩ := h
  have := fwdFind_some h1
  exact ⟨e.1, this.1, this.2⟩

theorem meaning_of_mem : ∀ {f : Fwd}, Distinct f → ∀ {e}, e ∈ f → meaning f e.1.txt = some e.2
  | [], _, _, h => by cases h
  | x :: f, hd, e, h => by
    rw [Distinct, List.pairwise_cons] at hd
    rw [meaning]
    rcases List.mem_cons.1 h with h1 | h1
    · rw [h1, if_pos rfl]
    · rw [if_neg (hd.1 e h1)]; exact meaning_of_mem hd.2 h1

theorem meaning_perm {f g : Fwd} (hp : f.Perm g) (hd : Distinct f) : meaning f = meaning g := by
  have hg : Distinct g := hp.pairwise hd (fun h => h.symm)
  funext p
  cases h : meaning g p with
  | none =>
    rw [meaning_none] at h ⊢
    exact fun e he => h e (hp.mem_iff.1 he)
  | some n =>
    obtain ⟨k, h1, rfl⟩ := meaning_some h
    exact meaning_of_mem hd (hp.mem_iff.2 h1)

theorem meaning_append (f g : Fwd) (p : Str) :
    meaning (f ++ g) p = (match meaning f p with | some n => some n | none => meaning g p) := by
  induction f with
  | nil => rfl
  | cons e f ih =>
    rw [List.cons_append, meaning, meaning]
    split
    · rfl
    · exact ih

theorem meaning_set (p n q : Str) : ∀ (f : Fwd), (∃ e ∈ f, e.1.txt = p) →
    meaning (fwdSet p n f) q = if q = p then some n else meaning f q
  | [], h => by obtain ⟨e, h, _⟩ := h; cases h
  | e :: f, h => by
    rw [fwdSet]
    split
    · rename_i he
      rw [meaning, meaning]
      by_cases hq : q = p
      · subst hq; simp [he]
      · have : ¬ e.1.txt = q := fun e' => hq (by rw [← e', he])
        simp [hq, this]
    · rename_i he
      have hf : ∃ e ∈ f, e.1.txt = p := by
        obtain ⟨x, hx, hp⟩ := h
        rcases List.mem_cons.1 hx with h1 | h1
        · exact absurd (h1 ▸ hp) he
        · exact ⟨x, h1, hp⟩
      rw [meaning, meaning, meaning_set p n q f hf]
      by_cases hq : q = p
      · subst hq; simp [he]
      · simp [hq]

theorem fwdSet_keys (p n : Str) : ∀ f : Fwd, (fwdSet p n f).map Prod.fst = f.map Prod.fst
  | [] => rfl
  | e :: f => by
    rw [fwdSet]
    split
    · rfl
    · simp [fwdSet_keys p n f]

theorem distinct_iff (f : Fwd) : Distinct f ↔ (f.map Prod.fst).Pairwise fun x y => x.txt ≠ y.txt := by
  rw [Distinct, List.pairwise_map]

theorem distinct_set {p n : Str} {f : Fwd} (h : Distinct f) : Distinct (fwdSet p n f) := by
  rw [distinct_iff, fwdSet_keys, ← distinct_iff]; exact h

theorem fwdSet_same {p n : Str} {k : SRef} : ∀ {f : Fwd}, fwdFind p f = some (k, n) → fwdSet p n f = f
  | [], h => by cases h
  | e :: f, h => by
    rw [fwdFind] at h
    rw [fwdSet]
    split at h
    · rename_i he; cases h; rw [if_pos he]
    · rename_i he; rw [if_neg he, fwdSet_same h]

theorem fwdErase_sublist (p : Str) : ∀ f : Fwd, (fwdErase p f).Sublist f
  | [] => .slnil
  | e :: f => by
    rw [fwdErase]
    split
    · exact List.sublist_cons_self _ _
    · exact (fwdErase_sublist p f).cons_cons _

theorem distinct_erase {p : Str} {f : Fwd} (h : Distinct f) : Distinct (fwdErase p f) :=
  h.sublist (fwdErase_sublist p f)

theorem mem_erase {p : Str} : ∀ {f : Fwd}, Distinct f → ∀ e,
    e ∈ fwdErase p f ↔ e ∈ f ∧ e.1.txt ≠ p
  | [], _, e => by simp [fwdErase]
  | x :: f, hd, e => by
    rw [Distinct, List.pairwise_cons] at hd
    rw [fwdErase]
    split
    · rename_i hx
      constructor
      · intro he; exact ⟨by simp [he], fun e' => hd.1 e he (by rw [hx, e'])⟩
      · rintro ⟨he, hp⟩
        rcases List.mem_cons.1 he with h1 | h1
        · exact absurd (h1 ▸ hx) hp
        · exact h1
    · rename_i hx
      rw [List.mem_cons, List.mem_cons, mem_erase hd.2]
      constructor
      · rintro (h | ⟨h1, h2⟩)
        · rw [h]; exact ⟨.inl rfl, hx⟩
        · exact ⟨.inr h1, h2⟩
      · rintro ⟨h | h, h2⟩
        · exact .inl h
        · exact .inr ⟨h, h2⟩

theorem meaning_of_iff {f : Fwd} (q : Str) {o : Option Str}
    (h : ∀ n, (∃ k, (k, n) ∈ f ∧ k.txt = q) ↔ o = some n) : meaning f q = o := by
  cases hm : meaning f q with
  | none =>
    cases ho : o with
    | none => rfl
    | some n =>
      obtain ⟨k, h1, h2⟩ := (h n).2 ho
      exact absurd h2 (meaning_none.1 hm _ h1)
  | some n => exact ((h n).1 (meaning_some hm)).symm

theorem meaning_erase {p : Str} {f : Fwd} (h : Distinct f) (q : Str) :
    meaning (fwdErase p f) q = if q = p then none else meaning f q := by
  by_cases hq : q = p
  · rw [if_pos hq, meaning_none]
    intro e he
    rw [hq]; exact ((mem_erase h e).1 he).2
  · rw [if_neg hq]
    cases hm : meaning f q with
    | none =>
      rw [meaning_none] at hm ⊢
      exact fun e he => hm e ((mem_erase h e).1 he).1
    | some n =>
      obtain ⟨k, h1, rfl⟩ := meaning_some hm
      exact meaning_of_mem (distinct_erase h) ((mem_erase h _).2 ⟨h1, hq⟩)

theorem meaning_filter {n : Str} {f : Fwd} (h : Distinct f) (q : Str) :
    meaning (f.filter fun e => ¬ e.2 = n) q = if meaning f q = some n then none else meaning f q := by
  have hs : Distinct (f.filter fun e => ¬ e.2 = n) := h.sublist List.filter_sublist
  cases hm : meaning f q with
  | none =>
    rw [if_neg (by simp)]
    rw [meaning_none] at hm ⊢
    exact fun e he => hm e ((List.mem_filter.1 he).1)
  | some n' =>
    obtain ⟨k, h1, rfl⟩ := meaning_some hm
    by_cases hn : n' = n
    · rw [if_pos (by rw [hn]), meaning_none]
      intro e he e'
      rw [List.mem_filter] at he
      have h2 := meaning_of_mem h he.1
      rw [e', hm] at h2
      cases h2
      simp [hn] at he
    · rw [if_neg (by simp [hn])]
      exact meaning_of_mem hs (List.mem_filter.2 ⟨h1, by simp [hn]⟩)

/-! ## Standard prefixes -/

theorem internNs_eq (p n : Str) : internNs p n = std p n := by
  unfold internNs std reserved
  by_cases h1 : p = ascii "owl"
  · subst h1; rfl
  by_cases h2 : p = ascii "rdf"
  · subst h2; rfl
  by_cases h3 : p = ascii "rdfs"
  · subst h3; rfl
  by_cases h4 : p = ascii "xsd"
  · subst h4; rfl
  have b1 : (p == ascii "owl") = false := by simpa using h1
  have b2 : (p == ascii "rdf") = false := by simpa using h2
  have b3 : (p == ascii "rdfs") = false := by simpa using h3
  have b4 : (p == ascii "xsd") = false := by simpa using h4
  simp [List.find?, h1, h2, h3, h4, b1, b2, b3, b4]

/-! ## Reverse table -/

/-- No namespace occurs twice in the reverse table. -/
def RevDistinct (r : Rev) : Prop := r.Pairwise fun x y => x.1 ≠ y.1

theorem revFind_put (k : SRef) (n q : Str) : ∀ r : Rev,
    revFind q (revPut k n r) =
      if q = n then
        (match revFind n r with
         | none => some k
         | some x => if k.txt.length < x.txt.length then some k else some x)
      else revFind q r
  | [] => by
    rw [revPut, revFind]
    by_cases h : q = n
    · subst h; simp [revFind]
    · have : ¬ n = q := fun e => h e.symm
      simp [h, this, revFind]
  | e :: r => by
    rw [revPut]
    by_cases he : e.1 = n
    · rw [if_pos he]
      by_cases hl : k.txt.length < e.2.txt.length
      · rw [if_pos hl]
        by_cases h : q = n
        · subst h; simp [revFind, he, hl]
        · have h1 : ¬ n = q := fun e => h e.symm
          have h2 : ¬ e.1 = q := fun x => h (by rw [← x, he])
          simp [h, h1, h2, revFind]
      · rw [if_neg hl]
        by_cases h : q = n
        · subst h; simp [revFind, he, hl]
        · simp [h]
    · rw [if_neg he, revFind, revFind_put k n q r]
      by_cases h : q = n
      · subst h; simp [he, revFind]
      · simp [h, revFind]

theorem mem_put_key (k : SRef) (n : Str) : ∀ (r : Rev) (x : Str × SRef), x ∈ revPut k n r →
    x.1 = n ∨ ∃ y ∈ r, y.1 = x.1
  | [], x, h => by simp [revPut] at h; exact .inl (by rw [h])
  | e :: r, x, h => by
    rw [revPut] at h
    split at h
    · rename_i he
      split at h
      · rcases List.mem_cons.1 h with h1 | h1
        · exact .inl (by rw [h1])
        · exact .inr ⟨x, by simp [h1], rfl⟩
      · exact .inr ⟨x, h, rfl⟩
    · rcases List.mem_cons.1 h with h1 | h1
      · exact .inr ⟨e, by simp, by rw [h1]⟩
      · rcases mem_put_key k n r x h1 with h2 | ⟨y, h2, h3⟩
        · exact .inl h2
        · exact .inr ⟨y, by simp [h2], h3⟩

theorem revDistinct_put (k : SRef) (n : Str) : ∀ {r : Rev}, RevDistinct r → RevDistinct (revPut k n r)
  | [], _ => by simp [revPut, RevDistinct]
  | e :: r, h => by
    rw [RevDistinct, List.pairwise_cons] at h
    rw [revPut]
    split
    · rename_i he
      split
      · rw [RevDistinct, List.pairwise_cons]
        exact ⟨fun x hx => by have := h.1 x hx; rw [he] at this; exact this, h.2⟩
      · rw [RevDistinct, List.pairwise_cons]; exact h
    · rename_i he
      rw [RevDistinct, List.pairwise_cons]
      refine ⟨fun x hx => ?_, revDistinct_put k n h.2⟩
      rcases mem_put_key k n r x hx with h1 | ⟨y, h1, h2⟩
      · rw [h1]; exact he
      · rw [← h2]; exact h.1 y h1

theorem revFind_none {n : Str} : ∀ {r : Rev}, (∀ e ∈ r, e.1 ≠ n) → revFind n r = none
  | [], _ => rfl
  | e :: r, h => by
    rw [revFind, if_neg (h e (by simp))]
    exact revFind_none fun x hx => h x (by simp [hx])

theorem revFind_erase {n : Str} : ∀ {r : Rev}, RevDistinct r → ∀ q,
    revFind q (revErase n r) = if q = n then none else revFind q r
  | [], _, q => by simp [revErase, revFind]
  | e :: r, h, q => by
    rw [RevDistinct, List.pairwise_cons] at h
    rw [revErase]
    split
    · rename_i he
      by_cases hq : q = n
      · rw [if_pos hq]
        apply revFind_none
        intro x hx
        rw [hq, ← he]
        exact (h.1 x hx).symm
      · have : ¬ e.1 = q := fun x => hq (by rw [← x, he])
        rw [if_neg hq, revFind, if_neg this]
    · rename_i he
      rw [revFind, revFind_erase h.2, revFind]
      by_cases hq : q = n
      · subst hq; simp [he]
      · simp [hq]

theorem revDistinct_erase {n : Str} : ∀ {r : Rev}, RevDistinct r → RevDistinct (revErase n r)
  | [], _ => by simp [revErase, RevDistinct]
  | e :: r, h => by
    rw [RevDistinct, List.pairwise_cons] at h
    rw [revErase]
    split
    · exact h.2
    · rw [RevDistinct, List.pairwise_cons]
      refine ⟨fun x hx => h.1 x ?_, revDistinct_erase h.2⟩
      clear h
      induction r with
      | nil => exact hx
      | cons y r ih =>
        rw [revErase] at hx
        split at hx
        · simp [hx]
        · rcases List.mem_cons.1 hx with h1 | h1
          · simp [h1]
          · simp [ih h1]

/-- What the update does to the reverse table. -/
theorem fold_spec : ∀ (f : Fwd) (r : Rev), RevDistinct r →
    let r' := f.foldl (fun r e => revPut e.1 e.2 r) r
    RevDistinct r' ∧
    (∀ n k, revFind n r' = some k → revFind n r = some k ∨ (k, n) ∈ f) ∧
    (∀ n k, revFind n r = some k → ∃ k', revFind n r' = some k' ∧ k'.txt.length ≤ k.txt.length) ∧
    (∀ e ∈ f, ∃ k', revFind e.2 r' = some k' ∧ k'.txt.length ≤ e.1.txt.length)
  | [], r, h => ⟨h, fun _ _ h => .inl h, fun _ k h => ⟨k, h, Nat.le_refl _⟩, by simp⟩
  | e :: f, r, h => by
    obtain ⟨h1, h2, h3, h4⟩ := fold_spec f (revPut e.1 e.2 r) (revDistinct_put _ _ h)
    refine ⟨h1, fun n k hk => ?_, fun n k hk => ?_, fun x hx => ?_⟩
    · rcases h2 n k hk with h5 | h5
      · rw [revFind_put] at h5
        by_cases hn : n = e.2
        · rw [if_pos hn] at h5
          subst hn
          cases hr : revFind e.2 r with
          | none => rw [hr] at h5; cases h5; exact .inr (by simp)
          | some y =>
            rw [hr] at h5
            dsimp only at h5
            split at h5
            · cases h5; exact .inr (by simp)
            · cases h5; exact .inl rfl
        · rw [if_neg hn] at h5; exact .inl h5
      · exact .inr (by simp [h5])
    · have : ∃ k', revFind n (revPut e.1 e.2 r) = some k' ∧ k'.txt.length ≤ k.txt.length := by
        rw [revFind_put]
        by_cases hn : n = e.2
        · subst hn
          rw [if_pos rfl, hk]
          dsimp only
          split
          · exact ⟨_, rfl, by omega⟩
          · exact ⟨_, rfl, Nat.le_refl _⟩
        · rw [if_neg hn]; exact ⟨k, hk, Nat.le_refl _⟩
      obtain ⟨k', h5, h6⟩ := this
      obtain ⟨k'', h7, h8⟩ := h3 n k' h5
      exact ⟨k'', h7, by omega⟩
    · rcases List.mem_cons.1 hx with h5 | h5
      · rw [h5]
        have : ∃ k', revFind e.2 (revPut e.1 e.2 r) = some k' ∧ k'.txt.length ≤ e.1.txt.length := by
          rw [revFind_put, if_pos rfl]
          cases revFind e.2 r with
          | none => exact ⟨_, rfl, Nat.le_refl _⟩
          | some y =>
            dsimp only
            split
            · exact ⟨_, rfl, Nat.le_refl _⟩
            · exact ⟨_, rfl, by omega⟩
        obtain ⟨k', h6, h7⟩ := this
        obtain ⟨k'', h8, h9⟩ := h3 _ k' h6
        exact ⟨k'', h8, by omega⟩
      · exact h4 x h5

/-! ## Invariant -/

/-- The reverse table covers the forward table and has, per namespace, a prefix no
longer than those registered for it. -/
def Covers (f : Fwd) (r : Rev) : Prop :=
  ∀ e ∈ f, ∃ k, revFind e.2 r = some k ∧ k.txt.length ≤ e.1.txt.length

/-- What holds after every history; with `calm` the reverse table is right. -/
structure Inv (calm : Prop) (m : PMap) (a : Abs) : Prop where
  distinct : Distinct m.fwd
  revDistinct : RevDistinct m.rev
  mean : ∀ q, meaning m.fwd q = a q
  covers : m.dirty = false → Covers m.fwd m.rev
  sound : calm → ∀ n k, revFind n m.rev = some k → (k, n) ∈ m.fwd

theorem getNs_meaning (m : PMap) (p : Str) : m.getNs p = meaning m.fwd p := fwdFind_meaning p _

theorem update_fwd (m : PMap) : m.updateReverse.fwd = m.fwd := by
  unfold PMap.updateReverse; split <;> rfl

theorem update_dirty (m : PMap) : m.updateReverse.dirty = false := by
  unfold PMap.updateReverse
  cases h : m.dirty <;> simp [h]

theorem update_spec {m : PMap} (h : RevDistinct m.rev) (hc : m.dirty = false → Covers m.fwd m.rev) :
    RevDistinct m.updateReverse.rev ∧ Covers m.fwd m.updateReverse.rev ∧
    ∀ n k, revFind n m.updateReverse.rev = some k → revFind n m.rev = some k ∨ (k, n) ∈ m.fwd := by
  unfold PMap.updateReverse
  cases hd : m.dirty with
  | false =>
    simp only [Bool.not_false, if_true]
    exact ⟨h, hc hd, fun n k hk => .inl hk⟩
  | true =>
    obtain ⟨h1, h2, _, h4⟩ := fold_spec m.fwd m.rev h
    simp only [Bool.not_true, Bool.false_eq_true, if_false]
    exact ⟨h1, h4, h2⟩

theorem inv_update {c : Prop} {m : PMap} {a : Abs} (h : Inv c m a) : Inv c m.updateReverse a := by
  obtain ⟨h1, h2, h3⟩ := update_spec h.revDistinct h.covers
  refine ⟨by rw [update_fwd]; exact h.distinct, h1, by rw [update_fwd]; exact h.mean,
    fun _ => by rw [update_fwd]; exact h2, fun hc n k hk => ?_⟩
  rw [update_fwd]
  rcases h3 n k hk with h4 | h4
  · exact h.sound hc n k h4
  · exact h4

theorem inv_add {c : Prop} {m : PMap} {a : Abs} (h : Inv c m a) (p : SRef) (n : Str) (ow : Bool)
    (hc : c → ow = true → ∀ n', a p.txt = some n' → n' = std p.txt n) :
    Inv c (m.add p n ow).1 (a.add p.txt n ow) ∧
    (m.add p n ow).2 = if ow = true ∨ a p.txt = none then Ret.ok else Ret.no := by
  unfold PMap.add
  rw [internNs_eq]
  have hm := h.mean p.txt
  rw [← fwdFind_meaning] at hm
  cases hf : fwdFind p.txt m.fwd with
  | some e =>
    rw [hf] at hm
    obtain ⟨h1, h2⟩ := fwdFind_some hf
    cases ow with
    | false =>
      simp only [Bool.not_false, if_true]
      refine ⟨⟨h.distinct, h.revDistinct, fun q => ?_, h.covers, h.sound⟩, ?_⟩
      · rw [h.mean, Abs.add]; simp [← hm]
      · simp [← hm]
    | true =>
      simp only [Bool.not_true, Bool.false_eq_true, if_false]
      refine ⟨⟨distinct_set h.distinct, h.revDistinct, fun q => ?_, by simp, fun hcc n' k hk => ?_⟩,
        by simp⟩
      · rw [meaning_set _ _ _ _ ⟨e, h1, h2⟩, h.mean, Abs.add]; simp
      · have := hc hcc rfl e.2 hm.symm
        have hs : fwdSet p.txt (std p.txt n) m.fwd = m.fwd := by
          rw [← this]; exact fwdSet_same (k := e.1) hf
        dsimp only
        rw [hs]
        exact h.sound hcc n' k hk
  | none =>
    rw [hf] at hm
    dsimp only
    have hn := fwdFind_none.1 hf
    refine ⟨⟨?_, h.revDistinct, fun q => ?_, by simp, fun hcc n' k hk => ?_⟩, by simp [← hm]⟩
    · rw [Distinct, List.pairwise_append]
      refine ⟨h.distinct, by simp, fun x hx y hy => ?_⟩
      rw [List.mem_singleton] at hy
      rw [hy]; exact hn x hx
    · rw [meaning_append, h.mean, Abs.add, ← hm]
      by_cases hq : q = p.txt
      · subst hq; rw [← hm]; simp [meaning]
      · have : ¬ p.txt = q := fun e => hq e.symm
        simp [hq, meaning, this]
        cases a q <;> rfl
    · exact List.mem_append_left _ (h.sound hcc n' k hk)

theorem inv_removePrefix {c : Prop} {m : PMap} {a : Abs} (h : Inv c m a) (p : Str) :
    Inv c (m.removePrefix p).1 (a.removePrefix p) ∧
    (m.removePrefix p).2 = if a p = none then Ret.no else Ret.ok := by
  unfold PMap.removePrefix
  have hm := h.mean p
  rw [← fwdFind_meaning] at hm
  cases hf : fwdFind p m.fwd with
  | none =>
    rw [hf] at hm
    dsimp only
    refine ⟨⟨h.distinct, h.revDistinct, fun q => ?_, h.covers, h.sound⟩, by simp [← hm]⟩
    rw [h.mean, Abs.removePrefix]
    by_cases hq : q = p
    · subst hq; simp [← hm]
    · simp [hq]
  | some e =>
    obtain ⟨k, n⟩ := e
    rw [hf] at hm
    obtain ⟨h1, h2⟩ := fwdFind_some hf
    dsimp only at h2
    have hd' := distinct_erase (p := p) h.distinct
    have hr : (if a p = none then Ret.no else Ret.ok) = Ret.ok := by rw [← hm]; simp
    have hcov : m.dirty = false → Covers (fwdErase p m.fwd) m.rev := fun hd e he =>
      h.covers hd e ((mem_erase h.distinct e).1 he).1
    obtain ⟨u1, u2, u3⟩ := update_spec (m := ⟨fwdErase p m.fwd, m.rev, m.dirty⟩) h.revDistinct hcov
    have uf := update_fwd ⟨fwdErase p m.fwd, m.rev, m.dirty⟩
    have us : ∀ (_ : c) n' k', revFind n' (PMap.updateReverse ⟨fwdErase p m.fwd, m.rev, m.dirty⟩).rev = some k' →
        (k', n') ∈ fwdErase p m.fwd ∨ (k' = k ∧ n' = n) := by
      intro hcc n' k' hk
      rcases u3 n' k' hk with h3 | h3
      · have h4 := h.sound hcc n' k' h3
        by_cases hp : k'.txt = p
        · right
          have h5 := meaning_of_mem h.distinct h4
          dsimp only at h5
          rw [hp, ← fwdFind_meaning, hf] at h5
          cases h5
          refine ⟨?_, rfl⟩
          have hk1 : ∀ {f : Fwd}, Distinct f → ∀ {x y : SRef × Str}, x ∈ f → y ∈ f →
              x.1.txt = y.1.txt → x = y := by
            intro f hd
            induction f with
            | nil => intro x y hx; cases hx
            | cons z f ih =>
              rw [Distinct, List.pairwise_cons] at hd
              intro x y hx hy hxy
              rcases List.mem_cons.1 hx with hx | hx <;> rcases List.mem_cons.1 hy with hy | hy
              · rw [hx, hy]
              · rw [hx] at hxy; exact absurd hxy (hd.1 y hy)
              · rw [hy] at hxy; exact absurd hxy.symm (hd.1 x hx)
              · exact ih hd.2 hx hy hxy
          have := hk1 h.distinct h4 h1 (hp.trans h2.symm)
          exact congrArg Prod.fst this
        · exact .inl ((mem_erase h.distinct _).2 ⟨h4, hp⟩)
      · exact .inl h3
    have um : ∀ q, meaning (fwdErase p m.fwd) q = a.removePrefix p q := by
      intro q
      rw [meaning_erase h.distinct, h.mean]; rfl
    dsimp only at uf ⊢
    generalize PMap.updateReverse ⟨fwdErase p m.fwd, m.rev, m.dirty⟩ = m' at *
    have keep : ∀ (hne : ∀ k', revFind n m'.rev = some k' → k' ≠ k), Inv c m' (a.removePrefix p) := by
      intro hne
      refine ⟨by rw [uf]; exact hd', u1, by rw [uf]; exact um, fun _ => by rw [uf]; exact u2, ?_⟩
      intro hcc n' k' hk
      rw [uf]
      rcases us hcc n' k' hk with h3 | ⟨h3, h4⟩
      · exact h3
      · exact absurd h3 (hne k' (h4 ▸ hk))
    cases hv : revFind n m'.rev with
    | none =>
      refine ⟨keep ?_, hr.symm⟩
      intro k' hk'; rw [hv] at hk'; cases hk'
    | some k' =>
      dsimp only
      split
      · refine ⟨⟨by rw [uf]; exact hd', revDistinct_erase u1, by rw [uf]; exact um, by simp, ?_⟩, hr.symm⟩
        intro hcc n' k'' hk
        dsimp only at hk ⊢
        rw [uf]
        rw [revFind_erase u1] at hk
        by_cases hn : n' = n
        · rw [if_pos hn] at hk; cases hk
        · rw [if_neg hn] at hk
          rcases us hcc n' k'' hk with h3 | ⟨_, h4⟩
          · exact h3
          · exact absurd h4 hn
      · rename_i hne
        refine ⟨keep ?_, hr.symm⟩
        intro k'' hk'' e
        rw [hv] at hk''
        cases hk''
        exact hne (by rw [e])

theorem inv_removeNs {c : Prop} {m : PMap} {a : Abs} (h : Inv c m a) (n : Str) :
    Inv c (m.removeNs n).1 (a.removeNs n) ∧
    ((m.removeNs n).2 = .ok ∨ (m.removeNs n).2 = .no) ∧
    ((m.removeNs n).2 = .ok ↔ ∃ p, a p = some n) := by
  unfold PMap.removeNs
  have hd' : Distinct (m.fwd.filter fun e => ¬ e.2 = n) := h.distinct.sublist List.filter_sublist
  have hcov : m.dirty = false → Covers (m.fwd.filter fun e => ¬ e.2 = n) m.rev := fun hd e he =>
    h.covers hd e ((List.mem_filter.1 he).1)
  obtain ⟨u1, u2, u3⟩ := update_spec (m := ⟨m.fwd.filter fun e => ¬ e.2 = n, m.rev, m.dirty⟩)
    h.revDistinct hcov
  have uf := update_fwd ⟨m.fwd.filter fun e => ¬ e.2 = n, m.rev, m.dirty⟩
  dsimp only at *
  generalize PMap.updateReverse ⟨m.fwd.filter fun e => ¬ e.2 = n, m.rev, m.dirty⟩ = m' at *
  refine ⟨⟨by rw [uf]; exact hd', revDistinct_erase u1, fun q => ?_, fun _ e he => ?_, ?_⟩, ?_, ?_⟩
  · dsimp only; rw [uf, meaning_filter h.distinct, h.mean]; rfl
  · dsimp only at he ⊢
    rw [uf] at he
    rw [revFind_erase u1]
    have : ¬ e.2 = n := by simpa using (List.mem_filter.1 he).2
    rw [if_neg this]
    exact u2 e he
  · intro hcc n' k hk
    dsimp only at hk ⊢
    rw [uf]
    rw [revFind_erase u1] at hk
    by_cases hn : n' = n
    · rw [if_pos hn] at hk; cases hk
    · rw [if_neg hn] at hk
      rcases u3 n' k hk with h3 | h3
      · exact List.mem_filter.2 ⟨h.sound hcc _ _ h3, by simp [hn]⟩
      · exact h3
  · split <;> simp
  · split
    · rename_i ha
      rw [List.any_eq_true] at ha
      obtain ⟨e, he, hn⟩ := ha
      simp only [decide_eq_true_eq] at hn
      simp only [true_iff]
      exact ⟨e.1.txt, by rw [← h.mean, meaning_of_mem h.distinct he, hn]⟩
    · rename_i ha
      simp only [reduceCtorEq, false_iff]
      rintro ⟨p, hp⟩
      rw [← h.mean] at hp
      obtain ⟨k, h1, _⟩ := meaning_some hp
      exact ha (List.any_eq_true.2 ⟨_, h1, by simp⟩)

theorem inv_congr {c : Prop} {m : PMap} {a b : Abs} (h : Inv c m a) (hab : ∀ q, a q = b q) :
    Inv c m b := by
  have : a = b := funext hab
  rw [← this]; exact h

theorem inv_mergeLoop {c : Prop} (ow : Bool) : ∀ (src : Fwd) (m : PMap) (a : Abs) (ret : Ret),
    Inv c m a → Distinct src →
    (c → ow = true → ∀ p n n', Registers src p n → a p = some n' → n' = std p n) →
    Inv c (mergeLoop ow src m ret).1 (a.merge src ow) ∧
    ((∃ p, ¬ meaning src p = none ∧ (ow = true ∨ a p = none)) → (mergeLoop ow src m ret).2 = .ok) ∧
    ((¬ ∃ p, ¬ meaning src p = none ∧ (ow = true ∨ a p = none)) → (mergeLoop ow src m ret).2 = ret)
  | [], m, a, ret, h, _, _ => by
    exact ⟨inv_congr h fun q => rfl, by simp [meaning], fun _ => rfl⟩
  | e :: src, m, a, ret, h, hd, hc => by
    rw [Distinct, List.pairwise_cons] at hd
    obtain ⟨h1, h2⟩ := inv_add h e.1 e.2 ow fun hcc ho n' hn' =>
      hc hcc ho e.1.txt e.2 n' ⟨e, by simp, rfl, rfl⟩ hn'
    have hne : ∀ q, q ≠ e.1.txt → a.add e.1.txt e.2 ow q = a q := by
      intro q hq; simp [Abs.add, hq]
    have hms : meaning src e.1.txt = none := by
      rw [meaning_none]; exact fun x hx => (hd.1 x hx).symm
    have hc' : c → ow = true → ∀ p n n', Registers src p n →
        a.add e.1.txt e.2 ow p = some n' → n' = std p n := by
      intro hcc ho p n n' hr hn
      have hp : p ≠ e.1.txt := by
        rintro rfl
        obtain ⟨x, hx, h3, _⟩ := hr
        exact hd.1 x hx h3.symm
      rw [hne p hp] at hn
      obtain ⟨x, hx, h3, h4⟩ := hr
      exact hc hcc ho p n n' ⟨x, by simp [hx], h3, h4⟩ hn
    obtain ⟨h3, h4, h4'⟩ := inv_mergeLoop ow src _ _ (if (m.add e.1 e.2 ow).2 = .ok then .ok else ret)
      h1 hd.2 hc'
    rw [mergeLoop]
    refine ⟨inv_congr h3 fun q => ?_, ?_⟩
    · simp only [Abs.merge, meaning]
      by_cases hq : e.1.txt = q
      · subst hq
        rw [hms, if_pos rfl]
        simp only [Abs.add, true_and]
      · rw [if_neg hq, hne q (fun x => hq x.symm)]
    · by_cases ha : ow = true ∨ a e.1.txt = none
      · have hex : ∃ p, ¬ meaning (e :: src) p = none ∧ (ow = true ∨ a p = none) :=
          ⟨e.1.txt, by simp [meaning], ha⟩
        rw [if_pos ha] at h2
        rw [h2] at h4 h4' ⊢
        simp only [if_true] at h4 h4' ⊢
        refine ⟨fun _ => ?_, fun hn => absurd hex hn⟩
        rcases Classical.em (∃ p, ¬ meaning src p = none ∧ (ow = true ∨ a.add e.1.txt e.2 ow p = none))
          with hx | hx
        · exact h4 hx
        · exact h4' hx
      · have hiff : (∃ p, ¬ meaning src p = none ∧ (ow = true ∨ a.add e.1.txt e.2 ow p = none)) ↔
            ∃ p, ¬ meaning (e :: src) p = none ∧ (ow = true ∨ a p = none) := by
          refine exists_congr fun p => ?_
          by_cases hp : p = e.1.txt
          · subst hp
            constructor
            · rintro ⟨h5, _⟩; exact absurd hms h5
            · rintro ⟨_, h5⟩; exact absurd h5 ha
          · rw [hne p hp, meaning, if_neg (fun x => hp x.symm)]
        rw [if_neg ha] at h2
        rw [h2, hiff] at h4 h4'
        rw [h2]
        exact ⟨h4, h4'⟩

theorem inv_start {c : Prop} : Inv c ⟨[], [], false⟩ fun _ => none :=
  ⟨by simp [Distinct], by simp [RevDistinct], fun _ => rfl, (fun _ e he => nomatch he),
    (fun _ _ _ h => nomatch h)⟩

theorem inv_create {c : Prop} (ks : List Nat) (dflt : Fwd) (hk : ks.length = 4)
    (hd : Distinct dflt) : Inv c (create ks dflt) (initial dflt) := by
  match ks, hk with
  | [k1, k2, k3, k4], _ =>
    have h1 := (inv_add (inv_start (c := c)) ⟨k1, ascii "owl"⟩ owlNs false (by intro _ h; cases h)).1
    have h2 := (inv_add h1 ⟨k2, ascii "rdf"⟩ rdfNs false (by intro _ h; cases h)).1
    have h3 := (inv_add h2 ⟨k3, ascii "rdfs"⟩ rdfsNs false (by intro _ h; cases h)).1
    have h4 := (inv_add h3 ⟨k4, ascii "xsd"⟩ xsdNs false (by intro _ h; cases h)).1
    have h5 := (inv_mergeLoop false dflt _ _ .no h4 hd (by intro _ h; cases h)).1
    refine inv_congr h5 fun q => ?_
    have n1 : ascii "rdf" ≠ ascii "owl" := by decide
    have n2 : ascii "rdfs" ≠ ascii "owl" := by decide
    have n3 : ascii "rdfs" ≠ ascii "rdf" := by decide
    have n4 : ascii "xsd" ≠ ascii "owl" := by decide
    have n5 : ascii "xsd" ≠ ascii "rdf" := by decide
    have n6 : ascii "xsd" ≠ ascii "rdfs" := by decide
    simp only [Abs.merge, initial, Abs.add]
    by_cases q1 : q = ascii "owl"
    · subst q1; simp [std, n1.symm, n2.symm, n4.symm]; cases meaning dflt (ascii "owl") <;> simp
    · by_cases q2 : q = ascii "rdf"
      · subst q2; simp [std, n1, n3.symm, n5.symm]; cases meaning dflt (ascii "rdf") <;> simp
      · by_cases q3 : q = ascii "rdfs"
        · subst q3; simp [std, n2, n3, n6.symm]; cases meaning dflt (ascii "rdfs") <;> simp
        · by_cases q4 : q = ascii "xsd"
          · subst q4; simp [std, n4, n5, n6]; cases meaning dflt (ascii "xsd") <;> simp
          · simp [q1, q2, q3, q4, std]; cases meaning dflt q <;> simp

theorem inv_reaches {c : Prop} {m : PMap} {a : Abs} (h : Reaches c m a) : Inv c m a := by
  induction h with
  | create ks dflt hk hd => exact inv_create ks dflt hk hd
  | add p n ow _ hc ih => exact (inv_add ih p n ow hc).1
  | removePrefix p _ ih => exact (inv_removePrefix ih p).1
  | removeNs n _ ih => exact (inv_removeNs ih n).1
  | merge src ow _ hd hc ih => exact (inv_mergeLoop ow src _ _ .no ih hd hc).1
  | getPrefix n _ ih => exact inv_update ih
  | reorder f _ hp ih =>
    have hd := hp.symm.pairwise ih.distinct (fun h => h.symm)
    refine ⟨hd, ih.revDistinct, fun q => ?_, fun hdirty e he => ih.covers hdirty e (hp.mem_iff.1 he),
      fun hc n k hk => hp.mem_iff.2 (ih.sound hc n k hk)⟩
    dsimp only
    rw [meaning_perm hp hd, ih.mean]

end Cowl.Prefix
