import Verif.HeapOom
import Verif.HeapProps
/-! # Lemmas on interned objects when memory is lacking -/
namespace Cowl.Heap

/-- `t` can be reached from `s`, and the caller owns `xs` in addition. -/
structure Gain (s t : St) (xs : List Nat) : Prop where
  reach : Reachable t
  le : Le s t
  ext : ∀ b, t.ext b = s.ext b + xs.count b
  emp : t.empty = s.empty

theorem Gain.refl {s : St} (h : Reachable s) : Gain s s [] := ⟨h, Le.refl s, by simp, rfl⟩

/-- A call that makes an object. -/
def Makes (op : Op) : Prop := (∀ x, op ≠ .release x) ∧ ∀ x, op ≠ .intern x

theorem Gain.make {s t u : St} {xs : List Nat} {op : Op} {r : Nat} (h : Gain s t xs) (hl : Legal t op)
    (hm : Makes op) (e : step t op = some (u, r)) : Gain s u (r :: xs) := by
  obtain ⟨_, h2, h3, h4, _⟩ := reachable_step h.reach hl e
  refine ⟨.step h.reach hl e, h.le.trans (h4 hm.1).1, fun b => ?_, h3.trans h.emp⟩
  have : u.ext b = if b = r then t.ext b + 1 else t.ext b := by
    rw [h2]
    cases op with
    | release x => exact absurd rfl (hm.1 x)
    | intern x => exact absurd rfl (hm.2 x)
    | _ => rfl
  rw [this, h.ext, List.count_cons]
  by_cases hb : b = r
  · subst hb; simp; omega
  · have : (r == b) = false := by simpa using Ne.symm hb
    simp [hb, this]

theorem Gain.intern {s t u : St} {xs : List Nat} {x r : Nat} (h : Gain s t xs) (hl : Legal t (.intern x))
    (e : Heap.intern t x = some (u, r)) : Gain s u xs := by
  obtain ⟨_, h2, h3, h4, _⟩ := reachable_step h.reach hl (show step t (.intern x) = _ from e)
  refine ⟨.step h.reach hl (show step t (.intern x) = _ from e), h.le.trans (h4 (by intros; simp)).1, fun b => ?_,
    h3.trans h.emp⟩
  rw [h2]; exact h.ext b

theorem Gain.release {s t : St} {xs : List Nat} {x : Nat} (hs : Reachable s) (h : Gain s t xs) (hx : x ∈ xs) :
    ∃ u, Heap.release t x = some u ∧ Gain s u (xs.erase x) ∧ Sub t u := by
  have hp : 0 < t.ext x := by
    rw [h.ext]; have := List.count_pos_iff.mpr hx; omega
  obtain ⟨u, e, R⟩ := release_spec (reachable_inv h.reach) hp
  have hext : ∀ b, u.ext b = s.ext b + (xs.erase x).count b := by
    intro b
    rw [R.ext, List.count_erase]
    by_cases hb : b = x
    · subst hb
      rw [upd_same, h.ext]
      have := List.count_pos_iff.mpr hx
      simp; omega
    · rw [upd_ne _ _ hb, h.ext]
      have : (x == b) = false := by simpa using Ne.symm hb
      simp [this]
  refine ⟨u, e, ⟨.step h.reach (op := .release x) (r := x) hp ?_, ?_, hext, R.emp.trans h.emp⟩, R.sub⟩
  · show (Heap.release t x).map _ = _
    rw [e]; rfl
  · exact le_sub_le (reachable_inv hs) R.inv h.le R.sub (R.emp.trans h.emp) fun b => by rw [hext]; omega

theorem Gain.releaseOpt {s t : St} {xs : List Nat} {x : Option Nat} (hs : Reachable s) (h : Gain s t (x.toList ++ xs)) :
    ∃ u, Heap.releaseOpt t x = some u ∧ Gain s u xs ∧ Sub t u := by
  cases x with
  | none => exact ⟨t, rfl, h, Sub.refl t⟩
  | some x =>
    obtain ⟨u, e, G, S⟩ := h.release hs (x := x) (by simp)
    refine ⟨u, e, ?_, S⟩
    have : (([x] : List Nat) ++ xs).erase x = xs := by simp
    exact this ▸ G

/-- What a function does if memory may be lacking: nothing, or what it does otherwise. -/
def Part (s : St) (old : Option (St × Nat)) (new : Option (St × Option Nat)) : Prop :=
  ∃ s' r, new = some (s', r) ∧ (∀ x, r = some x → old = some (s', x)) ∧ (r = none → Gain s s' [])

theorem Part.self {s : St} {old : Option (St × Nat)} (h : ∃ s' r, old = some (s', r)) :
    Part s old (old.map fun p => (p.1, some p.2)) := by
  obtain ⟨s', r, rfl⟩ := h
  exact ⟨s', some r, rfl, fun x e => (by cases e; rfl), fun e => (by cases e)⟩

theorem Part.nothing {s : St} (h : Reachable s) (old : Option (St × Nat)) : Part s old (some (s, none)) :=
  ⟨s, none, rfl, fun x e => (by cases e), fun _ => .refl h⟩

theorem mNewString_true (s : St) (a : Nat) (c : Str) :
    mNewString true s a c = (newString s a c).map fun p => (p.1, some p.2) := by
  unfold mNewString newString
  split
  · cases retain s s.empty <;> rfl
  · rfl

theorem mNewString_part {s : St} (h : Reachable s) (ok : Bool) {a : Nat} (ha : ¬ Live s a) (c : Str) :
    Part s (newString s a c) (mNewString ok s a c) := by
  have h1 : ∃ s' r, newString s a c = some (s', r) := C04_no_ub h (op := .newString a c) ha
  cases ok with
  | true => rw [mNewString_true]; exact .self h1
  | false =>
    by_cases hc : c = []
    · have : mNewString false s a c = (newString s a c).map fun p => (p.1, some p.2) := by
        unfold mNewString newString
        rw [if_pos hc, if_pos hc]
        cases retain s s.empty <;> rfl
      rw [this]; exact .self h1
    · have : mNewString false s a c = some (s, none) := by
        unfold mNewString; rw [if_neg hc]; rfl
      rw [this]; exact .nothing h _

theorem mNewIntern_part {s : St} (h : Reachable s) (put ok : Bool) {a : Nat} (ha : ¬ Live s a) (c : Str) :
    Part s (newIntern s a c) (mNewIntern put ok s a c) := by
  have h1 : ∃ s' r, newIntern s a c = some (s', r) := C04_no_ub h (op := .newIntern a c) ha
  by_cases hc : c = []
  · have : mNewIntern put ok s a c = (newIntern s a c).map fun p => (p.1, some p.2) := by
      unfold mNewIntern newIntern
      rw [if_pos hc, if_pos hc]
      cases retain s s.empty <;> rfl
    rw [this]; exact .self h1
  · cases put with
    | false =>
      have : mNewIntern false ok s a c = some (s, none) := by
        unfold mNewIntern; rw [if_neg hc]; rfl
      rw [this]; exact .nothing h _
    | true =>
      unfold newIntern at h1 ⊢
      unfold mNewIntern
      rw [if_neg hc] at h1 ⊢
      rw [if_neg hc]
      simp only [Bool.not_true, Bool.false_eq_true, if_false]
      cases e : s.strT.find? (fun b => s.content b == some c) with
      | some b =>
        simp only [e] at h1 ⊢
        have : (retain s b).map (fun s => (s, some b)) = ((retain s b).map fun s => (s, b)).map fun p => (p.1, some p.2) := by
          cases retain s b <;> rfl
        rw [this]; exact .self h1
      | none =>
        simp only [e] at h1 ⊢
        cases ok with
        | false => exact .nothing h _
        | true => exact .self h1

theorem mIntern_part {s : St} (h : Reachable s) (put : Bool) {x : Nat} (hx : ∃ c, Denotes s x (.str c)) :
    Part s (intern s x) (mIntern put s x) := by
  have h1 : ∃ s' r, intern s x = some (s', r) := C04_no_ub h (op := .intern x) hx
  obtain ⟨c, hc⟩ := hx
  obtain ⟨i, hi⟩ := denotes_str_iff.1 hc
  unfold intern at h1 ⊢
  unfold mIntern
  simp only [hi] at h1 ⊢
  cases i with
  | true => exact .self h1
  | false =>
    simp only [Bool.false_eq_true, if_false] at h1 ⊢
    by_cases hl : c.length = 0
    · simp only [hl, if_true] at h1 ⊢; exact .self h1
    · simp only [hl, if_false] at h1 ⊢
      cases put with
      | false => exact .nothing h _
      | true =>
        simp only [Bool.not_true, Bool.false_eq_true, if_false]
        cases e : s.strT.find? (fun b => s.content b == some c) with
        | some b => simp only [e] at h1 ⊢; exact .self h1
        | none => simp only [e] at h1 ⊢; exact .self h1

theorem mIriUnvalidated_part {s : St} (h : Reachable s) (m : Mem) {a n r : Nat}
    (hl : Legal s (.iriUnvalidated a n r)) : Part s (iriUnvalidated s a n r) (mIriUnvalidated m s a n r) := by
  obtain ⟨s1, o, e, hf, hn⟩ := mIntern_part h m.putNs hl.2.1
  have h1 : ∃ s' x, iriUnvalidated s a n r = some (s', x) := C04_no_ub h hl
  unfold mIriUnvalidated
  rw [e]
  cases o with
  | none => exact ⟨s1, none, rfl, fun x e => (by cases e), fun _ => hn rfl⟩
  | some n' =>
    have e1 := hf n' rfl
    have G := (Gain.refl h).intern hl.2.1 e1
    unfold iriUnvalidated at h1 ⊢
    rw [e1] at h1 ⊢
    simp only [Option.bind_some] at h1 ⊢
    have stop : ∀ old, Part s old (some (s1, none)) := fun old => ⟨s1, none, rfl, fun x e => (by cases e), fun _ => G⟩
    cases ec : s1.content r with
    | none =>
      rw [ec] at h1
      obtain ⟨_, _, h1⟩ := h1
      cases h1
    | some c =>
      rw [ec] at h1
      simp only at h1 ⊢
      cases hp : m.put with
      | false => exact stop _
      | true =>
        simp only [Bool.not_true, Bool.false_eq_true, if_false]
        cases ef : s1.iriT.find? (s1.iriIs n' (some c)) with
        | some b =>
          simp only [ef] at h1 ⊢
          have : (retain s1 b).map (fun s => (s, some b)) =
              ((retain s1 b).map fun s => (s, b)).map fun p => (p.1, some p.2) := by
            cases retain s1 b <;> rfl
          rw [this]; exact .self h1
        | none =>
          simp only [ef] at h1 ⊢
          cases ho : m.obj with
          | false => exact stop _
          | true =>
            simp only [Bool.not_true, Bool.false_eq_true, if_false]
            cases ed : s1.cellOf n' with
            | none =>
              rw [ed] at h1
              obtain ⟨_, _, h1⟩ := h1
              cases h1
            | some d => simp only [ed] at h1 ⊢; exact .self h1

/-- The end of `cowl_iri`, without lack of memory. -/
def finish (s : St) (a x y : Nat) : Option (St × Nat) :=
  (iriUnvalidated s a x y).bind fun (s, r) => (release s x).bind fun s => (release s y).map fun s => (s, r)

theorem mFinish_part {s t : St} (hs : Reachable s) (m : Mem) {a : Nat} {x y : Option Nat}
    (G : Gain s t (x.toList ++ y.toList)) (ha : ¬ Live t a)
    (hx : ∀ n, x = some n → ∃ c, Denotes t n (.str c)) (hy : ∀ n, y = some n → ∃ c, Denotes t n (.str c)) :
    ∃ s' r, mFinish m t a x y = some (s', r) ∧
      (∀ z, r = some z → ∃ n k, x = some n ∧ y = some k ∧ finish t a n k = some (s', z)) ∧
      (r = none → Gain s s' []) := by
  -- releases at the end, when nothing was made
  have back : ∀ u, Gain s u (x.toList ++ y.toList) →
      ∃ s', ((releaseOpt u x).bind fun s => (releaseOpt s y).map fun s => (s, (none : Option Nat))) = some (s', none) ∧
        Gain s s' [] := by
    intro u hu
    obtain ⟨v, e1, G1, _⟩ := hu.releaseOpt hs
    obtain ⟨w, e2, G2, _⟩ := Gain.releaseOpt (xs := []) (x := y) hs (by rw [List.append_nil]; exact G1)
    exact ⟨w, by rw [e1, Option.bind_some, e2]; rfl, G2⟩
  unfold mFinish
  cases x with
  | none =>
    obtain ⟨s', e, hg⟩ := back t G
    exact ⟨s', none, e, fun z e => (by cases e), fun _ => hg⟩
  | some n =>
    cases y with
    | none =>
      obtain ⟨s', e, hg⟩ := back t G
      exact ⟨s', none, e, fun z e => (by cases e), fun _ => hg⟩
    | some k =>
      have hl : Legal t (.iriUnvalidated a n k) := ⟨ha, hx n rfl, hy k rfl⟩
      obtain ⟨u, r, e, hf, hn⟩ := mIriUnvalidated_part G.reach m hl
      simp only [e, Option.bind_some]
      cases r with
      | none =>
        have G' := hn rfl
        obtain ⟨s', e, hg⟩ := back u ⟨G'.reach, G.le.trans G'.le, fun b => by rw [G'.ext, G.ext]; simp,
          G'.emp.trans G.emp⟩
        exact ⟨s', none, e, fun z e => (by cases e), fun _ => hg⟩
      | some z =>
        have e0 := hf z rfl
        have G1 := G.make hl ⟨fun x => (by simp), fun x => (by simp)⟩ (show step t (.iriUnvalidated a n k) = _ from e0)
        obtain ⟨v, e1, G2, _⟩ := G1.release hs (x := n) (by simp)
        have hk : k ∈ (z :: ([n] ++ [k])).erase n := by
          by_cases hz : z = n
          · subst hz; simp
          · have hzf : (z == n) = false := by simpa using hz
            rw [List.erase_cons_tail (by simp [hzf])]
            simp
        obtain ⟨w, e2, G3, _⟩ := G2.release hs (x := k) hk
        refine ⟨w, some z, ?_, fun z' hz => ⟨n, k, rfl, rfl, ?_⟩, fun e => (by cases e)⟩
        · show ((release u n).bind fun s => (release s k).map fun s => (s, some z)) = _
          rw [e1, Option.bind_some, e2]; rfl
        · cases hz
          unfold finish
          rw [e0, Option.bind_some]
          dsimp only
          rw [e1, Option.bind_some, e2]; rfl

theorem Gain.trans {s t u : St} {xs ys : List Nat} (h : Gain s t xs) (h' : Gain t u ys) : Gain s u (ys ++ xs) :=
  ⟨h'.reach, h.le.trans h'.le, fun b => by rw [h'.ext, h.ext, List.count_append]; omega, h'.emp.trans h.emp⟩

/-- Objects that are there after a call that made nothing were there before. -/
theorem Gain.live {s t : St} (hs : Reachable s) (h : Gain s t []) {b : Nat} (hb : Live t b) : Live s b := by
  have hi := reachable_inv hs
  have hh := ((C04_live h.reach b).1).1 hb
  clear hb
  induction hh with
  | empty => rw [h.emp]; exact live_iff.2 ⟨_, hi.emptyC⟩
  | owned hx =>
    refine live_iff.2 (hi.extLive _ ?_)
    have := h.ext ‹_›
    simp at this
    omega
  | field _ hr ih =>
    obtain ⟨c, hc⟩ := live_iff.1 ih
    refine live_iff.2 ?_
    rcases h.le _ _ hc with h1 | ⟨_, _, h1⟩
    · have hf : ∀ {x}, x ∈ c.fields → ∃ d, s.cellOf x = some d := fun hx => hi.fieldLive hc hx
      cases hr with
      | ns h2 => rw [h1] at h2; cases h2; exact hf (by simp [Cell.fields])
      | rem h2 => rw [h1] at h2; cases h2; exact hf (by simp [Cell.fields])
      | ent h2 => rw [h1] at h2; cases h2; exact hf (by simp [Cell.fields])
      | anon h2 => rw [h1] at h2; cases h2; exact hf (by simp [Cell.fields])
    · cases hr with
      | ns h2 => rw [h1] at h2; cases h2
      | rem h2 => rw [h1] at h2; cases h2
      | ent h2 => rw [h1] at h2; cases h2
      | anon h2 => rw [h1] at h2; cases h2

/-- What creating a string does. -/
theorem mNewString_gain {s t : St} {xs : List Nat} (G : Gain s t xs) (ok : Bool) {a : Nat} (ha : ¬ Live t a) (c : Str) :
    ∃ u x, mNewString ok t a c = some (u, x) ∧ Gain s u (x.toList ++ xs) ∧ Le t u ∧
      (∀ n, x = some n → Denotes u n (.str c) ∧ newString t a c = some (u, n)) ∧
      ∀ b, Live u b → Live t b ∨ b = a := by
  obtain ⟨u, x, e, hf, hn⟩ := mNewString_part G.reach ok ha c
  refine ⟨u, x, e, ?_⟩
  cases x with
  | none =>
    have G' := hn rfl
    exact ⟨G.trans G', G'.le, fun n e => (by cases e), fun b hb => .inl (G'.live G.reach hb)⟩
  | some n =>
    have e0 := hf n rfl
    have hi := reachable_inv G.reach
    obtain ⟨u', n', e1, M⟩ := newString_spec hi (Classical.byContradiction ha) c
    rw [e0] at e1; cases e1
    exact ⟨G.make (op := .newString a c) ha ⟨fun x => (by simp), fun x => (by simp)⟩ e0, M.le,
      fun n e => (by cases e; exact ⟨M.den, e0⟩), fun b hb => by
        obtain ⟨d, hd⟩ := live_iff.1 hb
        rcases M.only b d hd with h | h
        · exact .inl (live_iff.2 h)
        · exact .inr h⟩

theorem mNewIntern_gain {s t : St} {xs : List Nat} (G : Gain s t xs) (put ok : Bool) {a : Nat} (ha : ¬ Live t a) (c : Str) :
    ∃ u x, mNewIntern put ok t a c = some (u, x) ∧ Gain s u (x.toList ++ xs) ∧ Le t u ∧
      (∀ n, x = some n → Denotes u n (.str c) ∧ newIntern t a c = some (u, n)) ∧
      ∀ b, Live u b → Live t b ∨ b = a := by
  obtain ⟨u, x, e, hf, hn⟩ := mNewIntern_part G.reach put ok ha c
  refine ⟨u, x, e, ?_⟩
  cases x with
  | none =>
    have G' := hn rfl
    exact ⟨G.trans G', G'.le, fun n e => (by cases e), fun b hb => .inl (G'.live G.reach hb)⟩
  | some n =>
    have e0 := hf n rfl
    have hi := reachable_inv G.reach
    obtain ⟨u', n', e1, M, _⟩ := newIntern_spec hi (Classical.byContradiction ha) c
    rw [e0] at e1; cases e1
    exact ⟨G.make (op := .newIntern a c) ha ⟨fun x => (by simp), fun x => (by simp)⟩ e0, M.le,
      fun n e => (by cases e; exact ⟨M.den, e0⟩), fun b hb => by
        obtain ⟨d, hd⟩ := live_iff.1 hb
        rcases M.only b d hd with h | h
        · exact .inl (live_iff.2 h)
        · exact .inr h⟩

theorem Gain.comm {s t : St} {xs ys : List Nat} (h : Gain s t (xs ++ ys)) : Gain s t (ys ++ xs) :=
  ⟨h.reach, h.le, fun b => by rw [h.ext, List.count_append, List.count_append, Nat.add_comm (xs.count b)], h.emp⟩

theorem mIri_part {s : St} (h : Reachable s) (m : Mem) {a1 a2 a3 p q : Nat} (hl : Legal s (.iri a1 a2 a3 p q)) :
    Part s (iri s a1 a2 a3 p q) (mIri m s a1 a2 a3 p q) := by
  obtain ⟨l1, l2, l3, l12, l13, l23, ⟨cp, hp⟩, cq, hq⟩ := hl
  unfold iri mIri
  rw [content_eq.2 hp, content_eq.2 hq]
  simp only
  by_cases c1 : nsLength cq > 0
  · simp only [c1, if_true]
    cases m.buf with
    | false => exact .nothing h _
    | true =>
      simp only [Bool.not_true, Bool.false_eq_true, if_false]
      obtain ⟨s1, x, e1, G1, L1, D1, N1⟩ := mNewString_gain (.refl h) m.str1 l1 (cp ++ cq.take (nsLength cq))
      have n2 : ¬ Live s1 a2 := fun hb => (N1 _ hb).elim l2 (Ne.symm l12)
      obtain ⟨s2, y, e2, G2, L2, D2, N2⟩ := mNewString_gain G1 m.str2 n2 (cq.drop (nsLength cq))
      have n3 : ¬ Live s2 a3 := fun hb => (N2 _ hb).elim (fun hb => (N1 _ hb).elim l3 (Ne.symm l13)) (Ne.symm l23)
      rw [List.append_nil] at G2
      obtain ⟨s3, r, e3, hf, hn⟩ := mFinish_part h m G2.comm n3
        (fun n e => ⟨_, L2.den _ _ (D1 n e).1⟩) (fun n e => ⟨_, (D2 n e).1⟩)
      refine ⟨s3, r, ?_, fun z hz => ?_, hn⟩
      · rw [e1, Option.bind_some]; dsimp only; rw [e2, Option.bind_some]; exact e3
      · obtain ⟨n, k, rfl, rfl, ef⟩ := hf z hz
        rw [(D1 n rfl).2, Option.bind_some]; dsimp only; rw [(D2 k rfl).2, Option.map_some, Option.bind_some]
        exact ef
  · simp only [c1, if_false]
    by_cases c2 : nsLength cp < cp.length
    · simp only [c2, if_true]
      cases m.buf with
      | false => exact .nothing h _
      | true =>
        simp only [Bool.not_true, Bool.false_eq_true, if_false]
        obtain ⟨s1, x, e1, G1, L1, D1, N1⟩ := mNewIntern_gain (.refl h) m.put1 m.str1 l1 (cp.take (nsLength cp))
        have n2 : ¬ Live s1 a2 := fun hb => (N1 _ hb).elim l2 (Ne.symm l12)
        obtain ⟨s2, y, e2, G2, L2, D2, N2⟩ := mNewString_gain G1 m.str2 n2 (cp.drop (nsLength cp) ++ cq)
        have n3 : ¬ Live s2 a3 := fun hb => (N2 _ hb).elim (fun hb => (N1 _ hb).elim l3 (Ne.symm l13)) (Ne.symm l23)
        rw [List.append_nil] at G2
        obtain ⟨s3, r, e3, hf, hn⟩ := mFinish_part h m G2.comm n3
          (fun n e => ⟨_, L2.den _ _ (D1 n e).1⟩) (fun n e => ⟨_, (D2 n e).1⟩)
        refine ⟨s3, r, ?_, fun z hz => ?_, hn⟩
        · rw [e1, Option.bind_some]; dsimp only; rw [e2, Option.bind_some]; exact e3
        · obtain ⟨n, k, rfl, rfl, ef⟩ := hf z hz
          rw [(D1 n rfl).2, Option.bind_some]; dsimp only; rw [(D2 k rfl).2, Option.map_some, Option.bind_some]
          exact ef
    · simp only [c2, if_false]
      have hm : ∀ x, Makes (.retain x) := fun x => ⟨fun x => (by simp), fun x => (by simp)⟩
      obtain ⟨s1, e1, M1⟩ := made_retain (reachable_inv h) a1 hp
      have G1 := (Gain.refl h).make (op := .retain p) (live_iff.2 hp.live) (hm p) (r := p) (u := s1)
        (by show (retain s p).map _ = _; rw [e1]; rfl)
      obtain ⟨s2, e2, M2⟩ := made_retain M1.inv a2 (M1.le.den _ _ hq)
      have G2 := G1.make (op := .retain q) (live_iff.2 (M1.le.den _ _ hq).live) (hm q) (r := q) (u := s2)
        (by show (retain s1 q).map _ = _; rw [e2]; rfl)
      have n3 : ¬ Live s2 a3 := fun hb => by
        obtain ⟨d, hd⟩ := live_iff.1 hb
        have hd' := not_live_after M2 (not_live_after M1 (Classical.byContradiction l3) (Ne.symm l13)) (Ne.symm l23)
        rw [hd] at hd'; cases hd'
      obtain ⟨s3, r, e3, hf, hn⟩ := mFinish_part (x := some p) (y := some q) h m (Gain.comm (xs := [q]) (ys := [p]) G2) n3
        (fun n e => by cases e; exact ⟨_, M2.le.den _ _ (M1.le.den _ _ hp)⟩)
        (fun n e => by cases e; exact ⟨_, M2.le.den _ _ (M1.le.den _ _ hq)⟩)
      refine ⟨s3, r, ?_, fun z hz => ?_, hn⟩
      · rw [e1, Option.bind_some, e2, Option.bind_some]; exact e3
      · obtain ⟨n, k, en, ek, ef⟩ := hf z hz
        cases en; cases ek
        rw [e1, Option.bind_some, e2, Option.map_some, Option.bind_some]
        exact ef

theorem mIriFromStr_part {s : St} (h : Reachable s) (m : Mem) {a1 a2 a3 : Nat} {c : Str}
    (hl : Legal s (.iriFromStr a1 a2 a3 c)) : Part s (iriFromStr s a1 a2 a3 c) (mIriFromStr m s a1 a2 a3 c) := by
  obtain ⟨l1, l2, l3, l12, l13, l23, hc⟩ := hl
  have hY : ∃ cy, (if nsLength c < c.length then mNewString m.str1 s a1 (c.drop (nsLength c)) else mNewString m.str1 s a1 []) =
      mNewString m.str1 s a1 cy ∧ (if nsLength c < c.length then newString s a1 (c.drop (nsLength c)) else newString s a1 []) =
      newString s a1 cy := by
    by_cases hk : nsLength c < c.length
    · exact ⟨_, if_pos hk, if_pos hk⟩
    · exact ⟨_, if_neg hk, if_neg hk⟩
  obtain ⟨cy, hY1, hY2⟩ := hY
  unfold iriFromStr mIriFromStr
  simp only [hc, if_false]
  rw [hY1, hY2]
  obtain ⟨s1, y, e1, G1, L1, D1, N1⟩ := mNewString_gain (.refl h) m.str1 l1 cy
  have n2 : ¬ Live s1 a2 := fun hb => (N1 _ hb).elim l2 (Ne.symm l12)
  obtain ⟨s2, x, e2, G2, L2, D2, N2⟩ := mNewIntern_gain G1 m.put1 m.str2 n2 (c.take (nsLength c))
  have n3 : ¬ Live s2 a3 := fun hb => (N2 _ hb).elim (fun hb => (N1 _ hb).elim l3 (Ne.symm l13)) (Ne.symm l23)
  rw [List.append_nil] at G2
  obtain ⟨s3, r, e3, hf, hn⟩ := mFinish_part h m G2 n3
    (fun n e => ⟨_, (D2 n e).1⟩) (fun n e => ⟨_, L2.den _ _ (D1 n e).1⟩)
  refine ⟨s3, r, ?_, fun z hz => ?_, hn⟩
  · rw [e1, Option.bind_some]; dsimp only; rw [e2, Option.bind_some]; exact e3
  · obtain ⟨n, k, rfl, rfl, ef⟩ := hf z hz
    rw [(D1 k rfl).2, Option.bind_some]; dsimp only; rw [(D2 n rfl).2, Option.bind_some]
    exact ef

theorem map_some_retain (s : St) (b : Nat) : (retain s b).map (fun s => (s, some b)) =
    ((retain s b).map fun s => (s, b)).map fun p => (p.1, some p.2) := by
  cases retain s b <;> rfl

theorem mEntity_part {s : St} (h : Reachable s) (m : Mem) {a i : Nat} {k : EntKind} (hl : Legal s (.entity a k i)) :
    Part s (entity s a k i) (mEntity m s a k i) := by
  have h1 : ∃ s' x, entity s a k i = some (s', x) := C04_no_ub h hl
  obtain ⟨_, x, hx⟩ := hl
  cases hx with
  | iri hc _ _ =>
    unfold entity at h1 ⊢
    unfold mEntity
    simp only [hc] at h1 ⊢
    cases m.put with
    | false => exact .nothing h _
    | true =>
      simp only [Bool.not_true, Bool.false_eq_true, if_false]
      cases ef : s.entT.find? (s.entIs k i) with
      | some b => simp only [ef] at h1 ⊢; rw [map_some_retain]; exact .self h1
      | none =>
        simp only [ef] at h1 ⊢
        cases m.obj with
        | false => exact .nothing h _
        | true => exact .self h1

theorem mAnonInd_part {s : St} (h : Reachable s) (m : Mem) {a i : Nat} (hl : Legal s (.anonInd a i)) :
    Part s (anonInd s a i) (mAnonInd m s a i) := by
  have h1 : ∃ s' x, anonInd s a i = some (s', x) := C04_no_ub h hl
  obtain ⟨_, c, hc⟩ := hl
  unfold anonInd at h1 ⊢
  unfold mAnonInd
  rw [content_eq.2 hc] at h1 ⊢
  simp only at h1 ⊢
  cases m.put with
  | false => exact .nothing h _
  | true =>
    simp only [Bool.not_true, Bool.false_eq_true, if_false]
    cases ef : s.anonT.find? (s.anonIs (some c)) with
    | some b => simp only [ef] at h1 ⊢; rw [map_some_retain]; exact .self h1
    | none =>
      simp only [ef] at h1 ⊢
      cases m.obj with
      | false => exact .nothing h _
      | true => exact .self h1

/-- A string is made and released again. -/
theorem gain_back {s : St} (h : Reachable s) {a : Nat} (ha : ¬ Live s a) (c : Str) :
    ∃ u, release (s.alloc a (.str c false)) a = some u ∧ Gain s u [] := by
  have hv : ∀ c, release (s.alloc a (.str c false)) a =
      some { s with cells := s.cells.filter fun p => p.1 != a, rc := upd (upd s.rc a 1) a 0
                    ext := upd (upd s.ext a (s.ext a + 1)) a (s.ext a) } := by
    intro c
    have hc : (s.alloc a (.str c false)).cellOf a = some (.str c false) := by rw [cellOf_alloc, if_pos rfl]
    unfold release
    rw [hc]
    unfold releaseStr
    rw [hc]
    simp [St.decr, St.alloc, St.drop, upd_same]
  obtain ⟨u, x, e, G, _, hx, _⟩ := mNewString_gain (.refl h) true ha [0]
  have e1 : mNewString true s a [0] = some (s.alloc a (.str [0] false), some a) := rfl
  rw [e1] at e
  cases e
  obtain ⟨w, e2, G2, _⟩ := G.release h (x := a) (by simp)
  refine ⟨w, ?_, by simpa using G2⟩
  rw [← e2, hv, hv]

theorem mAnonFromString_part {s : St} (h : Reachable s) (m : Mem) {a1 a : Nat} {c : Str}
    (hl : Legal s (.anonFromString a1 a c)) (hm : m.obj = true → m.str1 = true ∧ m.dup = true) :
    Part s (anonFromString s a1 a c) (mAnonFromString m s a1 a c) := by
  have h1 : ∃ s' x, anonFromString s a1 a c = some (s', x) := C04_no_ub h hl
  unfold anonFromString at h1 ⊢
  unfold mAnonFromString
  cases m.put with
  | false => exact .nothing h _
  | true =>
    simp only [Bool.not_true, Bool.false_eq_true, if_false]
    cases ef : s.anonT.find? (s.anonIs (some c)) with
    | some b => simp only [ef] at h1 ⊢; rw [map_some_retain]; exact .self h1
    | none =>
      simp only [ef] at h1 ⊢
      cases ho : m.obj with
      | false =>
        cases m.str1 with
        | false => exact .nothing h _
        | true =>
          obtain ⟨u, e, G⟩ := gain_back h hl.1 (if m.dup then c else [])
          refine ⟨u, none, ?_, fun x e => (by cases e), fun _ => G⟩
          simp only [Bool.not_true, Bool.not_false, Bool.false_eq_true, if_false, if_true]
          rw [e]; rfl
      | true =>
        obtain ⟨hs, hd⟩ := hm ho
        simp only [hs, hd, Bool.not_true, Bool.false_eq_true, if_false, if_true]
        obtain ⟨s', x, e⟩ := h1
        rw [Option.map_eq_some_iff] at e
        obtain ⟨u, e, e'⟩ := e
        cases e'
        refine ⟨_, some a, by rw [e]; rfl, fun x hx => ?_, fun e => (by cases e)⟩
        cases hx
        rw [e]; rfl

theorem pickId_spec {s : St} (h : Reachable s) {c : Str} : ∀ {ids : List (Str × Bool)}, pickId s ids = some c →
    c ∈ ids.map Prod.fst ∧ ∀ b, ¬ Denotes s b (.prim (.anon c))
  | [], e => by cases e
  | (d, put) :: ids, e => by
    unfold pickId at e
    cases put with
    | false => cases e
    | true =>
      simp only [Bool.not_true, Bool.false_eq_true, if_false] at e
      rcases find_anonT (reachable_inv h) d with ⟨b, ef, _⟩ | ⟨ef, hn⟩
      · rw [ef] at e
        obtain ⟨h1, h2⟩ := pickId_spec h (ids := ids) e
        exact ⟨List.mem_cons_of_mem _ h1, h2⟩
      · rw [ef] at e
        cases e
        refine ⟨List.mem_cons_self, fun b hb => ?_⟩
        cases hb with
        | anon hc hi => exact hn _ _ hc (content_eq.2 hi)

theorem mGenerate_spec {s : St} (h : Reachable s) (m : Mem) {a1 a : Nat} (l1 : ¬ Live s a1) (l2 : ¬ Live s a)
    (l12 : a1 ≠ a) (ids : List (Str × Bool)) :
    ∃ s' r, mGenerate m s a1 a ids = some (s', r) ∧ (r = none → Gain s s' []) ∧
      ∀ x, r = some x → x = a ∧ Gain s s' [x] ∧ ∃ c, pickId s ids = some c ∧ Denotes s' x (.prim (.anon c)) := by
  unfold mGenerate
  cases ep : pickId s ids with
  | none => exact ⟨s, none, rfl, fun _ => .refl h, fun x e => (by cases e)⟩
  | some c =>
    obtain ⟨_, hno⟩ := pickId_spec h ep
    obtain ⟨s1, x, e1, G1, L1, D1, N1⟩ := mNewString_gain (.refl h) m.str1 l1 c
    simp only [e1, Option.bind_some]
    cases x with
    | none => exact ⟨s1, none, rfl, fun _ => G1, fun x e => (by cases e)⟩
    | some x =>
      obtain ⟨hx, ex⟩ := D1 x rfl
      simp only
      cases m.obj with
      | false =>
        obtain ⟨u, e2, G2, _⟩ := G1.release h (x := x) (by simp)
        refine ⟨u, none, ?_, fun _ => by simpa using G2, fun x e => (by cases e)⟩
        simp only [Bool.not_false, if_true, e2, Option.map_some]
      | true =>
        simp only [Bool.not_true, Bool.false_eq_true, if_false]
        have hi1 := reachable_inv G1.reach
        have dead : s.cellOf a1 = none := Classical.byContradiction l1
        have hno1 : ∀ b i, s1.cellOf b = some (.anon i) → s1.content i ≠ some c := by
          intro b i hb hc
          have hd : Denotes s1 b (.prim (.anon c)) := .anon hb (content_eq.1 hc)
          rcases N1 b (live_iff.2 ⟨_, hb⟩) with hl | rfl
          · obtain ⟨d, hd0⟩ := live_iff.1 hl
            obtain ⟨v, hv⟩ := (reachable_inv h).denotes hd0
            have := denotes_det (L1.den _ _ hv) hd
            subst this
            exact hno b hv
          · unfold newString at ex
            by_cases hc0 : c = []
            · rw [if_pos hc0, Option.map_eq_some_iff] at ex
              obtain ⟨w, ew, e'⟩ := ex
              cases e'
              obtain ⟨_, e'', _, hcells, _⟩ := inv_retain (reachable_inv h) (reachable_inv h).emptyC
              rw [ew] at e''; cases e''
              have : s1.cellOf b = s.cellOf b := by unfold St.cellOf; rw [hcells]
              rw [this, dead] at hb; cases hb
            · rw [if_neg hc0] at ex
              cases ex
              rw [cellOf_alloc, if_pos rfl] at hb; cases hb
        have l3 : ¬ Live s1 a := fun hb => (N1 _ hb).elim l2 (fun e => l12 e.symm)
        have ea : anonInd s1 a x = some ({ (s1.incr x).alloc a (.anon x) with anonT := a :: s1.anonT }, a) := by
          unfold anonInd
          rw [content_eq.2 hx]
          rcases find_anonT hi1 c with ⟨b, _, hb⟩ | ⟨ef, _⟩
          · cases hb with
            | anon hb hi => exact absurd (content_eq.2 hi) (hno1 _ _ hb)
          · simp only [ef]
        have hl : Legal s1 (.anonInd a x) := ⟨l3, _, hx⟩
        have G2 := G1.make hl ⟨fun x => (by simp), fun x => (by simp)⟩ (show step s1 (.anonInd a x) = _ from ea)
        obtain ⟨v, hv, hd⟩ := C04_result G1.reach hl (show step s1 (.anonInd a x) = _ from ea) (by intros; simp)
        obtain ⟨u, e2, G3, S3⟩ := G2.release h (x := x) (by simp)
        have hxa : a ≠ x := by
          rintro rfl
          exact l3 (live_iff.2 hx.live)
        have herase : (a :: ((some x).toList ++ ([] : List Nat))).erase x = [a] := by
          rw [List.erase_cons_tail (by simpa using hxa)]
          simp
        rw [herase] at G3
        refine ⟨u, some a, by rw [e2]; rfl, fun e => (by cases e), fun z hz => ?_⟩
        cases hz
        refine ⟨rfl, G3, c, rfl, ?_⟩
        cases hv with
        | anonInd hx' =>
          have := denotes_det hx hx'
          cases this
          have hli := (reachable_inv G3.reach).extLive a (by rw [G3.ext]; simp)
          exact S3.denotes (reachable_inv G3.reach) hd hli

/-! ## Counts -/

theorem indeg_eq {s t : St} (hs : Inv s) (ht : Inv t)
    (h : ∀ b, (t.cellOf b).map Cell.fields = (s.cellOf b).map Cell.fields) (a : Nat) : t.indeg a = s.indeg a := by
  have hp : (t.cells.map fun p => (p.1, p.2.fields)).Perm (s.cells.map fun p => (p.1, p.2.fields)) := by
    have nd : ∀ {u : St}, Inv u → (u.cells.map fun p => (p.1, p.2.fields)).Nodup := by
      intro u hu
      have hn := hu.nodup
      unfold List.Nodup at hn ⊢
      rw [List.pairwise_map] at hn ⊢
      exact hn.imp fun hne e => hne (_root_.Prod.mk.inj e).1
    have mem : ∀ {u : St}, Inv u → ∀ b fs, (b, fs) ∈ (u.cells.map fun p => (p.1, p.2.fields)) ↔
        (u.cellOf b).map Cell.fields = some fs := by
      intro u hu b fs
      rw [List.mem_map, Option.map_eq_some_iff]
      constructor
      · rintro ⟨⟨x, c⟩, hm, e⟩
        cases e
        exact ⟨c, mem_lookup hu.nodup hm, rfl⟩
      · rintro ⟨c, hc, rfl⟩
        exact ⟨(b, c), lookup_mem hc, rfl⟩
    rw [List.perm_ext_iff_of_nodup (nd ht) (nd hs)]
    rintro ⟨b, fs⟩
    rw [mem ht, mem hs, h]
  have hc := (hp.flatMap_right fun p => p.2).count_eq a
  rw [List.flatMap_map, List.flatMap_map] at hc
  exact hc

theorem Gain.counts {s t : St} (hs : Reachable s) (h : Gain s t []) {b : Nat} (hb : Live s b) : t.rc b = s.rc b := by
  have hi := reachable_inv hs
  have hi' := reachable_inv h.reach
  have hf : ∀ b, (t.cellOf b).map Cell.fields = (s.cellOf b).map Cell.fields := by
    intro b
    cases e : s.cellOf b with
    | none =>
      cases e' : t.cellOf b with
      | none => rfl
      | some d => exact absurd e (h.live hs (live_iff.2 ⟨d, e'⟩))
    | some d =>
      rcases h.le b d e with h1 | ⟨x, rfl, h1⟩
      · rw [h1]
      · rw [h1]; rfl
  obtain ⟨c, hc⟩ := live_iff.1 hb
  have hlt : ∃ d, t.cellOf b = some d := by
    rcases h.le b c hc with h1 | ⟨x, _, h1⟩
    · exact ⟨_, h1⟩
    · exact ⟨_, h1⟩
  obtain ⟨d, hd⟩ := hlt
  rw [(hi.rcEq b c hc).1, (hi'.rcEq b d hd).1, h.ext, h.emp, indeg_eq hi hi' hf]
  simp

/-- Values do not change, either. -/
theorem Gain.denotes {s t : St} (hs : Reachable s) (h : Gain s t []) (b : Nat) (v : Val) :
    Denotes t b v ↔ Denotes s b v := by
  refine ⟨fun hd => ?_, h.le.den b v⟩
  obtain ⟨c, hc⟩ := live_iff.1 (h.live hs (live_iff.2 hd.live))
  obtain ⟨w, hw⟩ := (reachable_inv hs).denotes hc
  have := denotes_det (h.le.den _ _ hw) hd
  subst this
  exact hw

end Cowl.Heap
