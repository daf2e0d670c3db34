import Verif.FuncOwnLemmas
/-!
# Lemmas on the functional reader: actions that pass the check hold no reference in the end
-/
namespace Cowl.YOwn
open Cowl.Own

section
variable {rest : List (Sym × Val)} {args : List Val} {ks : List Kind} {A A' : Abs} {f : Frame} {c : Choice}

/-- What a statement, or an action, comes to. -/
def Sound (rest : List (Sym × Val)) (args : List Val) (ks : List Kind) (A' : Abs) (o : Out) : Prop :=
  (∃ f', o = .go f' ∧ FI rest args ks A' f') ∨ ∃ n f', o = .fail n f' ∧ Clean rest f'

theorem Sound.go {f' : Frame} (h : FI rest args ks A' f') : Sound rest args ks A' (.go f') := .inl ⟨f', rfl, h⟩

theorem ptrs_one {a : Nat} : (Val.ptr (some a)).ptrs = [a] := rfl

/-- A vector of the right-hand side that nothing has used yet. -/
theorem FI.full (h : FI rest args ks A f) (hs : A.sole = true) {i a : Nat} (hi : i ∈ A.own)
    (hk : (kindAt ks i).isVec = true) (hv : valAt args i = .ptr (some a)) : Full f.st a :=
  (h.sole hs i hi hk a (by rw [hv]; simp [Val.ptrs])).1.full

theorem block_free {ms : List (Option Nat)} {s : St} (h : Blocks s ms) {m : Option Nat} (hm : m ∈ ms) {a : Nat}
    (ha : m = some a) : s.cell a = none := h.1 m hm a ha

theorem ownPtrs_append (l l' : List Nat) : ownPtrs args (l ++ l') = ownPtrs args l ++ ownPtrs args l' := by
  simp [ownPtrs]

theorem ownPtrs_val {i : Nat} {p : Option Nat} (h : valAt args i = .ptr p) : ownPtrs args [i] = p.toList := by
  cases p <;> simp [ownPtrs, h, Val.ptrs]

theorem ownPtrs_cons (i : Nat) (l : List Nat) : ownPtrs args (i :: l) = (valAt args i).ptrs ++ ownPtrs args l := by
  simp [ownPtrs]

theorem val_ptrs {i : Nat} {p : Option Nat} (h : valAt args i = .ptr p) : (valAt args i).ptrs = p.toList := by
  cases p <;> simp [h, Val.ptrs]

theorem sound_alias (hc : Ctx rest args ks) (h : FI rest args ks A f) {i : Nat}
    (hA : A.step ks (.alias i) = some A') : Sound rest args ks A' ((Stmt.alias i).run args c f) := by
  simp only [Abs.step] at hA
  split at hA
  · rename_i hu
    have hsh := hc.args i
    split at hA
    · rename_i hk
      split at hA
      · rename_i hi
        cases hA
        rw [hk] at hsh
        obtain ⟨a, ha⟩ := hsh
        simp only [Stmt.run, getElem_val ha (by simp)]
        exact .go (h.alias hu.1 hi ha ⟨a, rfl⟩)
      · exact absurd hA (by simp)
    · rename_i hk
      split at hA
      · rename_i hi
        cases hA
        rw [hk] at hsh
        obtain ⟨a, ha⟩ := hsh
        simp only [Stmt.run, getElem_val ha (by simp)]
        obtain ⟨k1, k2, k3⟩ := h.sole hu.2 i hi (by rw [hk]; rfl) a (by rw [ha]; simp [Val.ptrs])
        refine .go (h.alias hu.1 hi ha ⟨a, rfl, k1, k2, fun hx => ?_⟩)
        rw [count_erase hi, ha] at k3
        have := List.count_pos_iff.mpr hx
        simp [Val.ptrs] at k3
        dsimp only at this
        omega
      · exact absurd hA (by simp)
    · rename_i hk
      split at hA
      · rename_i hi
        cases hA
        rw [hk] at hsh
        have : ∃ v, args[i - 1]? = some v := by
          obtain ⟨k, hk'⟩ := Option.isSome_iff_exists.mp hi
          have hlt := (List.getElem?_eq_some_iff.mp hk').1
          exact ⟨_, List.getElem?_eq_getElem (by rw [hc.len]; exact hlt)⟩
        obtain ⟨v, hv⟩ := this
        have hva : valAt args i = v := by simp [valAt, hv]
        rw [hva] at hsh
        simp only [Stmt.run, hv]
        have hp : v.ptrs = [] := by
          cases v <;> simp [Val.ptrs]
          exact absurd rfl (hsh.1 _)
        have hp0 : f.res.ptrs = [] := by
          have := h.res
          unfold ResOk at this
          rw [hu.1] at this
          cases e : f.res <;> simp [Val.ptrs]
          exact absurd e (this.1 _)
        refine .go ⟨h.inv, fun b => ?_, fun e he hk b hb => ?_, fun hs => absurd hs (by simp), hsh,
          fun j hj => absurd hj (by simp), h.bufs⟩
        · have := h.ext b
          simpa [E, hp, hp0] using this
        · have := h.below e he hk b hb
          simpa [E, hp, hp0] using this
      · exact absurd hA (by simp)
    · exact absurd hA (by simp)
  · exact absurd hA (by simp)

theorem FI.unset (h : FI rest args ks A f) (hu : A.res = .unset) : f.res.ptrs = [] := by
  have := h.res
  unfold ResOk at this
  rw [hu] at this
  cases e : f.res <;> simp [Val.ptrs]
  exact absurd e (this.1 _)

/-- Nothing the parser holds changes. -/
theorem FI.with (h : FI rest args ks A f) (hu : A.res = .unset) {v : Val} {rk : RK} {rets : List Ret}
    (hv : v.ptrs = []) (hr : ResOk rest args ⟨A.own, false, rk, [], A.bufs⟩ { f with res := v, rets := rets }) :
    FI rest args ks ⟨A.own, false, rk, [], A.bufs⟩ { f with res := v, rets := rets } := by
  have hp0 := h.unset hu
  refine ⟨h.inv, fun b => ?_, fun e he hk b hb => ?_, fun hs => absurd hs (by simp), hr,
    fun j hj => absurd hj (by simp), h.bufs⟩
  · have := h.ext b
    simpa [E, hv, hp0] using this
  · have := h.below e he hk b hb
    simpa [E, hv, hp0] using this

theorem if_some {α : Type} {p : Prop} [Decidable p] {a b : α} (h : (if p then some a else none) = some b) :
    p ∧ a = b := by
  by_cases hp : p
  · rw [if_pos hp] at h; exact ⟨hp, Option.some.inj h⟩
  · rw [if_neg hp] at h; exact absurd h (by simp)

theorem sound_make (hc : Ctx rest args ks) (h : FI rest args ks A f) (hcalm : Calm c) {x : Stmt}
    (hm : Meets args x c f) {k : Ctor} {l : List Nat} {o : Option Nat}
    (hA : A.step ks (.make k l o) = some A') : Sound rest args ks A' ((Stmt.make k l o).run args c f) := by
  simp only [Abs.step] at hA
  obtain ⟨⟨hu, hs, hk, hl, h1, h2, hpl⟩, e⟩ := if_some hA
  cases e
  · obtain ⟨m, hmm⟩ := Option.isSome_iff_exists.mp hcalm.1
    obtain ⟨xs, e1, e2, e3⟩ := ptrsAt_val (args := args) (l := l) fun i hi => hc.one (has_mem h1 hi).2
    have hmfree : f.st.cell m = none := block_free hm.blocks (by simp) hmm
    have hxl : ∀ x ∈ xs, f.st.live x = true := fun x hx => by
      rw [e3] at hx
      obtain ⟨i, hi, hx⟩ := mem_ownPtrs.mp hx
      exact h.liveOwn (has_mem h1 hi).1 hx
    -- the optional field
    obtain ⟨p, p1, p2, p3, p4⟩ : ∃ p, optAt args o = some p ∧ ownPtrs args o.toList = p.toList ∧
        (∀ x ∈ p, f.st.live x = true) ∧ (k.form = .annot → ∀ x ∈ p, Full f.st x) := by
      cases o with
      | none => exact ⟨none, rfl, rfl, by simp, by simp⟩
      | some i =>
        obtain ⟨hi, hki⟩ := has_mem h2 (i := i) (by simp)
        have : ∃ p, valAt args i = .ptr p := by
          by_cases hf : k.form = .annot
          · rw [if_pos hf] at hki; exact hc.vec hki
          · rw [if_neg hf] at hki
            obtain ⟨a, ha⟩ := hc.obj hki
            exact ⟨_, ha⟩
        obtain ⟨p, hp⟩ := this
        refine ⟨p, ptrAt_val hp, ownPtrs_val hp, fun x hx => ?_, fun hf x hx => ?_⟩
        · exact h.liveOwn hi (by rw [val_ptrs hp]; simpa using hx)
        · rw [if_pos hf] at hki
          rw [Option.mem_def] at hx
          rw [hx] at hp
          exact h.full hs hi hki hp
    obtain ⟨s', g1, g2⟩ := make_ok h.inv hmfree hk (e2.trans hl) hxl p3 p4 (fun hf => by
      have := hpl hf
      rw [this] at p1
      exact (Option.some.inj p1).symm)
    simp only [Stmt.run, e1, p1, hmm, g1, Frame.assign]
    refine .go (h.makes hu g2 (fun x => by rw [ownPtrs_append, e3, p2]) fun i hi => ?_)
    rcases List.mem_append.mp hi with hi | hi
    · exact (has_mem h1 hi).1
    · exact (has_mem h2 hi).1

theorem sound_chain (hc : Ctx rest args ks) (h : FI rest args ks A f) (hcalm : Calm c) {x : Stmt}
    (hm : Meets args x c f) {i j k : Nat} (hA : A.step ks (.chain i j k) = some A') :
    Sound rest args ks A' ((Stmt.chain i j k).run args c f) := by
  simp only [Abs.step] at hA
  split at hA
  · rename_i hu
    obtain ⟨hu, hs, h1, h2, h3⟩ := hu
    cases hA
    obtain ⟨m, hmm⟩ := Option.isSome_iff_exists.mp hcalm.1
    obtain ⟨i1, i2⟩ := has_mem h1 (i := i) (by simp)
    obtain ⟨j1, j2⟩ := has_mem h2 (i := j) (by simp)
    obtain ⟨k1, k2⟩ := has_mem h3 (i := k) (by simp)
    obtain ⟨x, hx⟩ := hc.oneVec i2
    obtain ⟨y, hy⟩ := hc.obj j2
    obtain ⟨p, hp⟩ := hc.vec k2
    have hvx : IsVec f.st x := (h.full hs i1 (by
      cases e : kindAt ks i <;> rw [e] at i2 <;> simp [isOneVec] at i2
      rfl) hx).isVec
    obtain ⟨s', g1, g2⟩ := chain_ok h.inv (block_free hm.blocks (m := c.m₁) (by simp) hmm) hvx
      (y := y) (h.liveOwn j1 (by rw [hy]; simp [Val.ptrs])) (p := p) (fun z hz => by
        rw [Option.mem_def] at hz
        rw [hz] at hp
        exact h.full hs k1 k2 hp)
    have hpt : ptrsAt args [i, j] = some [x, y] := by
      simp [ptrsAt, ptrAt_val hx, ptrAt_val hy]
    simp only [Stmt.run, hpt, ptrAt_val hp, hmm, g1, Frame.assign]
    refine .go (h.makes hu g2 (fun z => ?_) fun n hn => ?_)
    · rw [ownPtrs_cons, ownPtrs_cons, ownPtrs_val hp, val_ptrs hx, val_ptrs hy]; simp
    · simp only [List.mem_cons, List.not_mem_nil, or_false] at hn
      rcases hn with rfl | rfl | rfl
      · exact i1
      · exact j1
      · exact k1
  · exact absurd hA (by simp)

theorem sound_hasKey (hc : Ctx rest args ks) (h : FI rest args ks A f) (hcalm : Calm c) {x : Stmt}
    (hm : Meets args x c f) {i j k n : Nat} (hA : A.step ks (.hasKey i j k n) = some A') :
    Sound rest args ks A' ((Stmt.hasKey i j k n).run args c f) := by
  simp only [Abs.step] at hA
  split at hA
  · rename_i hu
    obtain ⟨hu, hs, h1, h2⟩ := hu
    cases hA
    obtain ⟨m, hmm⟩ := Option.isSome_iff_exists.mp hcalm.1
    obtain ⟨m', hmm'⟩ := Option.isSome_iff_exists.mp hcalm.2.1
    obtain ⟨a, ha⟩ := Option.isSome_iff_exists.mp hcalm.2.2.1
    obtain ⟨i1, i2⟩ := has_mem h1 (i := i) (by simp)
    obtain ⟨j1, j2⟩ := has_mem h2 (i := j) (by simp)
    obtain ⟨k1, k2⟩ := has_mem h2 (i := k) (by simp)
    obtain ⟨n1, n2⟩ := has_mem h2 (i := n) (by simp)
    obtain ⟨x, hx⟩ := hc.obj i2
    obtain ⟨o, ho⟩ := hc.vec j2
    obtain ⟨d, hd⟩ := hc.vec k2
    obtain ⟨p, hp⟩ := hc.vec n2
    have q := hm.blocks.2
    have q1 := List.pairwise_cons.mp q
    have q2 := List.pairwise_cons.mp q1.2
    obtain ⟨s', g1, g2⟩ := hasKey_ok h.inv (m₁ := m) (m₂ := m') (a := a) (x := x) (o := o) (d := d) (p := p)
      (block_free hm.blocks (m := c.m₁) (by simp) hmm) (block_free hm.blocks (m := c.m₂) (by simp) hmm')
      (block_free hm.blocks (m := c.m₃) (by simp) ha)
      (fun e => q1.1 c.m₂ (by simp) m hmm (by rw [hmm', e]))
      (fun e => q1.1 c.m₃ (by simp) m hmm (by rw [ha, e]))
      (fun e => q2.1 c.m₃ (by simp) m' hmm' (by rw [ha, e]))
      (h.liveOwn i1 (by rw [hx]; simp [Val.ptrs]))
      (fun y hy => h.liveOwn j1 (by rw [val_ptrs ho]; simpa using hy))
      (fun y hy => h.liveOwn k1 (by rw [val_ptrs hd]; simpa using hy))
      (fun z hz => by
        rw [Option.mem_def] at hz
        rw [hz] at hp
        exact h.full hs n1 n2 hp)
    have hpt : ptrsAt args [i] = some [x] := by simp [ptrsAt, ptrAt_val hx]
    simp only [Stmt.run, hpt, ptrAt_val ho, ptrAt_val hd, ptrAt_val hp, hmm, hmm', ha, g1, Frame.assign]
    refine .go (h.makes hu g2 (fun z => ?_) fun t ht => ?_)
    · rw [ownPtrs_cons, ownPtrs_cons, ownPtrs_cons, ownPtrs_val hp, val_ptrs hx, val_ptrs ho, val_ptrs hd]; simp
    · simp only [List.mem_cons, List.not_mem_nil, or_false] at ht
      rcases ht with rfl | rfl | rfl | rfl
      · exact i1
      · exact j1
      · exact k1
      · exact n1
  · exact absurd hA (by simp)

theorem sound_lit (hc : Ctx rest args ks) (h : FI rest args ks A f) (hcalm : Calm c) {i : Nat} {j : Option Nat}
    (hm : Meets args (.lit i j) c f) (hA : A.step ks (.lit i j) = some A') :
    Sound rest args ks A' ((Stmt.lit i j).run args c f) := by
  simp only [Abs.step] at hA
  split at hA
  · rename_i hu
    obtain ⟨hu, h1⟩ := hu
    cases hA
    obtain ⟨m, hmm⟩ := Option.isSome_iff_exists.mp hcalm.1
    obtain ⟨i1, i2⟩ := has_mem h1 (i := i) (by simp)
    obtain ⟨x, hx⟩ := hc.obj i2
    obtain ⟨t, t1, t2, t3, t4⟩ : ∃ t, optAt args j = some t ∧ (∀ y ∈ t, f.st.live y = true) ∧
        (∀ y, t = some y → y ∈ ownPtrs args A.own) ∧ (t = none → j = none) := by
      cases j with
      | none => exact ⟨none, rfl, by simp, by simp, fun _ => rfl⟩
      | some j =>
        obtain ⟨j1, j2⟩ := has_mem h1 (i := j) (by simp)
        obtain ⟨y, hy⟩ := hc.obj j2
        refine ⟨some y, ptrAt_val hy, fun z hz => h.liveOwn j1 (by rw [val_ptrs hy]; simpa [eq_comm] using hz), fun z hz => ?_,
          by simp⟩
        exact mem_ownPtrs.mpr ⟨j, j1, by rw [val_ptrs hy]; simpa [eq_comm] using hz⟩
    obtain ⟨p1, p2⟩ := hm.blocks
    have hb : Blocks f.st [c.m₁, c.value.bind Leaf.block, c.tag.bind Leaf.block] :=
      ⟨fun m hm' => p1 m (by simp at hm' ⊢; rcases hm' with e | e | e <;> simp [e]),
        p2.sublist (.cons_cons _ (.cons _ (.cons _ (.cons _ (.refl _)))))⟩
    obtain ⟨s', r, F, g1, g2, g3⟩ := litRun_ok (t := t) (v := x) h.inv hmm hb hm.value hm.tag
      (fun e => hm.lit i (by rw [t4 e])) hm.plain (h.liveOwn i1 (by rw [hx]; simp [Val.ptrs])) t2
    have hpt : ptrsAt args [i] = some [x] := by simp [ptrsAt, ptrAt_val hx]
    simp only [Stmt.run, hpt, t1, g1, Frame.assign]
    have k := h.gets (n := A.bufs) hu g2 fun z hz => by
      rcases g3 z hz with rfl | e | e
      · exact .inl (mem_ownPtrs.mpr ⟨i, i1, by rw [hx]; simp [Val.ptrs]⟩)
      · exact .inl (t3 z e)
      · exact .inr e
    have e : ({ f with st := s', res := .ptr r, bufs := A.bufs } : Frame) = { f with st := s', res := .ptr r } := by
      rw [← h.bufs]
    rw [e] at k
    exact .go k
  · exact absurd hA (by simp)

theorem sound_vector {own : List Nat} (h : FI rest args ks A f) (hcalm : Calm c) {x : Stmt}
    (hm : Meets args x c f) (hu : A.res = .unset)
    (ho : ∀ a, (ownPtrs args own).count a = (ownPtrs args A.own).count a) :
    ∃ s m, f.st.step (.vector true c.m₁ []) = some (s, some m) ∧
      FI rest args ks ⟨own, false, .vecE, [], A.bufs⟩ { f with st := s, res := .ptr (some m) } := by
  obtain ⟨m, hmm⟩ := Option.isSome_iff_exists.mp hcalm.1
  have hfree := block_free hm.blocks (m := c.m₁) (by simp) hmm
  exact ⟨_, m, by simp [St.step, St.vector, hmm], h.vector hu hfree ho⟩

theorem sound_check (h : FI rest args ks A f) {n : Nat} {o : Out}
    (hA : (if A.own = [] ∧ A.bufs = 0 ∧ (A.res = .maybe ∨ A.res = .obj) then some (⟨[], false, .obj, A.holds, 0⟩ : Abs)
      else if A.res = .vec ∨ A.res = .vecE then some ⟨A.own, false, A.res, A.holds, A.bufs⟩ else none) = some A')
    (hnull : f.res = .ptr none → o = .fail n f) (hsome : ∀ r, f.res = .ptr (some r) → o = .go f) :
    Sound rest args ks A' o := by
  split at hA
  · rename_i hu
    obtain ⟨hown, hb, hr⟩ := hu
    cases hA
    have : ∃ p, f.res = .ptr p := by
      have := h.res
      unfold ResOk at this
      rcases hr with e | e <;> rw [e] at this
      · exact this
      · obtain ⟨r, hr⟩ := this; exact ⟨_, hr⟩
    obtain ⟨p, hp⟩ := this
    cases p with
    | none =>
      rw [hnull hp]
      exact .inr ⟨n, f, rfl, h.clean hown (by rw [hp]; rfl) hb⟩
    | some r =>
      rw [hsome r hp]
      refine .go ⟨h.inv, fun a => ?_, fun e he hk a ha => ?_, fun hs => absurd hs (by simp), ⟨r, hp⟩, h.holds,
        by rw [h.bufs, hb]⟩
      · have := h.ext a; simpa [E, hown] using this
      · have := h.below e he hk a ha; simpa [E, hown] using this
  · split at hA
    · rename_i hr
      cases hA
      have hres := h.res
      have : ∃ r, f.res = .ptr (some r) := by
        unfold ResOk at hres
        rcases hr with e | e <;> rw [e] at hres
        · obtain ⟨r, hr, _⟩ := hres; exact ⟨r, hr⟩
        · obtain ⟨r, hr, _⟩ := hres; exact ⟨r, hr⟩
      obtain ⟨r, hp⟩ := this
      rw [hsome r hp]
      exact .go ⟨h.inv, h.ext, h.below, fun hs => absurd hs (by simp), h.res, h.holds, h.bufs⟩
    · exact absurd hA (by simp)

theorem sound_fail (h : FI rest args ks A f) {o : Out}
    (hA : (if A.own = [] ∧ A.bufs = 0 ∧ A.res = .unset then some (⟨[], false, .unset, [], 0⟩ : Abs) else none) = some A')
    (ho : o = .go f ∨ ∃ n, o = .fail n f) : Sound rest args ks A' o := by
  split at hA
  · rename_i hu
    obtain ⟨hown, hb, hr⟩ := hu
    cases hA
    rcases ho with rfl | ⟨n, rfl⟩
    · refine .go ⟨h.inv, fun a => ?_, fun e he hk a ha => ?_, fun hs => absurd hs (by simp), ?_,
        fun i hi => absurd hi (by simp), by rw [h.bufs, hb]⟩
      · have := h.ext a; simpa [E, hown] using this
      · have := h.below e he hk a ha; simpa [E, hown] using this
      · have := h.res
        unfold ResOk at this
        rw [hr] at this
        exact this
    · exact .inr ⟨n, f, rfl, h.clean hown (h.unset hr) hb⟩
  · exact absurd hA (by simp)

theorem sound_leaf (h : FI rest args ks A f) (hu : A.res = .unset) {x : Stmt} (hm : Meets args x c f) {n : Nat} :
    Sound rest args ks ⟨A.own, false, .maybe, [], n⟩ (Frame.assign { f with bufs := n } (getLeaf f.st c.leaf)) := by
  obtain ⟨s', r, g1, g2, _⟩ := getLeaf_ok h.inv (l := c.leaf)
    (fun a ha => block_free hm.blocks (m := c.leaf.block) (by simp) ha) hm.leaf
  rw [g1]
  exact .go (h.gets (n := n) hu g2 (by simp))

theorem sound_handle (hc : Ctx rest args ks) (h : FI rest args ks A f) {l : List Nat}
    (hm : Meets args (.handle l) c f) (hA : A.step ks (.handle l) = some A') :
    Sound rest args ks A' ((Stmt.handle l).run args c f) := by
  simp only [Abs.step] at hA
  split at hA
  · rename_i hu
    obtain ⟨hu, h1⟩ := hu
    cases hA
    obtain ⟨xs, e1, e2, e3⟩ := ptrsAt_val (args := args) (l := l) fun i hi => hc.obj (has_mem h1 hi).2
    have hxo : ∀ x ∈ xs, x ∈ ownPtrs args A.own := fun x hx => by
      rw [e3] at hx
      obtain ⟨i, hi, hx⟩ := mem_ownPtrs.mp hx
      exact mem_ownPtrs.mpr ⟨i, (has_mem h1 hi).1, hx⟩
    have hlive : xs.all f.st.live = true := List.all_eq_true.mpr fun x hx =>
      h.live (.inr (List.mem_append.mpr (.inl (hxo x hx))))
    obtain ⟨s', o', g1, g2, g3, g4, g5⟩ := hops_spec (given := xs) (T := owned rest ++ E args A f)
      (fun x hx => List.mem_append.mpr (.inr (List.mem_append.mpr (.inl (hxo x hx))))) h.inv h.ext
      (hm.hops l rfl xs e1)
    simp only [Stmt.run, e1, hlive, g1, Bool.not_true, Bool.false_eq_true, if_false]
    have hres := h.unset hu
    have hE : E args ⟨A.own, false, .unset, [], A.bufs⟩ { f with st := s', others := o', rets := f.rets ++ [c.ret] } =
        E args A f := rfl
    refine .go ⟨g2, fun a => ?_, fun e he hk a ha => ?_, fun hs => absurd hs (by simp), ?_,
      fun i hi => absurd hi (by simp), h.bufs⟩
    · rw [hE]; exact g3 a
    · obtain ⟨k1, k2⟩ := h.below e he hk a ha
      rw [hE]
      have ho : o' a = 0 := g5 a k1.noref k1.out fun hx => k2 (List.mem_append.mpr (.inl (hxo a hx)))
      refine ⟨k1.keep g4.moves (by simp) (live_of_ext g2 ?_) ho, k2⟩
      rw [g3]
      have := List.count_pos_iff.mpr (List.mem_append.mpr (.inl (mem_rest he ha)) : a ∈ owned rest ++ E args A f)
      omega
    · have := h.res
      unfold ResOk at this
      rw [hu] at this
      exact this
  · exact absurd hA (by simp)

theorem stmt_sound (hc : Ctx rest args ks) (h : FI rest args ks A f) (hcalm : Calm c) {x : Stmt}
    (hm : Meets args x c f) (hA : A.step ks x = some A') : Sound rest args ks A' (x.run args c f) := by
  cases x with
  | «alias» i => exact sound_alias hc h hA
  | null =>
    simp only [Abs.step] at hA
    split at hA
    · rename_i hu
      cases hA
      exact .go (h.with hu (rets := f.rets) rfl rfl)
    · exact absurd hA (by simp)
  | leaf l =>
    simp only [Abs.step] at hA
    split at hA
    · rename_i hu
      cases hA
      obtain ⟨xs, e1, e2, e3⟩ := ptrsAt_val (args := args) (l := l) fun i hi => hc.obj (has_mem hu.2 hi).2
      have hlive : xs.all f.st.live = true := List.all_eq_true.mpr fun x hx => by
        rw [e3] at hx
        obtain ⟨i, hi, hx⟩ := mem_ownPtrs.mp hx
        exact h.liveOwn (has_mem hu.2 hi).1 hx
      simp only [Stmt.run, e1, hlive, if_true]
      have := sound_leaf h hu.1 hm (n := A.bufs)
      have e : ({ f with bufs := A.bufs } : Frame) = f := by rw [← h.bufs]
      rw [e] at this
      exact this
    · exact absurd hA (by simp)
  | str i =>
    simp only [Abs.step] at hA
    split at hA
    · rename_i hu
      cases hA
      have hsh := hc.args i
      rw [hu.2.1] at hsh
      have hg := getElem_val (v := .buf) hsh (by simp)
      simp only [Stmt.run, hg, if_true]
      rw [h.bufs]
      exact sound_leaf h hu.1 hm (n := A.bufs - 1)
    · exact absurd hA (by simp)
  | make k l o => exact sound_make hc h hcalm hm hA
  | chain i j k => exact sound_chain hc h hcalm hm hA
  | hasKey i j k n => exact sound_hasKey hc h hcalm hm hA
  | lit i j => exact sound_lit hc h hcalm hm hA
  | empty =>
    simp only [Abs.step] at hA
    split at hA
    · rename_i hu
      cases hA
      obtain ⟨s, m, k1, k2⟩ := sound_vector h hcalm hm hu (fun _ => rfl)
      simp only [Stmt.run, k1, Frame.assign]
      exact .go k2
    · exact absurd hA (by simp)
  | reuse i =>
    simp only [Abs.step] at hA
    split at hA
    · rename_i hu
      obtain ⟨hu, hs, h1⟩ := hu
      cases hA
      obtain ⟨i1, i2⟩ := has_mem h1 (i := i) (by simp)
      obtain ⟨p, hp⟩ := hc.vec i2
      cases p with
      | some a =>
        simp only [Stmt.run, ptrAt_val hp]
        obtain ⟨k1, k2, k3⟩ := h.sole hs i i1 i2 a (by rw [hp]; simp [Val.ptrs])
        refine .go (h.alias hu i1 hp ⟨a, rfl, k1.lone, k2, fun hx => ?_⟩)
        rw [count_erase i1, hp] at k3
        simp [Val.ptrs] at k3
        have := List.count_pos_iff.mpr hx
        dsimp only at this
        omega
      | none =>
        obtain ⟨s, m, k1, k2⟩ := sound_vector (own := A.own.erase i) h hcalm hm hu (fun a => by
          rw [count_erase i1, hp]; simp [Val.ptrs])
        simp only [Stmt.run, ptrAt_val hp, k1]
        exact .go k2
    · exact absurd hA (by simp)
  | push i =>
    simp only [Abs.step] at hA
    split at hA
    · rename_i hu
      obtain ⟨hu, h1⟩ := hu
      cases hA
      obtain ⟨i1, i2⟩ := has_mem h1 (i := i) (by simp)
      obtain ⟨x, hx⟩ := hc.obj i2
      have hres := h.res
      unfold ResOk at hres
      obtain ⟨v, hv, hl, hr, ho⟩ : ∃ r, f.res = .ptr (some r) ∧ LoneE f.st f.others r ∧ r ∉ owned rest ∧
          r ∉ ownPtrs args A.own := by
        rcases hu with e | e <;> rw [e] at hres
        · obtain ⟨r, k1, k2, k3⟩ := hres
          exact ⟨r, k1, k2.lone, k3⟩
        · exact hres
      obtain ⟨s₁, s₂, r₁, r₂, g1, g2, g3⟩ := h.push i1 hx hv hl hr ho
      have hpt : ptrsAt args [i] = some [x] := by simp [ptrsAt, ptrAt_val hx]
      simp only [Stmt.run, hv, hpt, hcalm.2.2.2, g1, g2, if_true]
      rw [hv] at g3
      exact .go g3
    · exact absurd hA (by simp)
  | release i =>
    simp only [Abs.step] at hA
    split at hA
    · rename_i h1
      cases hA
      obtain ⟨i1, i2⟩ := has_mem h1 (i := i) (by simp)
      obtain ⟨a, ha⟩ := hc.obj i2
      obtain ⟨s', g1, _, g3⟩ := h.released i1 ha
      simp only [Stmt.run, ptrAt_val ha, St.releaseOpt, g1]
      exact .go g3
    · exact absurd hA (by simp)
  | finalize i =>
    simp only [Abs.step] at hA
    split at hA
    · rename_i hu
      obtain ⟨h1, hh⟩ := hu
      cases hA
      obtain ⟨i1, i2⟩ := has_mem h1 (i := i) (by simp)
      obtain ⟨p, hp⟩ := hc.vec i2
      cases p with
      | none =>
        simp only [Stmt.run, ptrAt_val hp]
        exact .go (h.skip i1 hp)
      | some a =>
        obtain ⟨s', g1, _, g3⟩ := h.released i1 hp
        obtain ⟨r, k1, k2⟩ := g3.holds i hh a (by rw [hp]; simp [Val.ptrs])
        have hl : s'.live a = true := live_of_ref g3.inv k2
        simp only [Stmt.run, ptrAt_val hp, g1, hl, hcalm.2.2.2, Bool.not_true, Bool.false_eq_true, if_false, if_true]
        exact .go g3
    · exact absurd hA (by simp)
  | check =>
    exact sound_check (n := 2) h hA (fun e => by simp only [Stmt.run, e]) (fun r e => by simp only [Stmt.run, e])
  | checkSyntax =>
    exact sound_check (n := 1) h hA (fun e => by simp only [Stmt.run, e]) (fun r e => by simp only [Stmt.run, e])
  | handle l => exact sound_handle hc h hm hA
  | failAny =>
    refine sound_fail h hA ?_
    by_cases e : (f.rets.any (· ≠ .ok)) = true
    · exact .inr ⟨1, by simp only [Stmt.run]; rw [if_pos e]⟩
    · exact .inl (by simp only [Stmt.run]; rw [if_neg e])
  | failErr =>
    refine sound_fail h hA ?_
    cases e : f.rets.find? Ret.isErr with
    | none => exact .inl (by simp only [Stmt.run, e])
    | some r => exact .inr ⟨_, by simp only [Stmt.run, e]; rfl⟩

/-- An action. -/
theorem act_sound (hc : Ctx rest args ks) : ∀ {xs : List Stmt} {cs : List Choice} {A A' : Abs} {f : Frame},
    FI rest args ks A f → ActMeets Calm args xs cs f → A.steps ks xs = some A' →
    Sound rest args ks A' (runAct args xs cs f)
  | [], _, A, A', f, h, _, hA => by
    cases hA
    exact .go h
  | x :: xs, cs, A, A', f, h, hm, hA => by
    obtain ⟨m1, m2, m3⟩ := hm
    simp only [Abs.steps] at hA
    cases e : A.step ks x with
    | none => rw [e] at hA; exact absurd hA (by simp)
    | some A₁ =>
      rw [e] at hA
      rcases stmt_sound hc h m1 m2 e with ⟨f', k1, k2⟩ | ⟨n, f', k1, k2⟩
      · rw [runAct, k1]
        exact act_sound hc k2 (m3 f' k1) hA
      · rw [runAct, k1]
        exact .inr ⟨n, f', rfl, k2⟩

end

end Cowl.YOwn
