import Verif.FuncOwnCheck
/-!
# Lemmas on the references held by the functional reader
-/
namespace Cowl.YOwn
open Cowl.Own

/-- A vector that only the parser holds. -/
structure LoneE (s : St) (others : Nat → Nat) (a : Nat) : Prop where
  vec : IsVec s a
  noref : ∀ b, a ∉ refsAt s b
  out : others a = 0

structure Lone (s : St) (others : Nat → Nat) (a : Nat) : Prop where
  full : Full s a
  noref : ∀ b, a ∉ refsAt s b
  out : others a = 0

theorem Lone.lone {s : St} {o : Nat → Nat} {a : Nat} (h : Lone s o a) : LoneE s o a :=
  ⟨h.full.isVec, h.noref, h.out⟩

theorem live_of_vec {s : St} {a : Nat} (h : IsVec s a) : s.live a = true := by
  obtain ⟨b, l, hc⟩ := h; exact live_iff_cell.mpr ⟨_, hc⟩

theorem noref_keep {s s' : St} {a : Nat} {F : List Nat} (h : ∀ b, a ∉ refsAt s b) (hl : s.live a = true)
    (hm : Moves s s' F) (hF : a ∉ F) : ∀ b, a ∉ refsAt s' b := fun b hb => by
  rcases hm.refs b a hb with e | e | e
  · exact h b e
  · exact hF e
  · rw [hl] at e; exact absurd e (by simp)

theorem Lone.keep {s s' : St} {o o' : Nat → Nat} {a : Nat} {F : List Nat} (h : Lone s o a) (hm : Moves s s' F)
    (hF : a ∉ F) (hl : s'.live a = true) (ho : o' a = 0) : Lone s' o' a where
  full := by
    obtain ⟨b, l, hc, hne⟩ := h.full
    exact ⟨b, l, by rw [hm.same a hF (live_of_vec h.full.isVec) hl]; exact hc, hne⟩
  noref := noref_keep h.noref (live_of_vec h.full.isVec) hm hF
  out := ho

theorem LoneE.keep {s s' : St} {o o' : Nat → Nat} {a : Nat} {F : List Nat} (h : LoneE s o a) (hm : Moves s s' F)
    (hF : a ∉ F) (hl : s'.live a = true) (ho : o' a = 0) : LoneE s' o' a where
  vec := by
    obtain ⟨b, l, hc⟩ := h.vec
    exact ⟨b, l, by rw [hm.same a hF (live_of_vec h.vec) hl]; exact hc⟩
  noref := noref_keep h.noref (live_of_vec h.vec) hm hF
  out := ho

theorem path_lone {s : St} {v : Nat} (h : ∀ b, v ∉ refsAt s b) {y : Nat} (hp : Path s y v) : y = v := by
  induction hp with
  | refl => rfl
  | step hm _ ih =>
    have e := ih h
    rw [e] at hm
    exact absurd hm (h _)

/-! ## Values -/

def ownPtrs (args : List Val) (own : List Nat) : List Nat := own.flatMap fun i => (valAt args i).ptrs

theorem mem_ownPtrs {args : List Val} {own : List Nat} {a : Nat} :
    a ∈ ownPtrs args own ↔ ∃ i ∈ own, a ∈ (valAt args i).ptrs := by simp [ownPtrs]

theorem count_erase {args : List Val} {own : List Nat} {i : Nat} (h : i ∈ own) (a : Nat) :
    (ownPtrs args own).count a = (valAt args i).ptrs.count a + (ownPtrs args (own.erase i)).count a := by
  have := ((List.perm_cons_erase h).flatMap_right fun i => (valAt args i).ptrs).count_eq a
  unfold ownPtrs
  rw [this]
  simp

theorem mem_erase_sub {args : List Val} {own : List Nat} {i a : Nat} (h : a ∈ ownPtrs args (own.erase i)) :
    a ∈ ownPtrs args own := by
  obtain ⟨j, hj, ha⟩ := mem_ownPtrs.mp h
  exact mem_ownPtrs.mpr ⟨j, List.mem_of_mem_erase hj, ha⟩

theorem ptrAt_val {args : List Val} {i : Nat} {p : Option Nat} (h : valAt args i = .ptr p) :
    ptrAt args i = some p := by
  unfold valAt at h
  unfold ptrAt
  cases e : args[i - 1]? with
  | none => rw [e] at h; simp at h
  | some v => rw [e] at h; simp at h; subst h; rfl

theorem getElem_val {args : List Val} {i : Nat} {v : Val} (h : valAt args i = v) (hv : v ≠ .unit) :
    args[i - 1]? = some v := by
  unfold valAt at h
  cases e : args[i - 1]? with
  | none => rw [e] at h; exact absurd h.symm hv
  | some w => rw [e] at h; simp at h; rw [h]

theorem ptrsAt_val {args : List Val} : ∀ {l : List Nat}, (∀ i ∈ l, ∃ a, valAt args i = .ptr (some a)) →
    ∃ xs, ptrsAt args l = some xs ∧ xs.length = l.length ∧ xs = ownPtrs args l
  | [], _ => ⟨[], rfl, rfl, rfl⟩
  | i :: l, h => by
    obtain ⟨a, ha⟩ := h i (by simp)
    obtain ⟨xs, h1, h2, h3⟩ := ptrsAt_val fun j hj => h j (List.mem_cons_of_mem i hj)
    refine ⟨a :: xs, ?_, by simp [h2], ?_⟩
    · rw [ptrsAt, ptrAt_val ha]; dsimp only; rw [h1]; rfl
    · simp [ownPtrs, ha, Val.ptrs, h3]

/-! ## The state while an action runs -/

/-- What does not change while the action runs. -/
structure Ctx (rest : List (Sym × Val)) (args : List Val) (ks : List Kind) : Prop where
  len : args.length = ks.length
  args : ∀ i, Shape (valAt args i) (kindAt ks i)

/-- The pointers of the action: what it still owns, and `$$`. -/
def E (args : List Val) (A : Abs) (f : Frame) : List Nat := ownPtrs args A.own ++ f.res.ptrs

def ResOk (rest : List (Sym × Val)) (args : List Val) (A : Abs) (f : Frame) : Prop :=
  match A.res with
  | .unset => Shape f.res .plain
  | .null => f.res = .ptr none
  | .obj => ∃ r, f.res = .ptr (some r)
  | .maybe => ∃ p, f.res = .ptr p
  | .vec => ∃ r, f.res = .ptr (some r) ∧ Lone f.st f.others r ∧ r ∉ owned rest ∧ r ∉ ownPtrs args A.own
  | .vecE => ∃ r, f.res = .ptr (some r) ∧ LoneE f.st f.others r ∧ r ∉ owned rest ∧ r ∉ ownPtrs args A.own

structure FI (rest : List (Sym × Val)) (args : List Val) (ks : List Kind) (A : Abs) (f : Frame) : Prop where
  inv : Inv f.st []
  ext : ∀ a, f.st.ext a = f.others a + (owned rest ++ E args A f).count a
  below : ∀ e ∈ rest, (kindOf e.1).isVec = true → ∀ a ∈ e.2.ptrs, Lone f.st f.others a ∧ a ∉ E args A f
  sole : A.sole = true → ∀ i ∈ A.own, (kindAt ks i).isVec = true → ∀ a ∈ (valAt args i).ptrs,
    Lone f.st f.others a ∧ a ∉ owned rest ∧ (ownPtrs args A.own).count a = 1
  res : ResOk rest args A f
  holds : ∀ i ∈ A.holds, ∀ a ∈ (valAt args i).ptrs, ∃ r, f.res = .ptr (some r) ∧ a ∈ refsAt f.st r
  bufs : f.bufs = A.bufs

/-- After a failure: the action holds nothing. -/
structure Clean (rest : List (Sym × Val)) (f : Frame) : Prop where
  inv : Inv f.st []
  ext : ∀ a, f.st.ext a = f.others a + (owned rest).count a
  bufs : f.bufs = 0

section
variable {rest : List (Sym × Val)} {args : List Val} {ks : List Kind} {A : Abs} {f : Frame}

theorem FI.pos (h : FI rest args ks A f) {a : Nat} (ha : a ∈ owned rest ∨ a ∈ E args A f) : 0 < f.st.ext a := by
  rw [h.ext]
  have : 0 < (owned rest ++ E args A f).count a :=
    List.count_pos_iff.mpr (List.mem_append.mpr ha)
  omega

theorem FI.live (h : FI rest args ks A f) {a : Nat} (ha : a ∈ owned rest ∨ a ∈ E args A f) : f.st.live a = true :=
  live_of_ext h.inv (h.pos ha)

theorem mem_rest {e : Sym × Val} {a : Nat} (he : e ∈ rest) (ha : a ∈ e.2.ptrs) : a ∈ owned rest :=
  List.mem_flatMap.mpr ⟨e, he, ha⟩

theorem FI.liveOwn (h : FI rest args ks A f) {i a : Nat} (hi : i ∈ A.own) (ha : a ∈ (valAt args i).ptrs) :
    f.st.live a = true :=
  h.live (.inr (List.mem_append.mpr (.inl (mem_ownPtrs.mpr ⟨i, hi, ha⟩))))

theorem FI.clean (h : FI rest args ks A f) (ho : A.own = []) (hr : f.res.ptrs = []) (hb : A.bufs = 0) :
    Clean rest f where
  inv := h.inv
  ext a := by rw [h.ext]; simp [E, ho, hr, ownPtrs]
  bufs := by rw [h.bufs, hb]

theorem has_mem {l : List Nat} {p : Kind → Bool} (h : A.has ks l p = true) {i : Nat} (hi : i ∈ l) :
    i ∈ A.own ∧ p (kindAt ks i) = true := by
  have := List.all_eq_true.mp h i hi
  simp only [Bool.and_eq_true, decide_eq_true_eq] at this
  exact this

theorem Ctx.obj (hc : Ctx rest args ks) {i : Nat} (h : isObj (kindAt ks i) = true) :
    ∃ a, valAt args i = .ptr (some a) := by
  have := hc.args i
  cases e : kindAt ks i <;> rw [e] at h this <;> simp [isObj] at h
  exact this

theorem Ctx.one (hc : Ctx rest args ks) {i : Nat} (h : isOne (kindAt ks i) = true) :
    ∃ a, valAt args i = .ptr (some a) := by
  have := hc.args i
  cases e : kindAt ks i <;> rw [e] at h this <;> simp [isOne] at h
  all_goals exact this

theorem Ctx.oneVec (hc : Ctx rest args ks) {i : Nat} (h : isOneVec (kindAt ks i) = true) :
    ∃ a, valAt args i = .ptr (some a) := by
  have := hc.args i
  cases e : kindAt ks i <;> rw [e] at h this <;> simp [isOneVec] at h
  exact this

theorem Ctx.vec (hc : Ctx rest args ks) {i : Nat} (h : (kindAt ks i).isVec = true) :
    ∃ p, valAt args i = .ptr p := by
  have := hc.args i
  cases e : kindAt ks i <;> rw [e] at h this <;> simp [Kind.isVec] at h
  · obtain ⟨a, ha⟩ := this; exact ⟨_, ha⟩
  · exact this

/-- A result is assigned to `$$`. -/
theorem FI.gets (h : FI rest args ks A f) (hu : A.res = .unset) {s' : St} {r : Option Nat} {F : List Nat} {n : Nat}
    (g : Gets f.st s' r F) (hF : ∀ x ∈ F, x ∈ ownPtrs args A.own ∨ ¬ IsVec f.st x) :
    FI rest args ks ⟨A.own, false, .maybe, [], n⟩ { f with st := s', res := .ptr r, bufs := n } := by
  have hres : f.res.ptrs = [] := by
    have := h.res
    unfold ResOk at this
    rw [hu] at this
    cases e : f.res <;> simp [Val.ptrs]
    exact absurd e (this.1 _)
  have hptr : ∀ a, (Val.ptr r).ptrs.count a = if r = some a then 1 else 0 := fun a => by
    cases r with
    | none => simp [Val.ptrs]
    | some b => by_cases e : b = a <;> simp [Val.ptrs, e]
  have hext : ∀ a, s'.ext a = f.others a +
      (owned rest ++ E args ⟨A.own, false, .maybe, [], n⟩ { f with st := s', res := .ptr r, bufs := n }).count a := by
    intro a
    rw [g.ext, h.ext]
    simp only [E, hres, List.append_nil, List.count_append, hptr]
    omega
  refine ⟨g.inv, hext, fun e he hk a ha => ?_, fun hs => absurd hs (by simp), ⟨r, rfl⟩,
    fun i hi => absurd hi (by simp), rfl⟩
  obtain ⟨h1, h2⟩ := h.below e he hk a ha
  have hnE : a ∉ E args ⟨A.own, false, .maybe, [], n⟩ { f with st := s', res := .ptr r, bufs := n } := by
    intro hm
    simp only [E, List.mem_append] at hm
    rcases hm with hm | hm
    · exact h2 (List.mem_append.mpr (.inl hm))
    · have : r = some a := by
        cases r with
        | none => simp [Val.ptrs] at hm
        | some b => simp [Val.ptrs] at hm; rw [hm]
      exact g.kind a this h1.full.isVec
  refine ⟨h1.keep g.moves (fun hx => ?_) (live_of_ext g.inv ?_) h1.out, hnE⟩
  · rcases hF a hx with hx | hx
    · exact h2 (List.mem_append.mpr (.inl hx))
    · exact hx h1.full.isVec
  · rw [g.ext]
    have := h.pos (a := a) (.inl (mem_rest he ha))
    omega

theorem FI.makes (h : FI rest args ks A f) (hu : A.res = .unset) {s' : St} {r : Nat} {F H : List Nat}
    (g : Makes f.st s' r F) (hF : ∀ x, x ∈ F ↔ x ∈ ownPtrs args H) (hH : ∀ i ∈ H, i ∈ A.own) :
    FI rest args ks ⟨A.own, false, .obj, H, A.bufs⟩ { f with st := s', res := .ptr (some r) } := by
  have k := h.gets (n := f.bufs) hu g.gets fun x hx => by
    obtain ⟨i, hi, hx⟩ := mem_ownPtrs.mp ((hF x).mp hx)
    exact .inl (mem_ownPtrs.mpr ⟨i, hH i hi, hx⟩)
  refine ⟨k.inv, k.ext, k.below, fun hs => absurd hs (by simp), ⟨r, rfl⟩, fun i hi a ha => ⟨r, rfl, ?_⟩, h.bufs⟩
  exact g.holds a ((hF a).mpr (mem_ownPtrs.mpr ⟨i, hi, ha⟩))

/-- A new vector is assigned to `$$`. -/
theorem FI.vector (h : FI rest args ks A f) (hu : A.res = .unset) {m : Nat} (hm : f.st.cell m = none) {own : List Nat}
    (ho : ∀ a, (ownPtrs args own).count a = (ownPtrs args A.own).count a) :
    FI rest args ks ⟨own, false, .vecE, [], A.bufs⟩
      { f with st := f.st.new m (.vec false []), res := .ptr (some m) } := by
  have hmem : ∀ a, a ∈ ownPtrs args own ↔ a ∈ ownPtrs args A.own := fun a => by
    rw [← List.count_pos_iff, ← List.count_pos_iff, ho]
  have g := (makes_new h.inv (c := .vec false []) hm (by simp [Cell.refs]) rfl).gets
  have k := h.gets (n := f.bufs) hu g (by simp [Cell.refs])
  have hd : f.st.live m = false := dead_iff_cell.mpr hm
  have nmem : m ∉ owned rest ∧ m ∉ ownPtrs args A.own := by
    constructor
    · intro hx; have := h.live (.inl hx); rw [hd] at this; exact absurd this (by simp)
    · intro hx; have := h.live (.inr (List.mem_append.mpr (.inl hx))); rw [hd] at this; exact absurd this (by simp)
  have h0 : f.others m = 0 := by
    have := h.ext m
    rw [(h.inv.dead m hd).1] at this
    omega
  refine ⟨k.inv, fun a => ?_, fun e he hk a ha => ?_, fun hs => absurd hs (by simp), ?_,
    fun i hi => absurd hi (by simp), h.bufs⟩
  · have := k.ext a
    simp only [E, List.count_append] at this ⊢
    rw [ho]; exact this
  · obtain ⟨h1, h2⟩ := k.below e he hk a ha
    refine ⟨h1, fun hx => h2 ?_⟩
    simp only [E, List.mem_append] at hx ⊢
    rw [hmem] at hx; exact hx
  · refine ⟨m, rfl, ⟨⟨false, [], ?_⟩, fun b hb => ?_, h0⟩, nmem.1, fun hx => nmem.2 ((hmem m).mp hx)⟩
    · show (if m = m then _ else _) = _
      simp
    · rw [refsAt_new] at hb
      by_cases e : b = m
      · rw [if_pos e] at hb; simp [Cell.refs] at hb
      · rw [if_neg e] at hb
        have := live_of_ref h.inv hb
        rw [hd] at this; exact absurd this (by simp)

/-- `$$ = $i`. -/
theorem FI.alias (h : FI rest args ks A f) (hu : A.res = .unset) {i a : Nat} (hi : i ∈ A.own)
    (hv : valAt args i = .ptr (some a)) {rk : RK}
    (hr : ResOk rest args ⟨A.own.erase i, false, rk, [], A.bufs⟩ { f with res := .ptr (some a) }) :
    FI rest args ks ⟨A.own.erase i, false, rk, [], A.bufs⟩ { f with res := .ptr (some a) } := by
  have hres : f.res.ptrs = [] := by
    have := h.res
    unfold ResOk at this
    rw [hu] at this
    cases e : f.res <;> simp [Val.ptrs]
    exact absurd e (this.1 _)
  refine ⟨h.inv, fun b => ?_, fun e he hk b hb => ?_, fun hs => absurd hs (by simp), hr,
    fun i hi => absurd hi (by simp), h.bufs⟩
  · rw [h.ext]
    simp only [E, hres, List.append_nil, List.count_append]
    rw [count_erase hi, hv]
    omega
  · obtain ⟨h1, h2⟩ := h.below e he hk b hb
    refine ⟨h1, fun hx => h2 ?_⟩
    simp only [E, List.mem_append] at hx ⊢
    rcases hx with hx | hx
    · exact .inl (mem_erase_sub hx)
    · exact .inl (mem_ownPtrs.mpr ⟨i, hi, by rw [hv]; exact hx⟩)

/-- The objects the parser holds after a release. -/
theorem FI.released (h : FI rest args ks A f) {i a : Nat} (hi : i ∈ A.own) (hv : valAt args i = .ptr (some a)) :
    ∃ s', f.st.release a = some s' ∧ Shrink f.st s' ∧
      FI rest args ks ⟨A.own.erase i, false, A.res, A.holds, A.bufs⟩ { f with st := s' } := by
  have ha : a ∈ ownPtrs args A.own := mem_ownPtrs.mpr ⟨i, hi, by rw [hv]; simp [Val.ptrs]⟩
  have hp : 0 < f.st.ext a := h.pos (.inr (List.mem_append.mpr (.inl ha)))
  obtain ⟨s', h1, h2, h3, h4⟩ := shrink_release h.inv hp
  have hE : ∀ b, (owned rest ++ E args A f).count b =
      (if b = a then 1 else 0) + (owned rest ++ E args ⟨A.own.erase i, false, A.res, A.holds, A.bufs⟩ { f with st := s' }).count b := by
    intro b
    simp only [E, List.count_append]
    rw [count_erase hi, hv]
    by_cases e : b = a
    · subst e; simp [Val.ptrs]; omega
    · have e' : ¬ a = b := fun h => e h.symm
      simp [Val.ptrs, e, e']
  have hext : ∀ b, s'.ext b = f.others b +
      (owned rest ++ E args ⟨A.own.erase i, false, A.res, A.holds, A.bufs⟩ { f with st := s' }).count b := by
    intro b
    have x1 := h.ext b
    have x2 := hE b
    rw [h4]
    by_cases e : b = a
    · rw [if_pos e] at x2 ⊢; omega
    · rw [if_neg e] at x2 ⊢; omega
  have hlive : ∀ b, (b ∈ owned rest ∨ b ∈ E args ⟨A.own.erase i, false, A.res, A.holds, A.bufs⟩ { f with st := s' }) →
      s'.live b = true := fun b hb => live_of_ext h2 (by
    rw [hext]
    have := List.count_pos_iff.mpr (List.mem_append.mpr hb)
    omega)
  have hsub : ∀ b, b ∈ E args ⟨A.own.erase i, false, A.res, A.holds, A.bufs⟩ { f with st := s' } → b ∈ E args A f := by
    intro b hb
    simp only [E, List.mem_append] at hb ⊢
    exact hb.imp_left mem_erase_sub
  refine ⟨s', h1, h3, h2, hext, fun e he hk b hb => ?_, fun hs => absurd hs (by simp), ?_, fun j hj b hb => ?_, h.bufs⟩
  · obtain ⟨k1, k2⟩ := h.below e he hk b hb
    exact ⟨k1.keep h3.moves (by simp) (hlive b (.inl (mem_rest he hb))) k1.out, fun hx => k2 (hsub b hx)⟩
  · have hr := h.res
    unfold ResOk at hr ⊢
    dsimp only
    cases e : A.res with
    | vec =>
      rw [e] at hr
      obtain ⟨r, k1, k2, k3, k4⟩ := hr
      refine ⟨r, k1, k2.keep h3.moves (by simp) (hlive r (.inr ?_)) k2.out, k3, fun hx => k4 (mem_erase_sub hx)⟩
      exact List.mem_append.mpr (.inr (by rw [k1]; simp [Val.ptrs]))
    | vecE =>
      rw [e] at hr
      obtain ⟨r, k1, k2, k3, k4⟩ := hr
      refine ⟨r, k1, k2.keep h3.moves (by simp) (hlive r (.inr ?_)) k2.out, k3, fun hx => k4 (mem_erase_sub hx)⟩
      exact List.mem_append.mpr (.inr (by rw [k1]; simp [Val.ptrs]))
    | _ => rw [e] at hr; exact hr
  · obtain ⟨r, k1, k2⟩ := h.holds j hj b hb
    refine ⟨r, k1, ?_⟩
    have hl : s'.live r = true := hlive r (.inr (List.mem_append.mpr (.inr (by rw [k1]; simp [Val.ptrs]))))
    obtain ⟨c, hc⟩ := live_iff_cell.mp hl
    rw [refsAt_some hc]
    rw [refsAt_some (h3 r c hc)] at k2
    exact k2

/-- Nothing to release. -/
theorem FI.skip (h : FI rest args ks A f) {i : Nat} (hi : i ∈ A.own) (hv : valAt args i = .ptr none) :
    FI rest args ks ⟨A.own.erase i, false, A.res, A.holds, A.bufs⟩ f := by
  have hcount : ∀ b, (ownPtrs args (A.own.erase i)).count b = (ownPtrs args A.own).count b := fun b => by
    rw [count_erase hi, hv]; simp [Val.ptrs]
  refine ⟨h.inv, fun b => ?_, fun e he hk b hb => ?_, fun hs => absurd hs (by simp), ?_, h.holds, h.bufs⟩
  · rw [h.ext]; simp only [E, List.count_append, hcount]
  · obtain ⟨k1, k2⟩ := h.below e he hk b hb
    exact ⟨k1, fun hx => k2 (by simp only [E, List.mem_append] at hx ⊢; exact hx.imp_left mem_erase_sub)⟩
  · have hr := h.res
    unfold ResOk at hr ⊢
    dsimp only
    cases e : A.res with
    | vec =>
      rw [e] at hr
      obtain ⟨r, k1, k2, k3, k4⟩ := hr
      exact ⟨r, k1, k2, k3, fun hx => k4 (mem_erase_sub hx)⟩
    | vecE =>
      rw [e] at hr
      obtain ⟨r, k1, k2, k3, k4⟩ := hr
      exact ⟨r, k1, k2, k3, fun hx => k4 (mem_erase_sub hx)⟩
    | _ => rw [e] at hr; exact hr

/-- An object is moved into the vector. -/
theorem FI.push (h : FI rest args ks A f) {i x v : Nat} (hi : i ∈ A.own) (hx : valAt args i = .ptr (some x))
    (hres : f.res = .ptr (some v)) (hv : LoneE f.st f.others v) (hvr : v ∉ owned rest)
    (hvo : v ∉ ownPtrs args A.own) :
    ∃ s₁ s₂ r₁ r₂, f.st.step (.add true v x) = some (s₁, r₁) ∧ s₁.step (.release x) = some (s₂, r₂) ∧
      FI rest args ks ⟨A.own.erase i, false, .vec, [], A.bufs⟩ { f with st := s₂ } := by
  obtain ⟨b, items, hc⟩ := hv.vec
  have hxm : x ∈ ownPtrs args A.own := mem_ownPtrs.mpr ⟨i, hi, by rw [hx]; simp [Val.ptrs]⟩
  have hxv : x ≠ v := fun e => hvo (e ▸ hxm)
  have hpath : ¬ Path f.st x v := fun hp => hxv (path_lone hv.noref hp)
  have hlx : f.st.live x = true := h.live (.inr (List.mem_append.mpr (.inl hxm)))
  obtain ⟨s₁, g1, g2, g3, g4, g5⟩ := add_spec h.inv hc hlx hpath
  have hpx : 0 < s₁.ext x := by rw [g4]; exact h.pos (.inr (List.mem_append.mpr (.inl hxm)))
  obtain ⟨s₂, k1, k2, k3, k4⟩ := shrink_release g2 hpx
  have hg : Grow f.st s₁ [v, x] := by
    refine ⟨fun c hcn _ => by rw [g3, if_neg (fun e => hcn (by simp [e]))], fun c y hy => ?_, fun c hl => ?_⟩
    · by_cases e : c = v
      · have : refsAt s₁ c = items ++ [x] := refsAt_some (c := .vec b (items ++ [x])) (by rw [g3, if_pos e])
        rw [this] at hy
        rw [e, refsAt_some hc]
        rcases List.mem_append.mp hy with hy | hy
        · exact .inl hy
        · exact .inr (.inl (by simp at hy; simp [hy]))
      · unfold refsAt at hy ⊢
        rw [g3, if_neg e] at hy
        exact .inl hy
    · by_cases e : c = v
      · exact live_iff_cell.mpr ⟨_, by rw [g3, if_pos e]⟩
      · obtain ⟨d, hd⟩ := live_iff_cell.mp hl
        exact live_iff_cell.mpr ⟨d, by rw [g3, if_neg e]; exact hd⟩
  have hE : ∀ c, (owned rest ++ E args A f).count c = (if c = x then 1 else 0) +
      (owned rest ++ E args ⟨A.own.erase i, false, .vec, [], A.bufs⟩ { f with st := s₂ }).count c := by
    intro c
    simp only [E, List.count_append]
    rw [count_erase hi, hx]
    by_cases e : c = x
    · subst e; simp [Val.ptrs]; omega
    · have e' : ¬ x = c := fun h => e h.symm
      simp [Val.ptrs, e, e']
  have hext : ∀ c, s₂.ext c = f.others c +
      (owned rest ++ E args ⟨A.own.erase i, false, .vec, [], A.bufs⟩ { f with st := s₂ }).count c := by
    intro c
    have x1 := h.ext c
    have x2 := hE c
    rw [k4, g4]
    by_cases e : c = x
    · rw [if_pos e] at x2 ⊢; omega
    · rw [if_neg e] at x2 ⊢; omega
  have hlive : ∀ c, (c ∈ owned rest ∨ c ∈ E args ⟨A.own.erase i, false, .vec, [], A.bufs⟩ { f with st := s₂ }) →
      s₂.live c = true := fun c hc => live_of_ext k2 (by
    rw [hext]
    have := List.count_pos_iff.mpr (List.mem_append.mpr hc)
    omega)
  have hlv : s₂.live v = true := hlive v (.inr (List.mem_append.mpr (.inr (by
    show v ∈ f.res.ptrs
    rw [hres]; simp [Val.ptrs]))))
  refine ⟨s₁, s₂, none, none, by simp [St.step, g1], by simp [St.step, k1], k2, hext, fun e he hk c hcm => ?_,
    fun hs => absurd hs (by simp), ?_, fun j hj => absurd hj (by simp), h.bufs⟩
  · obtain ⟨n1, n2⟩ := h.below e he hk c hcm
    refine ⟨n1.keep (hg.shrink k3) (fun hx' => ?_) (hlive c (.inl (mem_rest he hcm))) n1.out, fun hx' => n2 ?_⟩
    · simp only [List.mem_cons, List.not_mem_nil, or_false] at hx'
      rcases hx' with rfl | rfl
      · exact hvr (mem_rest he hcm)
      · exact n2 (List.mem_append.mpr (.inl hxm))
    · simp only [E, List.mem_append] at hx' ⊢
      exact hx'.imp_left mem_erase_sub
  · refine ⟨v, hres, ⟨?_, fun c hcv => ?_, hv.out⟩, hvr, fun hx' => hvo (mem_erase_sub hx')⟩
    · obtain ⟨d, hd⟩ := live_iff_cell.mp hlv
      have := k3 v d hd
      rw [g3, if_pos rfl] at this
      exact ⟨b, items ++ [x], by rw [hd, ← this], by simp⟩
    · have hcv := k3.refs hcv
      rcases hg.refs c v hcv with e | e | e
      · exact hv.noref c e
      · by_cases ec : c = v
        · have : refsAt s₁ c = items ++ [x] := refsAt_some (c := .vec b (items ++ [x])) (by rw [g3, if_pos ec])
          rw [this] at hcv
          rcases List.mem_append.mp hcv with hy | hy
          · exact hv.noref v (by rw [refsAt_some hc]; exact hy)
          · simp at hy; exact hxv hy.symm
        · unfold refsAt at hcv
          rw [g3, if_neg ec] at hcv
          exact hv.noref c hcv
      · rw [live_of_vec hv.vec] at e; exact absurd e (by simp)

/-- What the handler does leaves what the parser holds alone. -/
theorem hops_spec {given T : List Nat} (hg : ∀ x ∈ given, x ∈ T) : ∀ {ops : List HOp} {s : St} {o : Nat → Nat},
    Inv s [] → (∀ a, s.ext a = o a + T.count a) → HopsFair given s o ops →
    ∃ s' o', hopsRun s o ops = some (s', o') ∧ Inv s' [] ∧ (∀ a, s'.ext a = o' a + T.count a) ∧ Shrink s s' ∧
      ∀ v, (∀ b, v ∉ refsAt s b) → o v = 0 → v ∉ given → o' v = 0
  | [], s, o, hi, hx, _ => ⟨s, o, rfl, hi, hx, .refl s, fun _ _ h _ => h⟩
  | .retain a :: l, s, o, hi, hx, hf => by
    obtain ⟨⟨r, hr, hp⟩, hf⟩ := hf
    have hlr : s.live r = true := live_of_ext hi (by
      rw [hx]
      rcases hr with hr | hr
      · omega
      · have := List.count_pos_iff.mpr (hg r hr); omega)
    obtain ⟨s₁, h1, h2, h3, h4, _⟩ := retain_spec hi (live_of_path hi hp hlr)
    have e1 : s.step (.retain a) = some (s₁, some a) := by simp [St.step, h1]
    obtain ⟨s', o', k1, k2, k3, k4, k5⟩ := hops_spec hg h2 (o := fun b => if b = a then o b + 1 else o b) (ops := l)
      (fun b => by
        rw [h4]
        have := hx b
        by_cases e : b = a
        · simp only [e, if_true] at this ⊢; omega
        · simp only [e, if_false] at this ⊢; exact this) (hf s₁ _ e1)
    refine ⟨s', o', by rw [hopsRun, e1]; exact k1, k2, k3, fun b c hc => by rw [← h3]; exact k4 b c hc,
      fun v hv ho hn => k5 v (fun b hb => hv b (by unfold refsAt at hb ⊢; rw [h3] at hb; exact hb)) ?_ hn⟩
    have : v ≠ a := fun e => by
      subst e
      have e := path_lone hv hp
      subst e
      rcases hr with hr | hr
      · omega
      · exact hn hr
    simp [this, ho]
  | .release a :: l, s, o, hi, hx, hf => by
    obtain ⟨hpos, hf⟩ := hf
    obtain ⟨s₁, h1, h2, h3, h4⟩ := shrink_release hi (a := a) (by rw [hx]; omega)
    have e1 : s.step (.release a) = some (s₁, none) := by simp [St.step, h1]
    obtain ⟨s', o', k1, k2, k3, k4, k5⟩ := hops_spec hg h2 (o := fun b => if b = a then o b - 1 else o b) (ops := l)
      (fun b => by
        rw [h4]
        have := hx b
        by_cases e : b = a
        · simp only [e, if_true] at this ⊢; omega
        · simp only [e, if_false] at this ⊢; exact this) (hf s₁ _ e1)
    refine ⟨s', o', by rw [hopsRun, e1]; exact k1, k2, k3, h3.trans k4,
      fun v hv ho hn => k5 v (fun b hb => hv b (h3.refs hb)) ?_ hn⟩
    by_cases e : v = a
    · subst e; omega
    · simp [e, ho]

end

end Cowl.YOwn
