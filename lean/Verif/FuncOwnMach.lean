import Verif.FuncOwnRun
/-!
# Lemmas on the functional reader: between steps the stack accounts for every reference
-/
namespace Cowl.YOwn
open Cowl.Own

/-- Invariant of the parser between steps. -/
structure MInv (m : M) : Prop where
  inv : Inv m.st []
  ext : ∀ a, m.st.ext a = m.others a + (owned m.stack).count a
  shape : ∀ e ∈ m.stack, Shape e.2 (kindOf e.1)
  vec : ∀ e ∈ m.stack, (kindOf e.1).isVec = true → ∀ a ∈ e.2.ptrs,
    Lone m.st m.others a ∧ (owned m.stack).count a = 1
  lost : m.lost = 0

theorem owned_append (l l' : List (Sym × Val)) : owned (l ++ l') = owned l ++ owned l' := by simp [owned]

theorem owned_cons (e : Sym × Val) (l : List (Sym × Val)) : owned (e :: l) = e.2.ptrs ++ owned l := by simp [owned]

theorem owned_reverse (l : List (Sym × Val)) (a : Nat) : (owned l.reverse).count a = (owned l).count a := by
  induction l with
  | nil => rfl
  | cons e l ih =>
    have e1 : owned [e] = e.2.ptrs := by simp [owned]
    rw [List.reverse_cons, owned_append, List.count_append, ih, e1, owned_cons, List.count_append]
    omega

/-! ## The right-hand side -/

section
variable (T : List (Sym × Val))

theorem valAt_map (n : Nat) : valAt (T.map (·.2)) (n + 1) = (T[n]?.map (·.2)).getD .unit := by
  simp [valAt]

theorem kindAt_map (n : Nat) : kindAt (T.map fun e => kindOf e.1) (n + 1) = (T[n]?.map fun e => kindOf e.1).getD .plain := by
  simp [kindAt]

theorem plain_ptrs {v : Val} {k : Kind} (h : Shape v k) (hk : k.isPtr = false) : v.ptrs = [] := by
  cases k <;> simp [Kind.isPtr] at hk
  · cases v <;> simp [Val.ptrs]
    exact absurd rfl (h.1 _)
  · have : v = .buf := h
    rw [this]; rfl

/-- Positions of pointers, from the one after `n` on. -/
theorem own_from : ∀ (T : List (Sym × Val)) (pre : List (Sym × Val)), (∀ e ∈ T, Shape e.2 (kindOf e.1)) →
    ((((List.range' pre.length T.length).map (· + 1)).filter fun i =>
      (kindAt ((pre ++ T).map fun e => kindOf e.1) i).isPtr).flatMap fun i => (valAt ((pre ++ T).map (·.2)) i).ptrs) =
    owned T
  | [], pre, _ => rfl
  | e :: T, pre, h => by
    have ih := own_from T (pre ++ [e]) fun e he => h e (List.mem_cons_of_mem _ he)
    simp only [List.append_assoc, List.singleton_append, List.length_append, List.length_singleton] at ih
    have hv : valAt ((pre ++ e :: T).map (·.2)) (pre.length + 1) = e.2 := by rw [valAt_map]; simp
    have hk : kindAt ((pre ++ e :: T).map fun e => kindOf e.1) (pre.length + 1) = kindOf e.1 := by
      rw [kindAt_map]; simp
    simp only [List.length_cons, List.range'_succ, List.map_cons, List.filter_cons, owned_cons, hk]
    split
    · rw [List.flatMap_cons, ih, hv]
    · rename_i hp
      rw [ih, plain_ptrs (h e (by simp)) (by simpa using hp)]
      rfl

theorem own_start (h : ∀ e ∈ T, Shape e.2 (kindOf e.1)) :
    ownPtrs (T.map (·.2)) (Abs.start (T.map fun e => kindOf e.1)).own = owned T := by
  have := own_from T [] h
  simp only [List.nil_append, List.length_nil, ← List.range_eq_range'] at this
  simp only [ownPtrs, Abs.start, List.length_map]
  exact this

theorem ctx_start (rest : List (Sym × Val)) (h : ∀ e ∈ T, Shape e.2 (kindOf e.1)) :
    Ctx rest (T.map (·.2)) (T.map fun e => kindOf e.1) where
  len := by simp
  args i := by
    simp only [valAt, kindAt, List.getElem?_map]
    cases e : T[i - 1]? with
    | none => exact ⟨by simp, by simp⟩
    | some x => exact h x (List.mem_of_getElem? e)

theorem bufs_shape (h : ∀ e ∈ T, Shape e.2 (kindOf e.1)) :
    bufs (T.map (·.2)) = (T.map fun e => kindOf e.1).count .buf := by
  induction T with
  | nil => rfl
  | cons e T ih =>
    have ih := ih fun e he => h e (List.mem_cons_of_mem _ he)
    have he := h e (by simp)
    unfold bufs at ih ⊢
    simp only [List.map_cons, List.count_cons, ih]
    congr 1
    cases hk : kindOf e.1 <;> rw [hk] at he <;> simp only [Shape] at he
    · rw [if_neg (by simpa using he.2), if_neg (by simp)]
    · rw [he]; rfl
    · obtain ⟨a, ha⟩ := he; rw [ha]; rfl
    · obtain ⟨a, ha⟩ := he; rw [ha]; rfl
    · obtain ⟨a, ha⟩ := he; rw [ha]; rfl

theorem kind_buf (x : Sym) : kindOf x = .buf ↔ x = .t .qstr := by
  cases x with
  | t x => cases x <;> simp [kindOf]
  | n x =>
    simp only [kindOf]
    constructor
    · intro h
      split at h <;> try exact absurd h (by simp)
      split at h <;> exact absurd h (by simp)
    · intro h; exact absurd h (by simp)

theorem bufs_strings (h : ∀ e ∈ T, Shape e.2 (kindOf e.1)) : bufs (T.map (·.2)) = strings T := by
  rw [bufs_shape T h]
  unfold strings
  clear h
  induction T with
  | nil => rfl
  | cons e T ih =>
    simp only [List.map_cons, List.count_cons, ih]
    congr 1
    by_cases he : e.1 = .t .qstr
    · rw [he]; rfl
    · rw [if_neg (by simpa using fun h => he ((kind_buf _).mp h)), if_neg (by simpa using he)]

end

theorem lookBufs_strings (l : Option Term) : lookBufs l = lookStrings l := by
  cases l with
  | none => rfl
  | some t => cases t <;> rfl

/-! ## Unwinding -/

/-- Values of every symbol that may hold a reference are released when discarded. -/
theorem destructed_iff : ∀ x : NT, (Sym.n x).destructed = (kindOf (.n x)).isPtr := by
  intro x
  cases x <;> decide

theorem destructed_sym (x : Sym) : x.destructed = (kindOf x).isPtr := by
  cases x with
  | t x => cases x <;> rfl
  | n x => exact destructed_iff x

theorem ptr_shape {v : Val} {k : Kind} (h : Shape v k) (hk : k.isPtr = true) : ∃ p, v = .ptr p := by
  cases k <;> simp [Kind.isPtr] at hk
  · obtain ⟨a, ha⟩ := h; exact ⟨_, ha⟩
  · obtain ⟨a, ha⟩ := h; exact ⟨_, ha⟩
  · exact h

theorem unwind_spec (others : Nat → Nat) : ∀ {l : List (Sym × Val)} {s : St}, Inv s [] →
    (∀ e ∈ l, Shape e.2 (kindOf e.1)) → (∀ a, s.ext a = others a + (owned l).count a) →
    ∃ s', unwind s l = some s' ∧ Inv s' [] ∧ ∀ a, s'.ext a = others a
  | [], s, hi, _, he => ⟨s, rfl, hi, by simpa [owned] using he⟩
  | (x, v) :: l, s, hi, hs, he => by
    have hsl : ∀ e ∈ l, Shape e.2 (kindOf e.1) := fun e h => hs e (List.mem_cons_of_mem _ h)
    have hv := hs (x, v) (by simp)
    rw [unwind.eq_def]
    dsimp only
    rw [destructed_sym]
    by_cases hk : (kindOf x).isPtr = true
    · obtain ⟨p, rfl⟩ := ptr_shape hv hk
      rw [if_pos hk]
      cases p with
      | none =>
        exact unwind_spec others hi hsl (by simpa [owned_cons, Val.ptrs] using he)
      | some a =>
        have ha := he a
        simp only [owned_cons, Val.ptrs, List.singleton_append, List.count_cons_self] at ha
        obtain ⟨s', h1, h2, _, h4, _⟩ := release_spec hi (a := a) (by omega)
        simp only [St.releaseOpt, h1]
        refine unwind_spec others h2 hsl fun b => ?_
        rw [h4, he]
        by_cases hb : b = a
        · subst hb; simp [owned_cons, Val.ptrs]
        · rw [if_neg hb]; simp [owned_cons, Val.ptrs, Ne.symm hb]
    · rw [if_neg hk]
      refine unwind_spec others hi hsl fun b => ?_
      rw [he, owned_cons, plain_ptrs hv (by simpa using hk)]
      rfl

/-- What `yyparse` leaves behind. -/
theorem leave_spec {m : M} {code : Nat} {look : Option Term} (hi : Inv m.st [])
    (hs : ∀ e ∈ m.stack, Shape e.2 (kindOf e.1)) (he : ∀ a, m.st.ext a = m.others a + (owned m.stack).count a)
    (hl : m.lost = 0) :
    ∃ m', m.leave code look = .stop code m' ∧ Returned m' ∧ m'.others = m.others ∧ m'.stack = [] ∧
      m'.lost = strings m.stack + lookStrings look := by
  obtain ⟨s', h1, h2, h3⟩ := unwind_spec m.others hi hs he
  refine ⟨{ m with st := s', stack := [], lost := m.lost + bufs (m.stack.map (·.2)) + lookBufs look },
    by rw [M.leave, h1], ⟨h3, fun a => ?_⟩, rfl, rfl, ?_⟩
  · refine (live_iff_usable h2 a).trans ?_
    simp only [Usable, h3]
  · simp only [hl, bufs_strings _ hs, lookBufs_strings]
    omega

/-! ## Steps -/

theorem shift_spec {m : M} (h : MInv m) (t : Term) : ∃ m', m.step (.shift t) = .go m' ∧ MInv m' := by
  have hp : (t.val).ptrs = [] := by cases t <;> rfl
  refine ⟨_, rfl, h.inv, fun a => ?_, fun e he => ?_, fun e he hk a ha => ?_, h.lost⟩
  · rw [owned_cons, hp]; exact h.ext a
  · rcases List.mem_cons.mp he with rfl | he
    · cases t <;> simp [kindOf, Shape, Term.val]
    · exact h.shape e he
  · rw [owned_cons, hp]
    rcases List.mem_cons.mp he with rfl | he
    · cases t <;> exact absurd hk (by simp [kindOf, Kind.isVec])
    · exact h.vec e he hk a ha

/-- The stack below what a rule covers. -/
def below (m : M) (r : Rule) : List (Sym × Val) := m.stack.drop r.rhs.length

theorem reduce_spec {m : M} (h : MInv m) {r : Rule} {cs : List Choice} {look : Option Term}
    (hm : StepMeets Calm m (.reduce r cs look)) :
    m.step (.reduce r cs look) = .stuck ∨ (∃ m', m.step (.reduce r cs look) = .go m' ∧ MInv m') ∨
      ∃ code m', m.step (.reduce r cs look) = .stop code m' ∧ Returned m' ∧ m'.stack = [] ∧
        m'.lost = strings (below m r) + lookStrings look := by
  obtain ⟨hr, hm⟩ := hm
  by_cases ht : (m.stack.take r.rhs.length).map (·.1) = r.rhs.reverse
  rotate_left
  · left
    rw [M.step]
    dsimp only
    rw [if_neg ht]
  right
  have hdiv : m.stack.take r.rhs.length ++ below m r = m.stack := List.take_append_drop _ _
  generalize htop : m.stack.take r.rhs.length = top at ht hdiv
  generalize hrest : below m r = rest at hdiv
  -- the right-hand side, the first symbol first
  have hT : r.rhs = top.reverse.map (·.1) := by rw [List.map_reverse, ht, List.reverse_reverse]
  have hargs : argsOf m r = top.reverse.map (·.2) := by rw [argsOf, htop, List.map_reverse]
  have hst : ∀ e ∈ top.reverse, Shape e.2 (kindOf e.1) := fun e he =>
    h.shape e (by rw [← hdiv]; exact List.mem_append.mpr (.inl (List.mem_reverse.mp he)))
  have hsr : ∀ e ∈ rest, Shape e.2 (kindOf e.1) := fun e he =>
    h.shape e (by rw [← hdiv]; exact List.mem_append.mpr (.inr he))
  have hks : r.rhs.map kindOf = top.reverse.map fun e => kindOf e.1 := by rw [hT, List.map_map]; rfl
  have hcount : ∀ a, (owned m.stack).count a = (owned rest).count a + (owned top.reverse).count a := fun a => by
    rw [← hdiv, owned_append, List.count_append, owned_reverse]; omega
  -- the check
  have hcheck := rules_check r hr
  unfold Rule.checks at hcheck
  rw [hks] at hcheck
  generalize hAe : (Abs.start (top.reverse.map fun e => kindOf e.1)).steps (top.reverse.map fun e => kindOf e.1) r.act = Ao
    at hcheck
  cases Ao with
  | none => exact absurd hcheck (by simp)
  | some A =>
  -- the action
  have hFI : FI rest (top.reverse.map (·.2)) (top.reverse.map fun e => kindOf e.1)
      (Abs.start (top.reverse.map fun e => kindOf e.1))
      { st := m.st, others := m.others, bufs := bufs (top.reverse.map (·.2)) } := by
    refine ⟨h.inv, fun a => ?_, fun e he hk a ha => ?_, fun _ i hi hk a ha => ?_, ?_,
      fun i hi => absurd hi (by simp [Abs.start]), ?_⟩
    · rw [h.ext, hcount, E, own_start _ hst]
      simp [Val.ptrs]
    · obtain ⟨k1, k2⟩ := h.vec e (by rw [← hdiv]; exact List.mem_append.mpr (.inr he)) hk a ha
      refine ⟨k1, fun hx => ?_⟩
      rw [E, own_start _ hst] at hx
      simp only [Val.ptrs, List.append_nil] at hx
      have c1 := List.count_pos_iff.mpr hx
      have c2 := List.count_pos_iff.mpr (mem_rest he ha)
      have := hcount a
      omega
    · have hmem : ∃ e ∈ top.reverse, valAt (top.reverse.map (·.2)) i = e.2 ∧
          kindAt (top.reverse.map fun e => kindOf e.1) i = kindOf e.1 := by
        simp only [valAt, kindAt, List.getElem?_map] at ha hk ⊢
        cases e : top.reverse[i - 1]? with
        | none => rw [e] at ha; simp [Val.ptrs] at ha
        | some x => exact ⟨x, List.mem_of_getElem? e, by simp, by simp⟩
      obtain ⟨e, he, e1, e2⟩ := hmem
      rw [e1] at ha
      rw [e2] at hk
      obtain ⟨k1, k2⟩ := h.vec e (by rw [← hdiv]; exact List.mem_append.mpr (.inl (List.mem_reverse.mp he))) hk a ha
      have c2 := List.count_pos_iff.mpr (mem_rest he ha)
      have := hcount a
      refine ⟨k1, fun hx => ?_, ?_⟩
      · have c1 := List.count_pos_iff.mpr hx
        omega
      · rw [own_start _ hst]
        omega
    · exact ⟨by simp, by simp⟩
    · simp only [Abs.start]
      exact bufs_shape _ hst
  rw [hargs] at hm
  have hsound := act_sound (ctx_start _ rest hst) hFI hm hAe
  have hstep : m.step (.reduce r cs look) =
      match runAct (top.reverse.map (·.2)) r.act cs { st := m.st, others := m.others, bufs := bufs (top.reverse.map (·.2)) } with
      | .ub => .ub
      | .go f => .go { st := f.st, others := f.others, stack := (.n r.lhs, f.res) :: rest, lost := m.lost + f.bufs }
      | .fail code f => M.leave { st := f.st, others := f.others, stack := rest, lost := m.lost + f.bufs } code look := by
    rw [M.step]
    dsimp only
    rw [htop, if_pos ht, ← List.map_reverse, show m.stack.drop r.rhs.length = rest from hrest]
    rfl
  rw [hstep]
  rcases hsound with ⟨f, k1, k2⟩ | ⟨n, f, k1, k2⟩
  · left
    rw [k1]
    -- `$$`
    simp only [Abs.done, Bool.and_eq_true, decide_eq_true_eq] at hcheck
    obtain ⟨⟨hown, hbufs⟩, hres⟩ := hcheck
    have hE : E (top.reverse.map (·.2)) A f = f.res.ptrs := by simp [E, hown, ownPtrs]
    have hrk := k2.res
    unfold ResOk at hrk
    have hshape : Shape f.res (kindOf (.n r.lhs)) := by
      cases hk : kindOf (.n r.lhs) <;> rw [hk] at hres <;> simp only [decide_eq_true_eq, Bool.or_eq_true] at hres
      · rw [hres] at hrk; exact hrk
      · exact absurd hres (by simp)
      · rw [hres] at hrk; exact hrk
      · rw [hres] at hrk
        obtain ⟨a, ha, _⟩ := hrk
        exact ⟨a, ha⟩
      · rcases hres with e | e <;> rw [e] at hrk
        · obtain ⟨a, ha, _⟩ := hrk
          exact ⟨_, ha⟩
        · exact ⟨_, hrk⟩
    have hvec : (kindOf (.n r.lhs)).isVec = true → ∀ a ∈ f.res.ptrs, Lone f.st f.others a ∧ a ∉ owned rest ∧
        f.res.ptrs.count a = 1 := fun hv a ha => by
      have hcase : A.res = .vec ∨ A.res = .null := by
        cases hk : kindOf (.n r.lhs) <;> rw [hk] at hres hv <;> simp [Kind.isVec] at hv
        · exact .inl (by simpa using hres)
        · simpa using hres
      rcases hcase with e | e <;> rw [e] at hrk
      · obtain ⟨x, hx, q1, q2, _⟩ := hrk
        rw [hx] at ha ⊢
        simp only [Val.ptrs, List.mem_singleton] at ha
        subst ha
        exact ⟨q1, q2, by simp [Val.ptrs]⟩
      · have : f.res = .ptr none := hrk
        rw [this] at ha
        simp [Val.ptrs] at ha
    refine ⟨_, rfl, k2.inv, fun a => ?_, fun e he => ?_, fun e he hk a ha => ?_, ?_⟩
    · have := k2.ext a
      rw [hE] at this
      simp only [owned_cons, List.count_append] at this ⊢
      omega
    · rcases List.mem_cons.mp he with rfl | he
      · exact hshape
      · exact hsr e he
    · simp only [owned_cons, List.count_append]
      rcases List.mem_cons.mp he with rfl | he
      · obtain ⟨q1, q2, q3⟩ := hvec hk a ha
        exact ⟨q1, by rw [q3, List.count_eq_zero.mpr q2]⟩
      · obtain ⟨q1, q2⟩ := k2.below e he hk a ha
        rw [hE] at q2
        refine ⟨q1, ?_⟩
        obtain ⟨_, p2⟩ := h.vec e (by rw [← hdiv]; exact List.mem_append.mpr (.inr he)) hk a ha
        have c2 := List.count_pos_iff.mpr (mem_rest he ha)
        have := hcount a
        rw [List.count_eq_zero.mpr q2]
        omega
    · show m.lost + f.bufs = 0
      rw [h.lost, k2.bufs, hbufs]
  · right
    rw [k1]
    obtain ⟨m', q1, q2, _, q4, q5⟩ := leave_spec (code := n) (look := look)
      (m := { st := f.st, others := f.others, stack := rest, lost := m.lost + f.bufs }) k2.inv hsr k2.ext
      (by show m.lost + f.bufs = 0; rw [h.lost, k2.bufs])
    exact ⟨n, m', q1, q2, q4, q5⟩

theorem step_spec {m : M} (h : MInv m) {x : Step} (hm : StepMeets Calm m x) :
    m.step x = .stuck ∨ (∃ m', m.step x = .go m' ∧ MInv m') ∨
      ∃ code m', m.step x = .stop code m' ∧ Returned m' ∧ m'.stack = [] ∧
        ∃ r cs look, x = .reduce r cs look ∧ m'.lost = strings (below m r) + lookStrings look := by
  cases x with
  | shift t => exact .inr (.inl (shift_spec h t))
  | reduce r cs look =>
    rcases reduce_spec h hm with e | e | ⟨c, m', e1, e2, e3, e4⟩
    · exact .inl e
    · exact .inr (.inl e)
    · exact .inr (.inr ⟨c, m', e1, e2, e3, r, cs, look, rfl, e4⟩)

theorem starts_inv {m : M} (h : Starts m) : MInv m := by
  obtain ⟨h1, h2, h3, h4⟩ := h
  refine ⟨Own.reaches_inv (fun _ => Own.sturdy_of_calm) h1, fun a => by rw [h2, h3]; simp [owned], ?_, ?_, h4⟩
  · rw [h3]; simp
  · rw [h3]; simp

end Cowl.YOwn
