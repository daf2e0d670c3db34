import Verif.OntoIter
/-! # Lemmas on ownership, ever-mentioned primitives and imports -/
namespace Cowl
open ObjSpec IterSpec OntoSpec

/-! ## Equal objects mention the same primitives -/

theorem timesAll_perm (p : Prim) {xs ys : List Obj} (h : xs.Perm ys) : timesAll p xs = timesAll p ys := by
  induction h with
  | nil => rfl
  | cons x _ ih => rw [timesAll, timesAll, ih]
  | swap x y l => simp only [timesAll]; omega
  | trans _ _ h1 h2 => exact h1.trans h2

mutual
theorem same_times (p : Prim) : ∀ {a b : Obj}, Same a b → times p a = times p b
  | _, _, .str s => rfl
  | _, _, .lit v t => rfl
  | _, _, .prim q => rfl
  | _, _, .other t a => rfl
  | _, _, .ordered h => by rw [times, times]; exact sameAll_times p h
  | _, _, .unordered h hp => by rw [times, times, sameAll_times p h, timesAll_perm p hp]
  | _, _, .comp h _ => by rw [times, times, sameAll_times p h]

theorem sameAll_times (p : Prim) : ∀ {xs ys : List Obj}, SameAll xs ys → timesAll p xs = timesAll p ys
  | _, _, .nil => rfl
  | _, _, .cons hx hs => by rw [timesAll, timesAll, same_times p hx, sameAll_times p hs]
end

theorem same_otype {a b : Obj} (h : Same a b) : a.otype = b.otype := by cases h <;> rfl

/-! ## Balances -/

theorem countP_addr_cons (a : Ref) (xs : List Ref) (n : Nat) :
    (a :: xs).countP (fun x => x.addr = n) = xs.countP (fun x => x.addr = n) + if a.addr = n then 1 else 0 := by
  rw [List.countP_cons]; simp

theorem owned_perm {s s' : Abs} (h1 : s.axioms.Perm s'.axioms) (h2 : s.annots.Perm s'.annots)
    (h3 : s.imports.Perm s'.imports) (n : Nat) : s.owned n = s'.owned n := by
  unfold Abs.owned
  exact ((h1.append h2).append h3).countP_eq _

theorem owned_eq (s : Abs) (n : Nat) : s.owned n = s.axioms.countP (fun x => x.addr = n) +
    s.annots.countP (fun x => x.addr = n) + s.imports.countP (fun x => x.addr = n) := by
  rw [Abs.owned, List.countP_append, List.countP_append]

theorem bump_apply (r : Nat → Int) (a n : Nat) (d : Int) :
    bump r a d n = r n + if a = n then d else 0 := by
  unfold bump
  by_cases h : n = a
  · subst h; simp
  · have h' : ¬ a = n := fun e => h e.symm
    simp [h, h']

theorem eraseP_find {xs : List Ref} {q : Ref → Bool} {y : Ref} (h : xs.find? q = some y) :
    xs.Perm (y :: xs.eraseP q) := by
  induction xs with
  | nil => simp at h
  | cons x xs ih =>
    rw [List.find?_cons] at h
    rw [List.eraseP_cons]
    cases hq : q x with
    | true => rw [hq] at h; simp at h; subst h; simp
    | false =>
      rw [hq] at h
      simp only [cond_false]
      exact ((ih h).cons x).trans (List.Perm.swap y x _)

theorem vecRemove_owned (v : Option (List Ref)) (x : Ref) (n : Nat)
    (h : ∀ y, ((v.getD []).find? fun y => y.obj.equals x.obj) = some y → y.addr = x.addr) :
    ((v.getD []).countP fun y => y.addr = n) =
      (((v.getD []).eraseP fun y => y.obj.equals x.obj).countP fun y => y.addr = n) +
        if (vecPtrRemove v x).2 = true ∧ x.addr = n then 1 else 0 := by
  rw [(vecPtrRemove_spec v x).2]
  cases hf : (v.getD []).find? fun y => y.obj.equals x.obj with
  | none =>
    rw [List.find?_eq_none] at hf
    have h1 : ((v.getD []).any fun y => y.obj.equals x.obj) = false := by
      rw [List.any_eq_false]; exact hf
    rw [List.eraseP_of_forall_not hf, h1]
    simp
  | some y =>
    have h1 : ((v.getD []).any fun y => y.obj.equals x.obj) = true := by
      rw [List.any_eq_true]; exact ⟨y, List.mem_of_find?_eq_some hf, List.find?_some (p := fun y : Ref => y.obj.equals x.obj) hf⟩
    rw [(eraseP_find hf).countP_eq, countP_addr_cons, h1, h y hf]
    simp

theorem removeAxiom_none {o : Onto} {s : Abs} {a : Ref} (h : Inv o s)
    (hn : ∀ b ∈ s.axioms, a.obj.equals b.obj = false) : o.removeAxiom a = some (o, false) := by
  unfold Onto.removeAxiom
  cases hv : o.bestIndex a.obj (axType a.obj) with
  | none => rfl
  | some v =>
    dsimp only
    rw [if_neg]
    rw [List.any_eq_true]
    rintro ⟨b, hb, he⟩
    have := hn b ((bestIndex_mem h b).1 v hv (List.mem_reverse.1 hb))
    rw [he] at this
    cases this

theorem owned_step {o : Onto} {s : Abs} (h : Inv o s) (ho : ∀ n, o.refs n = s.owned n) (op : Op)
    (hl : Legal s op) (hh : Honest s op) {o' : Onto} (hs : o.step op = some o') :
    ∀ n, o'.refs n = (s.step op).owned n := by
  intro n
  have hn := ho n
  rw [owned_eq] at hn ⊢
  cases op with
  | addAxiom a =>
    cases hs
    simp only [Onto.addAxiom, bump_apply, Abs.step, List.countP_append, countP_addr_cons,
      List.countP_nil]
    split <;> omega
  | addAnnot a =>
    cases hs
    simp only [Onto.addAnnot, bump_apply, Abs.step, List.countP_append, countP_addr_cons,
      List.countP_nil]
    split <;> omega
  | addImport a =>
    cases hs
    simp only [Onto.addImport, bump_apply, Abs.step, List.countP_append, countP_addr_cons,
      List.countP_nil]
    split <;> omega
  | removeAnnot x =>
    cases hs
    have hk : ∀ y, ((o.annot.getD []).find? fun y => y.obj.equals x.obj) = some y →
        y.addr = x.addr := by rw [h.annot]; exact hh
    have := vecRemove_owned o.annot x n hk
    rw [h.annot] at this
    simp only [Onto.removeAnnot, releasedIf, Abs.step]
    cases hb : (vecPtrRemove o.annot x).2 <;> rw [hb] at this
    · simp at this ⊢; omega
    · simp [bump_apply] at this ⊢; split <;> simp_all <;> omega
  | removeImport x =>
    cases hs
    have hk : ∀ y, ((o.imports.getD []).find? fun y => y.obj.equals x.obj) = some y →
        y.addr = x.addr := by rw [h.imports]; exact hh
    have := vecRemove_owned o.imports x n hk
    rw [h.imports] at this
    simp only [Onto.removeImport, releasedIf, Abs.step]
    cases hb : (vecPtrRemove o.imports x).2 <;> rw [hb] at this
    · simp at this ⊢; omega
    · simp [bump_apply] at this ⊢; split <;> simp_all <;> omega
  | removeAxiom a =>
    by_cases ha : a ∈ s.axioms
    · obtain ⟨o1, h1, h2, _⟩ := inv_removeAndUnindex h hl.1 hl.2 (tindex_some h ha)
      have h3 := removeAxiom_held h ha
      rw [h1] at h3
      simp only [Onto.step, h3, Option.map_some, Option.some.injEq] at hs
      subst hs
      rw [h2, bump_apply]
      have := (eraseP_addr_perm hl.2 ha).countP_eq (fun x => decide (x.addr = n))
      rw [countP_addr_cons] at this
      simp only [Abs.step]
      split <;> simp_all <;> omega
    · have hne : ∀ b ∈ s.axioms, a.obj.equals b.obj = false := hh.resolve_left ha
      simp only [Onto.step, removeAxiom_none h hne, Option.map_some, Option.some.injEq] at hs
      subst hs
      simp only [Abs.step]
      rw [eraseP_addr_absent (addr_absent hl.2 ha)]
      exact hn
  | removeMatching f =>
    obtain ⟨o1, r, h1, _, h3, _, h5⟩ := removeAxiomsMatching_spec h f hl
    simp only [Onto.step, h1, Option.map_some, Option.some.injEq] at hs
    subst hs
    rw [h5 n, hn]
    have hp : s.axioms.Perm (r ++ s.axioms.filter fun a => ¬ Matches f a) := by
      have := (List.filter_append_perm (fun a => decide (Matches f a)) s.axioms).symm
      refine this.trans ((h3.symm.append_right _).trans ?_)
      apply List.Perm.of_eq
      congr 2
      funext a; simp
    have := hp.countP_eq (fun x => decide (x.addr = n))
    rw [List.countP_append] at this
    simp only [Abs.step]
    omega

theorem owned_run : ∀ (ops : List Op) (o : Onto) (s : Abs), Inv o s → (∀ n, o.refs n = s.owned n) →
    LegalRun s ops → HonestRun s ops → ∀ o', o.run ops = some o' →
    Inv o' (s.run ops) ∧ ∀ n, o'.refs n = (s.run ops).owned n
  | [], o, s, h, ho, _, _, o', hr => by cases hr; exact ⟨h, ho⟩
  | op :: ops, o, s, h, ho, hl, hh, o', hr => by
    obtain ⟨o1, h1, h2⟩ := inv_step h op hl.1
    rw [Onto.run, h1] at hr
    exact owned_run ops o1 (s.step op) h2 (owned_step h ho op hl.1 hh.1 h1) hl.2 hh.2 o' hr

theorem releaseAll_apply (n : Nat) : ∀ (xs : List Ref) (r : Nat → Int),
    releaseAll r xs n = r n - (xs.countP fun x => x.addr = n : Nat)
  | [], r => by simp [releaseAll]
  | x :: xs, r => by
    rw [releaseAll, List.foldl_cons]
    have := releaseAll_apply n xs (bump r x.addr (-1))
    rw [releaseAll] at this
    rw [this, bump_apply, countP_addr_cons]
    split <;> omega

theorem releaseTypes_apply (o : Onto) (n : Nat) : ∀ (ts : List Nat) (r : Nat → Int),
    (ts.foldl (fun r t => releaseAll r ((o.tindex t).getD [])) r) n =
      r n - ((ts.flatMap fun t => (o.tindex t).getD []).countP fun x => x.addr = n : Nat)
  | [], r => by simp
  | t :: ts, r => by
    rw [List.foldl_cons, releaseTypes_apply o n ts, releaseAll_apply, List.flatMap_cons,
      List.countP_append]
    omega

theorem free_apply {o : Onto} {s : Abs} (h : Inv o s) (n : Nat) :
    o.free n = o.refs n - s.owned n := by
  unfold Onto.free
  rw [releaseTypes_apply, releaseAll_apply, releaseAll_apply, h.annot, h.imports,
    (allTypes_perm h).countP_eq, owned_eq]
  omega

/-! ## Keys of the index -/

theorem keys_step {o : Onto} {s : Abs} (h : Inv o s) (op : Op) (hl : Legal s op) {o' : Onto}
    (hs : o.step op = some o') (p : Prim) :
    p ∈ o'.idx.map Prod.fst ↔ p ∈ o.idx.map Prod.fst ∨ EverMentioned [op] p := by
  have none_ : ∀ {op}, (∀ x, op ≠ .addAxiom x ∧ op ≠ .addAnnot x) → ¬ EverMentioned [op] p := by
    rintro op hop ⟨x, hx, _⟩
    simp only [List.mem_singleton] at hx
    rcases hx with hx | hx
    · exact (hop x).1 hx.symm
    · exact (hop x).2 hx.symm
  cases op with
  | addAxiom a =>
    cases hs
    have hidx : (o.addAxiom a).idx = (occ a.obj).foldl (putAxiom a) o.idx := by
      simp only [Onto.addAxiom, h.enabled]
      exact iterPrims_fold _ _ _
    rw [hidx, keys_putAll, mem_occ_times hl.1.1]
    apply or_congr_right
    constructor
    · intro hp; exact ⟨a, by simp, hp⟩
    · rintro ⟨x, hx, hp⟩
      simp at hx
      subst hx; exact hp
  | addAnnot a =>
    cases hs
    have hidx : (o.addAnnot a).idx = (occ a.obj).foldl putKey o.idx := by
      simp only [Onto.addAnnot]
      exact iterPrims_fold _ _ _
    rw [hidx, (putKeys_spec _ _).2.1, mem_occ_times hl]
    apply or_congr_right
    constructor
    · intro hp; exact ⟨a, by simp, hp⟩
    · rintro ⟨x, hx, hp⟩
      simp at hx
      subst hx; exact hp
  | addImport x =>
    cases hs
    simp only [none_ (op := .addImport x) (by simp), or_false]
    rfl
  | removeImport x =>
    cases hs
    simp only [none_ (op := .removeImport x) (by simp), or_false]
    rfl
  | removeAnnot x =>
    cases hs
    simp only [none_ (op := .removeAnnot x) (by simp), or_false]
    rfl
  | removeAxiom a =>
    simp only [none_ (op := .removeAxiom a) (by simp), or_false]
    have : o'.idx.map Prod.fst = o.idx.map Prod.fst := by
      simp only [Onto.step, Option.map_eq_some_iff] at hs
      obtain ⟨⟨o1, b⟩, h1, rfl⟩ := hs
      unfold Onto.removeAxiom at h1
      split at h1
      · cases h1; rfl
      · split at h1
        · simp only [Option.map_eq_some_iff, Prod.mk.injEq] at h1
          obtain ⟨o2, h2, rfl, rfl⟩ := h1
          have hv : ∃ v, o.tindex (axType a.obj) = some v := by
            unfold Onto.removeAndUnindex at h2
            split at h2
            · cases h2
            · exact ⟨_, by assumption⟩
          obtain ⟨o3, h3, _, _, _, h4, _⟩ := inv_removeAndUnindex h hl.1 hl.2 hv
          rw [h2] at h3
          cases h3
          exact h4
        · cases h1; rfl
    rw [this]
  | removeMatching f =>
    simp only [none_ (op := .removeMatching f) (by simp), or_false]
    obtain ⟨o1, r, h1, _, _, h4, _⟩ := removeAxiomsMatching_spec h f hl
    simp only [Onto.step, h1, Option.map_some, Option.some.injEq] at hs
    subst hs
    rw [h4]

theorem everMentioned_cons {op : Op} {ops : List Op} {p : Prim} :
    EverMentioned (op :: ops) p ↔ EverMentioned [op] p ∨ EverMentioned ops p := by
  unfold EverMentioned
  simp only [List.mem_cons, List.not_mem_nil, or_false]
  constructor
  · rintro ⟨x, (h | h) | h | h, hp⟩
    · exact .inl ⟨x, .inl h, hp⟩
    · exact .inr ⟨x, .inl h, hp⟩
    · exact .inl ⟨x, .inr h, hp⟩
    · exact .inr ⟨x, .inr h, hp⟩
  · rintro (⟨x, h | h, hp⟩ | ⟨x, h | h, hp⟩)
    · exact ⟨x, .inl (.inl h), hp⟩
    · exact ⟨x, .inr (.inl h), hp⟩
    · exact ⟨x, .inl (.inr h), hp⟩
    · exact ⟨x, .inr (.inr h), hp⟩

theorem keys_run : ∀ (ops : List Op) (o : Onto) (s : Abs), Inv o s → LegalRun s ops →
    ∀ o', o.run ops = some o' → ∀ p,
      p ∈ o'.idx.map Prod.fst ↔ p ∈ o.idx.map Prod.fst ∨ EverMentioned ops p
  | [], o, s, _, _, o', hr, p => by
    cases hr
    simp [EverMentioned]
  | op :: ops, o, s, h, hl, o', hr, p => by
    obtain ⟨o1, h1, h2⟩ := inv_step h op hl.1
    rw [Onto.run, h1] at hr
    rw [keys_run ops o1 (s.step op) h2 hl.2 o' hr p, keys_step h op hl.1 h1, everMentioned_cons (ops := ops),
      or_assoc]

theorem hasPrimitive_iff (o : Onto) (p : Prim) :
    o.hasPrimitive p = true ↔ OrIri (fun q => q ∈ o.idx.map Prod.fst) p := by
  unfold Onto.hasPrimitive Onto.hasKey
  cases p with
  | ent k i =>
    simp only [Prim.entIri?, OrIri, ← lookup_isSome_iff]
    cases (List.lookup (Prim.ent k i) o.idx).isSome <;> simp
  | iri i => simp only [Prim.entIri?, OrIri, ← lookup_isSome_iff]; simp
  | anon n => simp only [Prim.entIri?, OrIri, ← lookup_isSome_iff]; simp

theorem orIri_congr {P Q : Prim → Prop} (h : ∀ p, P p ↔ Q p) (p : Prim) : OrIri P p ↔ OrIri Q p := by
  cases p <;> simp [OrIri, h]

/-- With additions only, what was ever mentioned is mentioned. -/
theorem mentioned_run : ∀ (ops : List Op) (s : Abs), (∀ op ∈ ops, op.Adds) → ∀ p,
    Mentioned (s.run ops) p ↔ Mentioned s p ∨ EverMentioned ops p
  | [], s, _, p => by simp [EverMentioned, Abs.run]
  | op :: ops, s, h, p => by
    rw [Abs.run, mentioned_run ops _ (fun o ho => h o (List.mem_cons_of_mem _ ho)),
      everMentioned_cons (ops := ops), ← or_assoc]
    apply or_congr_left
    have hop := h op (by simp)
    unfold Mentioned EverMentioned
    cases op <;> simp [Op.Adds] at hop <;> simp only [Abs.step, List.mem_append, List.mem_singleton]
    all_goals constructor
    · rintro ⟨x, (h | h) | h, hp⟩
      · exact .inl ⟨x, .inl h, hp⟩
      · exact .inr ⟨x, by simp [h], hp⟩
      · exact .inl ⟨x, .inr h, hp⟩
    · rintro (⟨x, h | h, hp⟩ | ⟨x, h | h, hp⟩)
      · exact ⟨x, .inl (.inl h), hp⟩
      · exact ⟨x, .inr h, hp⟩
      · exact ⟨x, .inl (.inr (by cases h; rfl)), hp⟩
      · cases h
    · rintro ⟨x, h | h | h, hp⟩
      · exact .inl ⟨x, .inl h, hp⟩
      · exact .inl ⟨x, .inr h, hp⟩
      · exact .inr ⟨x, by simp [h], hp⟩
    · rintro (⟨x, h | h, hp⟩ | ⟨x, h | h, hp⟩)
      · exact ⟨x, .inl h, hp⟩
      · exact ⟨x, .inr (.inl h), hp⟩
      · cases h
      · exact ⟨x, .inr (.inr (by cases h; rfl)), hp⟩
    · intro h; exact .inl h
    · rintro (h | ⟨x, h | h, _⟩)
      · exact h
      · cases h
      · cases h

/-! ## Imports -/

/-- All imports are IRIs, none twice. -/
def ImpInv (s : Abs) : Prop :=
  (∀ x ∈ s.imports, ∃ p, x.obj = .prim p) ∧ s.imports.Pairwise fun x y => ¬ Same x.obj y.obj

theorem same_prim {p q : Prim} : Same (.prim p) (.prim q) ↔ p = q := by
  constructor
  · intro h; cases h; rfl
  · rintro rfl; exact .prim p

theorem imports_step (p : Prim) (s : Abs) (op : Op) (ops : List Op) (b : Bool) (h : ImpInv s)
    (ho : OnceEach s (op :: ops)) (hb : b = true ↔ ∃ x ∈ s.imports, x.obj = .prim p) :
    ImpInv (s.step op) ∧ ((match op.import? with
        | some (c, q) => if q = p then c else b
        | none => b) = true ↔ ∃ x ∈ (s.step op).imports, x.obj = .prim p) := by
  cases op with
  | addImport x =>
    obtain ⟨a, obj⟩ := x
    obtain ⟨⟨⟨q, hq⟩, h1⟩, _⟩ := ho
    dsimp only at hq
    subst hq
    refine ⟨⟨?_, ?_⟩, ?_⟩
    · intro x hx
      simp only [Abs.step, List.mem_append, List.mem_singleton] at hx
      rcases hx with hx | rfl
      · exact h.1 x hx
      · exact ⟨q, rfl⟩
    · simp only [Abs.step]
      rw [List.pairwise_append]
      refine ⟨h.2, by simp, ?_⟩
      intro x hx y hy
      simp only [List.mem_singleton] at hy
      subst hy
      exact h1 x hx
    · simp only [Op.import?, Abs.step]
      by_cases hqp : q = p
      · subst hqp; simp
      · simp only [hqp, if_false, hb]
        simp [hqp, or_and_right, exists_or]
  | removeImport x =>
    obtain ⟨a, obj⟩ := x
    obtain ⟨⟨q, hq⟩, _⟩ := ho
    dsimp only at hq
    subst hq
    have hsub : ∀ x ∈ s.imports.eraseP (fun y => y.obj.equals (.prim q)), x ∈ s.imports :=
      fun x hx => List.mem_of_mem_eraseP hx
    refine ⟨⟨fun x hx => h.1 x (hsub x hx), h.2.sublist List.eraseP_sublist⟩, ?_⟩
    simp only [Op.import?, Abs.step]
    by_cases hqp : q = p
    · subst hqp
      simp only [if_true, Bool.false_eq_true, false_iff]
      rintro ⟨x, hx, hxp⟩
      cases hf : s.imports.find? (fun y => y.obj.equals (.prim q)) with
      | none =>
        rw [List.find?_eq_none] at hf
        exact hf x (hsub x hx) (equals_prim.2 hxp)
      | some y =>
        have hp := eraseP_find hf
        have hy := equals_prim.1 (List.find?_some (p := fun y : Ref => y.obj.equals (.prim q)) hf)
        have hpw := hp.pairwise_iff (R := fun x y : Ref => ¬ Same x.obj y.obj)
          (fun {a b} h1 h2 => h1 h2.symm)
        have := (List.pairwise_cons.1 (hpw.1 h.2)).1 x hx
        apply this
        rw [hxp, hy]
        exact .prim q
    · simp only [hqp, if_false, hb]
      constructor
      · rintro ⟨x, hx, hxp⟩
        refine ⟨x, ?_, hxp⟩
        rw [List.mem_eraseP_of_neg]
        · exact hx
        · rw [hxp, equals_prim]; simpa using fun e => hqp (Eq.symm e)
      · rintro ⟨x, hx, hxp⟩; exact ⟨x, hsub x hx, hxp⟩
  | addAxiom x => exact ⟨h, hb⟩
  | removeAxiom x => exact ⟨h, hb⟩
  | removeMatching x => exact ⟨h, hb⟩
  | addAnnot x => exact ⟨h, hb⟩
  | removeAnnot x => exact ⟨h, hb⟩

theorem imports_run (p : Prim) : ∀ (ops : List Op) (s : Abs) (b : Bool), ImpInv s → OnceEach s ops →
    (b = true ↔ ∃ x ∈ s.imports, x.obj = .prim p) →
    ImpInv (s.run ops) ∧ (lastIsAdd p b ops = true ↔ ∃ x ∈ (s.run ops).imports, x.obj = .prim p)
  | [], s, b, h, _, hb => ⟨h, hb⟩
  | op :: ops, s, b, h, ho, hb => by
    obtain ⟨h1, h2⟩ := imports_step p s op ops b h ho hb
    obtain ⟨h3, h4⟩ := imports_run p ops (s.step op) _ h1 ho.2 h2
    refine ⟨h3, ?_⟩
    rw [Abs.run, ← h4, lastIsAdd]
    cases op.import? with
    | none => rfl
    | some cq => obtain ⟨c, q⟩ := cq; rfl

end Cowl
