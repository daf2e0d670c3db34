import Verif.PrefixMemLemmas
/-! # Every calm operation keeps the tables of a prefix map alive -/
namespace Cowl.PMem
open Heap

/-- The invariant of calm histories. -/
structure MInv (res : Tbl) (s : St) (m : MMap) : Prop where
  reach : Reachable s
  texts : res.map (fun e => (s.content e.1, s.content e.2)) =
    [(some (ascii "owl"), some (ascii "http://www.w3.org/2002/07/owl#")),
     (some (ascii "rdf"), some (ascii "http://www.w3.org/1999/02/22-rdf-syntax-ns#")),
     (some (ascii "rdfs"), some (ascii "http://www.w3.org/2000/01/rdf-schema#")),
     (some (ascii "xsd"), some (ascii "http://www.w3.org/2001/XMLSchema#"))]
  vns : ∀ e ∈ res, Canon s e.2
  owned : ∀ a, held m.fwd a + vocab res a ≤ s.ext a
  key : ∀ e ∈ m.fwd, ∃ t, s.content e.1 = some t
  ns : ∀ e ∈ m.fwd, Canon s e.2
  nodup : m.fwd.Pairwise fun x y => txt s x.1 ≠ txt s y.1
  rev : ∀ e ∈ m.rev, (e.2, e.1) ∈ m.fwd
  revN : (m.rev.map Prod.fst).Nodup

theorem text_iff {s : St} {a : Nat} {t : Str} : Text s a t ↔ s.content a = some t := content_eq.symm

theorem pw_inj {τ : Nat → Str} : ∀ {f : Tbl}, f.Pairwise (fun x y => τ x.1 ≠ τ y.1) → ∀ {x y}, x ∈ f → y ∈ f →
    x.1 = y.1 → x = y
  | [], _, _, _, hx, _, _ => by cases hx
  | z :: f, h, x, y, hx, hy, e => by
    rw [List.pairwise_cons] at h
    rcases List.mem_cons.1 hx with h1 | h1 <;> rcases List.mem_cons.1 hy with h2 | h2
    · rw [h1, h2]
    · exact absurd (by rw [← h1, e]) (h.1 y h2)
    · exact absurd (by rw [← h2, e]) (h.1 x h1)
    · exact pw_inj h.2 h1 h2 e

theorem held_erase {τ : Nat → Str} : ∀ {f : Tbl}, f.Pairwise (fun x y => τ x.1 ≠ τ y.1) → ∀ {e}, e ∈ f → ∀ a,
    held f a = held (erase e.1 f) a + (if a = e.1 then 1 else 0) + (if a = e.2 then 1 else 0)
  | [], _, _, he, _ => by cases he
  | x :: f, h, e, he, a => by
    rw [List.pairwise_cons] at h
    by_cases hx : x = e
    · subst hx
      have h0 : erase x.1 (x :: f) = f := by
        have := erase_none (k := x.1) (f := f) fun y hy e => h.1 y hy (by rw [e])
        unfold erase at this ⊢
        rw [List.filter_cons, if_neg (by simp)]
        exact this
      rw [h0, held_cons]
    · have he' : e ∈ f := (List.mem_cons.1 he).resolve_left (Ne.symm hx)
      have h0 : erase e.1 (x :: f) = x :: erase e.1 f := by
        unfold erase
        rw [List.filter_cons, if_pos]
        simpa using fun e1 => h.1 e he' (by rw [e1])
      rw [h0, held_cons, held_cons, held_erase h.2 he' a]
      omega

section
variable {res : Tbl} {s s' : St} {m : MMap}

theorem vocab_readable {res : Tbl} {s : St} (h : res.map (fun e => (s.content e.1, s.content e.2)) =
    [(some (ascii "owl"), some (ascii "http://www.w3.org/2002/07/owl#")),
     (some (ascii "rdf"), some (ascii "http://www.w3.org/1999/02/22-rdf-syntax-ns#")),
     (some (ascii "rdfs"), some (ascii "http://www.w3.org/2000/01/rdf-schema#")),
     (some (ascii "xsd"), some (ascii "http://www.w3.org/2001/XMLSchema#"))]) {e : Nat × Nat} (he : e ∈ res) :
    (∃ t, s.content e.1 = some t) ∧ ∃ t, s.content e.2 = some t := by
  have := List.mem_map_of_mem (f := fun e => (s.content e.1, s.content e.2)) he
  rw [h] at this
  simp only [List.mem_cons, List.not_mem_nil, or_false, Prod.mk.injEq] at this
  rcases this with ⟨h1, h2⟩ | ⟨h1, h2⟩ | ⟨h1, h2⟩ | ⟨h1, h2⟩ <;> exact ⟨⟨_, h1⟩, _, h2⟩

theorem MInv.nsText (I : MInv res s m) {e : Nat × Nat} (he : e ∈ m.fwd) : ∃ t, s.content e.2 = some t :=
  canon_content I.reach (I.ns e he)

theorem MInv.live (I : MInv res s m) {a : Nat} (h : 0 < held m.fwd a) : Live s a :=
  live_of_ext I.reach (by have := I.owned a; omega)

theorem MInv.vlive (I : MInv res s m) {a : Nat} (h : 0 < vocab res a) : Live s a :=
  live_of_ext I.reach (by have := I.owned a; omega)

/-- The heap changes, the map does not. -/
theorem MInv.transfer (I : MInv res s m) (hr : Reachable s') (hs : Step s s')
    (ho : ∀ a, held m.fwd a + vocab res a ≤ s'.ext a) : MInv res s' m ∧ view s' m = view s m := by
  have hl : ∀ a, 0 < held m.fwd a → Live s' a := fun a h => live_of_ext hr (by have := ho a; omega)
  have hv : ∀ a, 0 < vocab res a → Live s' a := fun a h => live_of_ext hr (by have := ho a; omega)
  have ht : ∀ e ∈ m.fwd, txt s' e.1 = txt s e.1 ∧ txt s' e.2 = txt s e.2 := by
    intro e he
    constructor
    · obtain ⟨t, h⟩ := I.key e he
      simp [txt, h, hs.content (hl _ (held_mem he).1) h]
    · obtain ⟨t, h⟩ := I.nsText he
      simp [txt, h, hs.content (hl _ (held_mem he).2) h]
  refine ⟨⟨hr, ?_, ?_, ho, ?_, ?_, ?_, I.rev, I.revN⟩, ?_⟩
  · rw [← I.texts]
    refine List.map_congr_left fun e he => ?_
    obtain ⟨⟨t1, h1⟩, t2, h2⟩ := vocab_readable I.texts he
    rw [h1, h2, hs.content (hv _ (held_mem he).1) h1, hs.content (hv _ (held_mem he).2) h2]
  · exact fun e he => hs.canon (hv _ (held_mem he).2) (I.vns e he)
  · intro e he
    obtain ⟨t, h⟩ := I.key e he
    exact ⟨t, hs.content (hl _ (held_mem he).1) h⟩
  · exact fun e he => hs.canon (hl _ (held_mem he).2) (I.ns e he)
  · refine I.nodup.imp_of_mem fun hx hy h => ?_
    rw [(ht _ hx).1, (ht _ hy).1]; exact h
  · rw [view_eq, view_eq]
    exact viewT_congr ht fun e he => ⟨(ht _ (I.rev e he)).2, (ht _ (I.rev e he)).1⟩

/-- `intern_ns` finds the standard namespace, or interns. -/
theorem internNs_spec (I : MInv res s m) {p n : Nat} {tp tn : Str} (hp : s.content p = some tp)
    (hn : s.content n = some tn) : ∃ s' r, internNs res s p n = some (s', r) ∧ Reachable s' ∧ Shrink s s' ∧
      Heap.Le s s' ∧ s'.ext = s.ext ∧ Canon s' r ∧ s'.content r = some (PrefixSpec.std tp tn) ∧
      ((∃ e ∈ res, r = e.2) ∨ PrefixSpec.std tp tn = tn) := by
  have hf : find s tp res = some (res.find? fun e => txt s e.1 = tp) :=
    find_eq fun e he => (vocab_readable I.texts he).1
  unfold internNs
  rw [hp]
  simp only [Option.bind_some, hf]
  have ht := I.texts
  have hc := I.vns
  obtain ⟨e1, e2, e3, e4, rfl⟩ : ∃ e1 e2 e3 e4, res = [e1, e2, e3, e4] := by
    have hlen := congrArg List.length ht
    simp only [List.length_map, List.length_cons, List.length_nil] at hlen
    match res, hlen with
    | [e1, e2, e3, e4], _ => exact ⟨e1, e2, e3, e4, rfl⟩
  simp only [List.map_cons, List.map_nil, List.cons.injEq, Prod.mk.injEq, and_true] at ht
  obtain ⟨⟨a1, b1⟩, ⟨a2, b2⟩, ⟨a3, b3⟩, a4, b4⟩ := ht
  have x1 : txt s e1.1 = ascii "owl" := by simp [txt, a1]
  have x2 : txt s e2.1 = ascii "rdf" := by simp [txt, a2]
  have x3 : txt s e3.1 = ascii "rdfs" := by simp [txt, a3]
  have x4 : txt s e4.1 = ascii "xsd" := by simp [txt, a4]
  simp only [List.find?_cons, x1, x2, x3, x4, List.find?_nil]
  by_cases h1 : ascii "owl" = tp
  · simp only [h1, decide_true]
    exact ⟨s, e1.2, rfl, I.reach, Shrink.refl _, Heap.Le.refl _, rfl, hc e1 (by simp), by
      rw [b1, PrefixSpec.std, if_pos h1.symm], .inl ⟨e1, by simp, rfl⟩⟩
  by_cases h2 : ascii "rdf" = tp
  · simp only [h1, h2, decide_true, decide_false]
    exact ⟨s, e2.2, rfl, I.reach, Shrink.refl _, Heap.Le.refl _, rfl, hc e2 (by simp), by
      rw [b2, PrefixSpec.std, if_neg (Ne.symm h1), if_pos h2.symm], .inl ⟨e2, by simp, rfl⟩⟩
  by_cases h3 : ascii "rdfs" = tp
  · simp only [h1, h2, h3, decide_true, decide_false]
    exact ⟨s, e3.2, rfl, I.reach, Shrink.refl _, Heap.Le.refl _, rfl, hc e3 (by simp), by
      rw [b3, PrefixSpec.std, if_neg (Ne.symm h1), if_neg (Ne.symm h2), if_pos h3.symm], .inl ⟨e3, by simp, rfl⟩⟩
  by_cases h4 : ascii "xsd" = tp
  · simp only [h1, h2, h3, h4, decide_true, decide_false]
    exact ⟨s, e4.2, rfl, I.reach, Shrink.refl _, Heap.Le.refl _, rfl, hc e4 (by simp), by
      rw [b4, PrefixSpec.std, if_neg (Ne.symm h1), if_neg (Ne.symm h2), if_neg (Ne.symm h3), if_pos h4.symm],
      .inl ⟨e4, by simp, rfl⟩⟩
  simp only [h1, h2, h3, h4, decide_false]
  obtain ⟨s', r, g1, g2, g3, g4, g5, g6, g7⟩ := do_intern I.reach hn
  have hstd : PrefixSpec.std tp tn = tn := by
    rw [PrefixSpec.std, if_neg (Ne.symm h1), if_neg (Ne.symm h2), if_neg (Ne.symm h3), if_neg (Ne.symm h4)]
  exact ⟨s', r, g1, g2, g3, g4, g5, g6, by rw [hstd]; exact g7, .inr hstd⟩

/-- What an operation on a map does: it keeps the invariant, makes no new objects, and the
references of everybody else stay the same. -/
structure Good (res : Tbl) (s : St) (m : MMap) (s' : St) (m' : MMap) : Prop where
  inv : MInv res s' m'
  shrink : Shrink s s'
  own : ∀ a, s'.ext a + held m.fwd a = s.ext a + held m'.fwd a

theorem add_spec (I : MInv res s m) {p n : Nat} {tp tn : Str} (hp : s.content p = some tp)
    (hn : s.content n = some tn) (ow : Bool) (hk : ow = true → Keeps s m tp tn) :
    ∃ s' m' ret, add res s m p n ow = some (s', m', ret) ∧ Good res s m s' m' ∧
      (view s' m', ret) = (view s m).add ⟨p, tp⟩ tn ow ∧ ∀ x ∈ m'.fwd, x ∈ m.fwd ∨ x.1 = p := by
  obtain ⟨s1, r, e1, hr1, sh1, le1, ext1, cr, tr, _⟩ := internNs_spec I hp hn
  obtain ⟨I1, v1⟩ := I.transfer hr1 (step_of_le sh1.1 le1) (by rw [ext1]; exact I.owned)
  have hp1 : s1.content p = some tp := content_eq.2 (Heap.Le.den le1 _ _ (content_eq.1 hp))
  have hf : find s1 tp m.fwd = some (m.fwd.find? fun e => txt s1 e.1 = tp) := find_eq I1.key
  unfold add Prefix.PMap.add
  rw [e1]
  simp only [Option.bind_some, hp1, hf]
  rw [Prefix.internNs_eq, ← v1]
  have hff : Prefix.fwdFind tp (view s1 m).fwd = (m.fwd.find? fun e => txt s1 e.1 = tp).map (vf (txt s1)) :=
    fwdFind_view (txt s1) tp m.fwd
  simp only [hff]
  cases hfe : m.fwd.find? fun e => txt s1 e.1 = tp with
  | some e =>
    have he := List.mem_of_find?_eq_some hfe
    have het : txt s1 e.1 = tp := by simpa using List.find?_some hfe
    cases ow with
    | false =>
      exact ⟨s1, m, .no, rfl, ⟨I1, sh1, fun a => by rw [ext1]⟩, rfl, fun _ h => .inl h⟩
    | true =>
      simp only [Bool.not_true, Bool.false_eq_true, if_false, Option.map_some]
      have hkey : s.content e.1 = some tp := by
        obtain ⟨u, hu⟩ := I.key e he
        have : s1.content e.1 = some u := content_eq.2 (Heap.Le.den le1 _ _ (content_eq.1 hu))
        rw [hu, ← het]; simp [txt, this]
      obtain ⟨k1, k2⟩ := hk rfl e he (text_iff.2 hkey)
      have k1' : s1.content e.2 = some (PrefixSpec.std tp tn) :=
        content_eq.2 (Heap.Le.den le1 _ _ k1)
      have hre : r = e.2 := canon_eq hr1 cr (I1.ns e he) (by rw [tr, k1'])
      subst hre
      have hx : held m.fwd e.2 < s1.ext e.2 := by rw [ext1]; exact k2
      obtain ⟨s2, f1, f2, f3, f4, f5⟩ := do_release hr1 (a := e.2) (by omega)
      have hl2 : Live s2 e.2 := live_of_ext f2 (by
        have := f5 e.2; rw [if_pos rfl] at this; have := held_mem he; omega)
      obtain ⟨s3, g1, g2, g3, g4, g5⟩ := do_retain f2 hl2
      have ext3 : ∀ a, s3.ext a = s1.ext a := fun a => by rw [g5, f5]
      have sh13 : Shrink s1 s3 := (shrink_of_sub f3 f4).trans g3
      obtain ⟨I3, v3⟩ := I1.transfer g2 sh13.step fun a => by rw [ext3]; exact I1.owned a
      have hset : setVal e.1 e.2 m.fwd = m.fwd := by
        unfold setVal
        conv => rhs; rw [← List.map_id m.fwd]
        refine List.map_congr_left fun x hx => ?_
        by_cases hxe : x.1 = e.1
        · have : x = e := pw_inj I1.nodup hx he hxe
          subst this; simp
        · simp [hxe]
      refine ⟨s3, { m with dirty := true }, .ok, ?_, ⟨⟨I3.reach, I3.texts, I3.vns, I3.owned, I3.key, I3.ns, I3.nodup,
        I3.rev, I3.revN⟩, sh1.trans sh13, fun a => by rw [ext3, ext1]⟩, ?_, fun _ h => .inl h⟩
      · rw [f1]; simp only [Option.bind_some, g1, Option.map_some, hset]
      · have hs : Prefix.fwdSet tp (PrefixSpec.std tp tn) (view s1 m).fwd = (view s1 m).fwd := by
          refine Prefix.fwdSet_same (k := ⟨e.1, txt s1 e.1⟩) ?_
          rw [hff, hfe, Option.map_some, vf]
          have : txt s1 e.2 = PrefixSpec.std tp tn := by simp [txt, k1']
          rw [this]
        rw [hs, ← v3]; rfl
  | none =>
    simp only [Option.map_none]
    obtain ⟨s2, f1, f2, f3, f4, f5⟩ := do_retain hr1 (live_of_content hp1)
    have tr2 : s2.content r = some (PrefixSpec.std tp tn) := content_eq.2 (Heap.Le.den f4 _ _ (content_eq.1 tr))
    obtain ⟨s3, g1, g2, g3, g4, g5⟩ := do_retain f2 (live_of_content tr2)
    have ext3 : ∀ a, s3.ext a = s1.ext a + (if a = p then 1 else 0) + (if a = r then 1 else 0) :=
      fun a => by rw [g5, f5]
    have sh13 : Shrink s1 s3 := f3.trans g3
    have st13 : Step s1 s3 := sh13.step
    obtain ⟨I3, v3⟩ := I1.transfer g2 st13 fun a => by have := I1.owned a; rw [ext3]; omega
    have hp3 : s3.content p = some tp := st13.content (live_of_ext g2 (by rw [ext3, if_pos rfl]; omega)) hp1
    have hlr : Live s3 r := live_of_ext g2 (by rw [ext3, if_pos (rfl : r = r)]; omega)
    have tr3 : s3.content r = some (PrefixSpec.std tp tn) := st13.content hlr tr
    have cr3 : Canon s3 r := st13.canon hlr cr
    have hheld : ∀ a, held (m.fwd ++ [(p, r)]) a = held m.fwd a + ((if a = p then 1 else 0) + (if a = r then 1 else 0)) := by
      intro a
      rw [held_append, held_cons, held_nil]; simp only; omega
    have ht3 : ∀ e ∈ m.fwd, txt s3 e.1 = txt s1 e.1 := by
      intro e he
      obtain ⟨t, h⟩ := I1.key e he
      have : s3.content e.1 = some t := st13.content (I3.live (held_mem he).1) h
      simp [txt, h, this]
    refine ⟨s3, { m with fwd := m.fwd ++ [(p, r)], dirty := true }, .ok, ?_, ⟨⟨I3.reach, I3.texts, I3.vns, ?_, ?_, ?_,
      ?_, ?_, I3.revN⟩, sh1.trans sh13, ?_⟩, ?_, ?_⟩
    · rw [f1]; simp only [Option.bind_some, g1, Option.map_some]
    · intro a
      have := I1.owned a
      simp only [hheld, ext3]; omega
    · intro e he
      rcases List.mem_append.1 he with h | h
      · exact I3.key e h
      · rw [List.mem_singleton.1 h]; exact ⟨_, hp3⟩
    · intro e he
      rcases List.mem_append.1 he with h | h
      · exact I3.ns e h
      · rw [List.mem_singleton.1 h]; exact cr3
    · rw [List.pairwise_append]
      refine ⟨I3.nodup, by simp, fun x hx y hy => ?_⟩
      rw [List.mem_singleton.1 hy, ht3 x hx]
      have := List.find?_eq_none.1 hfe x hx
      rw [decide_eq_true_eq] at this
      rw [show txt s3 (p, r).1 = tp by simp [txt, hp3]]
      exact this
    · exact fun e he => by simp [I3.rev e he]
    · intro a
      simp only [hheld, ext3, ext1]; omega
    · rw [← v3]
      have hvf : vf (txt s3) (p, r) = (⟨p, tp⟩, PrefixSpec.std tp tn) := by
        simp [vf, txt, hp3, tr3]
      simp only [view_eq, viewT, List.map_append, List.map_cons, List.map_nil, hvf]
    · intro x hx
      rcases List.mem_append.1 hx with h | h
      · exact .inl h
      · rw [List.mem_singleton.1 h]; exact .inr rfl

theorem Good.others {m' : MMap} (G : Good res s m s' m') {a : Nat} (h : Others s m a) : Others s' m' a := by
  have := G.own a
  unfold Others at h ⊢
  omega

theorem Others.live (I : MInv res s m) {a : Nat} (h : Others s m a) : Live s a :=
  live_of_ext I.reach (by unfold Others at h; omega)

/-- Texts of strings that others own do not change. -/
theorem Good.text {m' : MMap} (G : Good res s m s' m') {a : Nat} {t : Str} (h : Others s m a)
    (ht : s.content a = some t) : s'.content a = some t :=
  G.shrink.step.content ((G.others h).live G.inv) ht

theorem Good.refl (I : MInv res s m) : Good res s m s m := ⟨I, Shrink.refl _, fun _ => rfl⟩

theorem Good.trans {m' m'' : MMap} {s'' : St} (G : Good res s m s' m') (H : Good res s' m' s'' m'') :
    Good res s m s'' m'' :=
  ⟨H.inv, G.shrink.trans H.shrink, fun a => by have := G.own a; have := H.own a; omega⟩

theorem merge_spec (ow : Bool) : ∀ (src : Tbl) {s : St} {m : MMap} (ret : Ret), MInv res s m →
    (∀ e ∈ src, Others s m e.1 ∧ Others s m e.2 ∧ ∃ tp tn, s.content e.1 = some tp ∧ s.content e.2 = some tn) →
    src.Pairwise (fun e f => txt s e.1 ≠ txt s f.1) →
    (ow = true → ∀ e ∈ src, Keeps s m (txt s e.1) (txt s e.2)) →
    ∃ s' m' ret', mergeLoop res ow src s m ret = some (s', m', ret') ∧ Good res s m s' m' ∧
      (view s' m', ret') = Prefix.mergeLoop ow (src.map (vf (txt s))) (view s m) ret
  | [], s, m, ret, I, _, _, _ => ⟨s, m, ret, rfl, Good.refl I, rfl⟩
  | e :: src, s, m, ret, I, h1, h2, h3 => by
    obtain ⟨o1, o2, tp, tn, t1, t2⟩ := h1 e (by simp)
    rw [List.pairwise_cons] at h2
    have x1 : txt s e.1 = tp := by simp [txt, t1]
    have x2 : txt s e.2 = tn := by simp [txt, t2]
    obtain ⟨s1, m1, r1, e1, G, v1, mm⟩ := add_spec I t1 t2 ow fun ho => by
      have := h3 ho e (by simp); rwa [x1, x2] at this
    have htx : ∀ f ∈ src, txt s1 f.1 = txt s f.1 ∧ txt s1 f.2 = txt s f.2 := by
      intro f hf
      obtain ⟨p1, p2, u1, u2, q1, q2⟩ := h1 f (by simp [hf])
      have w1 := G.text p1 q1
      have w2 := G.text p2 q2
      simp [txt, q1, q2, w1, w2]
    obtain ⟨s2, m2, r2, e2, H, v2⟩ := merge_spec ow src (if r1 = .ok then .ok else ret) G.inv
      (fun f hf => by
        obtain ⟨p1, p2, u1, u2, q1, q2⟩ := h1 f (by simp [hf])
        exact ⟨G.others p1, G.others p2, u1, u2, G.text p1 q1, G.text p2 q2⟩)
      (h2.2.imp_of_mem fun hx hy h => by rw [(htx _ hx).1, (htx _ hy).1]; exact h)
      (fun ho f hf x hx ht => by
        rw [(htx f hf).1] at ht ⊢
        rw [(htx f hf).2]
        rcases mm x hx with hx' | hx'
        · obtain ⟨u, hu⟩ := I.key x hx'
          have hu1 := G.shrink.step.content (G.inv.live (held_mem hx).1) hu
          rw [text_iff, hu1] at ht
          obtain ⟨k1, k2⟩ := h3 ho f (by simp [hf]) x hx' (text_iff.2 (hu.trans ht))
          exact ⟨text_iff.2 (G.text k2 (text_iff.1 k1)), G.others k2⟩
        · rw [hx', text_iff, G.text o1 t1] at ht
          exact absurd (x1.trans (Option.some.inj ht)) (h2.1 f hf))
    refine ⟨s2, m2, r2, ?_, G.trans H, ?_⟩
    · rw [mergeLoop, e1]; exact e2
    · have hv : src.map (vf (txt s1)) = src.map (vf (txt s)) :=
        List.map_congr_left fun f hf => by simp [vf, htx f hf]
      rw [v2, List.map_cons, Prefix.mergeLoop, hv]
      have : vf (txt s) e = (⟨e.1, tp⟩, tn) := by simp [vf, x1, x2]
      rw [this]
      simp only [← v1]

/-! ## Removing -/

theorem removePrefix_spec (I : MInv res s m) {p : Arg} {t : Str} (hp : p.read s = some t) :
    ∃ s' m' ret, removePrefix s m p = some (s', m', ret) ∧ Good res s m s' m' ∧
      (view s' m', ret) = (view s m).removePrefix t := by
  unfold removePrefix Prefix.PMap.removePrefix
  have hf : find s t m.fwd = some (m.fwd.find? fun e => txt s e.1 = t) := find_eq I.key
  have hff : Prefix.fwdFind t (view s m).fwd = (m.fwd.find? fun e => txt s e.1 = t).map (vf (txt s)) :=
    fwdFind_view (txt s) t m.fwd
  simp only [hp, Option.bind_some, hf, hff]
  cases hfe : m.fwd.find? fun e => txt s e.1 = t with
  | none => exact ⟨s, m, .no, rfl, Good.refl I, rfl⟩
  | some e =>
    have he := List.mem_of_find?_eq_some hfe
    have het : txt s e.1 = t := by simpa using List.find?_some hfe
    simp only [Option.map_some]
    have herase : ∀ x ∈ erase e.1 m.fwd, x ∈ m.fwd ∧ x ≠ e := by
      intro x hx
      obtain ⟨h1, h2⟩ := List.mem_filter.1 hx
      exact ⟨h1, fun e => by simp [e] at h2⟩
    have hin : ∀ x ∈ m.fwd, x ≠ e → x ∈ erase e.1 m.fwd := by
      intro x hx hne
      refine List.mem_filter.2 ⟨hx, ?_⟩
      simpa using fun h => hne (pw_inj I.nodup hx he h)
    have hrd : ∀ x ∈ m.fwd, s.content x.1 = some (txt s x.1) ∧ s.content x.2 = some (txt s x.2) ∧ Canon s x.2 :=
      fun x hx => ⟨content_txt (I.key x hx), content_txt (I.nsText hx), I.ns x hx⟩
    obtain ⟨m1, e1, v1, f1, r1, n1⟩ := update_sim I.reach (τ := txt s) (m := { m with fwd := erase e.1 m.fwd })
      (fun x hx => hrd x (herase x hx).1) (fun x hx => ⟨(hrd _ (I.rev x hx)).2.1, (hrd _ (I.rev x hx)).2.2⟩)
      (fun x hx _ _ _ => (hrd _ (I.rev x hx)).1) I.revN
    have hr1 : ∀ x ∈ m1.rev, (x.2, x.1) ∈ m.fwd := by
      intro x hx
      rcases r1 x hx with h | h
      · exact I.rev x h
      · exact (herase _ h).1
    have hfr : find s (txt s e.2) m1.rev = some (m1.rev.find? fun x => txt s x.1 = txt s e.2) :=
      find_eq fun x hx => ⟨_, (hrd _ (hr1 x hx)).2.1⟩
    simp only [e1, Option.bind_some, (hrd e he).2.1, hfr]
    obtain ⟨s2, g1, g2, g3, g4, g5⟩ := do_release I.reach (a := e.1) (by
      have := held_mem he; have := I.owned e.1; omega)
    have hheld : ∀ a, held m.fwd a = held (erase e.1 m.fwd) a + (if a = e.1 then 1 else 0) + (if a = e.2 then 1 else 0) :=
      held_erase I.nodup he
    obtain ⟨s3, k1, k2, k3, k4, k5⟩ := do_release g2 (a := e.2) (by
      have h1 := hheld e.2; have h2 := I.owned e.2; have h3 := g5 e.2
      rw [if_pos (rfl : e.2 = e.2)] at h1
      omega)
    have sh : Shrink s s3 := (shrink_of_sub g3 g4).trans (shrink_of_sub k3 k4)
    have hext : ∀ a, s3.ext a + held m.fwd a = s.ext a + held (erase e.1 m.fwd) a := by
      intro a
      have h1 := hheld a; have h3 := g5 a; have h4 := k5 a
      omega
    have IE : ∀ m' : MMap, m'.fwd = erase e.1 m.fwd → (∀ x ∈ m'.rev, (x.2, x.1) ∈ m'.fwd) → (m'.rev.map Prod.fst).Nodup →
        MInv res s3 m' ∧ view s3 m' = viewT (txt s) m' := by
      intro m' h1 h2 h3
      have I' : MInv res s m' := by
        refine ⟨I.reach, I.texts, I.vns, ?_, ?_, ?_, ?_, h2, h3⟩
        · intro a; have := I.owned a; have := hheld a; rw [h1]; omega
        · intro x hx; rw [h1] at hx; exact I.key x (herase x hx).1
        · intro x hx; rw [h1] at hx; exact I.ns x (herase x hx).1
        · rw [h1]; exact I.nodup.sublist List.filter_sublist
      refine I'.transfer k2 sh.step fun a => ?_
      have := I.owned a; have := hext a; rw [h1]; omega
    have hvE : (view s m).fwd = m.fwd.map (vf (txt s)) := rfl
    have hvm : ({ view s m with fwd := Prefix.fwdErase t (view s m).fwd } : Prefix.PMap) =
        viewT (txt s) { m with fwd := erase e.1 m.fwd } := by
      rw [← het, hvE, ← fwdErase_view I.nodup he]; rfl
    have hview : Prefix.revFind (vf (txt s) e).2 (viewT (txt s) m1).rev =
        (m1.rev.find? fun x => txt s x.1 = txt s e.2).map fun x => ⟨x.2, txt s x.2⟩ := revFind_view _ _ _
    simp only [hvm, ← v1, hview]
    have hrevI : ∀ x ∈ m1.rev, x.2 ≠ e.1 → (x.2, x.1) ∈ m1.fwd := by
      intro x hx hne
      rw [f1]
      exact hin _ (hr1 x hx) fun h => hne (by rw [← h])
    have hpw : m1.rev.Pairwise fun x y => txt s x.1 ≠ txt s y.1 := by
      have := List.pairwise_map.1 n1
      refine this.imp_of_mem fun {x y} hx hy h e => h ?_
      exact canon_eq I.reach (hrd _ (hr1 x hx)).2.2 (hrd _ (hr1 y hy)).2.2 (by
        rw [(hrd _ (hr1 x hx)).2.1, (hrd _ (hr1 y hy)).2.1, e])
    /- only the entry of this namespace can name this prefix -/
    have honly : ∀ x ∈ m1.rev, x.2 = e.1 → x.1 = e.2 := by
      intro x hx h
      have := pw_inj I.nodup (hr1 x hx) he h
      exact congrArg Prod.snd this
    cases hfx : m1.rev.find? fun x => txt s x.1 = txt s e.2 with
    | none =>
      have hno : ∀ x ∈ m1.rev, x.2 ≠ e.1 := by
        intro x hx h
        have := List.find?_eq_none.1 hfx x hx
        rw [decide_eq_true_eq] at this
        exact this (by rw [honly x hx h])
      obtain ⟨I3, v3⟩ := IE m1 f1 (fun x hx => hrevI x hx (hno x hx)) n1
      refine ⟨s3, m1, .ok, by simp only [g1, Option.bind_some, k1, Option.map_some], ⟨I3, sh, fun a => by rw [hext a, f1]⟩, ?_⟩
      simp only [v3, Option.map_none]
    | some x =>
      have hx := List.mem_of_find?_eq_some hfx
      have hxt : txt s x.1 = txt s e.2 := by simpa using List.find?_some hfx
      have hxe : x.1 = e.2 := canon_eq I.reach (hrd _ (hr1 x hx)).2.2 (I.ns e he) (by
        rw [(hrd _ (hr1 x hx)).2.1, (hrd e he).2.1, hxt])
      simp only [Option.map_some]
      by_cases hc : e.1 = x.2
      · simp only [hc, if_true, vf]
        obtain ⟨I3, v3⟩ := IE { m1 with rev := erase x.1 m1.rev, dirty := true } f1 (fun y hy => by
          obtain ⟨y1, y2⟩ := List.mem_filter.1 hy
          refine hrevI y y1 fun h => ?_
          have := honly y y1 h
          simp [this, hxe] at y2) (n1.sublist (List.filter_sublist.map _))
        refine ⟨s3, _, .ok, by rw [← hc]; simp only [g1, Option.bind_some, k1, Option.map_some], ⟨I3, sh, fun a => ?_⟩, ?_⟩
        · show _ = s.ext a + held m1.fwd a
          rw [hext a, f1]
        · rw [v3]
          simp only [viewT]
          rw [revErase_view hpw hx, hxt]
      · simp only [hc, if_false, vf]
        have hno : ∀ y ∈ m1.rev, y.2 ≠ e.1 := by
          intro y hy h
          have h1 := honly y hy h
          have : y = x := pw_inj hpw hy hx (by rw [h1, hxe])
          exact hc (by rw [← h, this])
        obtain ⟨I3, v3⟩ := IE m1 f1 (fun y hy => hrevI y hy (hno y hy)) n1
        refine ⟨s3, m1, .ok, by simp only [g1, Option.bind_some, k1, Option.map_some], ⟨I3, sh, fun a => by rw [hext a, f1]⟩, ?_⟩
        simp only [v3]

theorem Sub.content {s s' : St} (h : Heap.Sub s s') {a : Nat} {t : Str} (hl : Live s' a)
    (ht : s.content a = some t) : s'.content a = some t := by
  obtain ⟨d, hd⟩ := live_iff.1 hl
  have h1 := h a d hd
  rw [content_eq] at ht ⊢
  obtain ⟨i, hi⟩ := denotes_str_iff.1 ht
  rw [hi] at h1; cases h1
  exact .str hd

/-- The loop that drops the entries of a namespace; `k` are the references of everybody else. -/
theorem dropNs_spec {n : Arg} {t : Str} (k : Nat → Nat) (hk : ∀ b, n = .obj b → 0 < k b) : ∀ {f : Tbl} {s : St},
    Reachable s → (∀ a, held f a + k a ≤ s.ext a) → n.read s = some t →
    (∀ e ∈ f, (∃ u, s.content e.1 = some u) ∧ ∃ u, s.content e.2 = some u) →
    ∃ s', dropNs n s f = some (s', f.filter (fun e => ¬ txt s e.2 = t), f.any fun e => txt s e.2 = t) ∧ Reachable s' ∧
      s'.empty = s.empty ∧ Heap.Sub s s' ∧
      ∀ a, s'.ext a + held f a = s.ext a + held (f.filter fun e => ¬ txt s e.2 = t) a
  | [], s, hr, _, _, _ => ⟨s, rfl, hr, rfl, Heap.Sub.refl _, fun _ => rfl⟩
  | e :: f, s, hr, ho, hn, hs => by
    obtain ⟨_, u, hu⟩ := hs e (by simp)
    have hx : txt s e.2 = u := by simp [txt, hu]
    rw [dropNs, hu, hn]
    have hlive : ∀ {s1 : St}, Reachable s1 → Heap.Sub s s1 → (∀ a, held f a + k a ≤ s1.ext a) →
        n.read s1 = some t ∧ (∀ x ∈ f, ((∃ u, s1.content x.1 = some u) ∧ ∃ u, s1.content x.2 = some u) ∧
          txt s1 x.2 = txt s x.2) := by
      intro s1 hr1 hs1 ho1
      constructor
      · cases n with
        | text v => exact hn
        | obj b => exact Sub.content hs1 (live_of_ext hr1 (by have := ho1 b; have := hk b rfl; omega)) hn
      · intro x hx
        obtain ⟨⟨u1, h1⟩, u2, h2⟩ := hs x (by simp [hx])
        have hm := held_mem hx
        have l1 := Sub.content hs1 (live_of_ext hr1 (by have := ho1 x.1; omega)) h1
        have l2 := Sub.content hs1 (live_of_ext hr1 (by have := ho1 x.2; omega)) h2
        exact ⟨⟨⟨_, l1⟩, _, l2⟩, by simp [txt, h2, l2]⟩
    have hcong : ∀ {s1 : St}, (∀ x ∈ f, txt s1 x.2 = txt s x.2) →
        (f.filter (fun x => ¬ txt s1 x.2 = t)) = f.filter (fun x => ¬ txt s x.2 = t) ∧
        (f.any fun x => txt s1 x.2 = t) = f.any fun x => txt s x.2 = t := by
      intro s1 h
      constructor
      · exact List.filter_congr fun x hx => by rw [h x hx]
      · rw [Bool.eq_iff_iff, List.any_eq_true, List.any_eq_true]
        constructor <;> rintro ⟨x, hx, h'⟩ <;> refine ⟨x, hx, ?_⟩ <;> simpa [h x hx] using h'
    by_cases hc : u = t
    · simp only [hc, if_true]
      have hh := fun a => held_cons e f a
      obtain ⟨s1, g1, g2, g3, g4, g5⟩ := do_release hr (a := e.1) (by
        have := ho e.1; have := held_mem (f := e :: f) (e := e) (by simp); omega)
      obtain ⟨s2, k1, k2, k3, k4, k5⟩ := do_release g2 (a := e.2) (by
        have h1 := ho e.2; have h2 := g5 e.2; rw [hh] at h1; rw [if_pos (rfl : e.2 = e.2)] at h1; omega)
      have ho2 : ∀ a, held f a + k a ≤ s2.ext a := by
        intro a; have h1 := ho a; have h2 := g5 a; have h3 := k5 a; rw [hh] at h1; omega
      obtain ⟨q1, q2⟩ := hlive k2 (g4.trans k4) ho2
      obtain ⟨s', e1, e2, e3, e4, e5⟩ := dropNs_spec k hk k2 ho2 q1 fun x hx => (q2 x hx).1
      obtain ⟨c1, c2⟩ := hcong fun x hx => (q2 x hx).2
      refine ⟨s', ?_, e2, e3.trans (k3.trans g3), (g4.trans k4).trans e4, fun a => ?_⟩
      · simp only [g1, Option.bind_some, k1, e1, Option.map_some, c1]
        simp [hx, hc]
      · have h1 := e5 a; have h2 := g5 a; have h3 := k5 a
        rw [c1] at h1
        rw [List.filter_cons, if_neg (by simp [hx, hc]), hh]; omega
    · simp only [hc, if_false]
      have ho2 : ∀ a, held f a + k a ≤ s.ext a := by
        intro a; have h1 := ho a; rw [held_cons] at h1; omega
      obtain ⟨s', e1, e2, e3, e4, e5⟩ := dropNs_spec k hk hr ho2 hn fun x hx => hs x (by simp [hx])
      refine ⟨s', ?_, e2, e3, e4, fun a => ?_⟩
      · simp only [e1, Option.map_some]
        simp [hx, hc]
      · have h1 := e5 a
        rw [List.filter_cons, if_pos (by simp [hx, hc]), held_cons, held_cons]; omega

theorem removeNs_spec (I : MInv res s m) {n : Arg} {t : Str} (hn : n.read s = some t)
    (ha : ∀ b, n = .obj b → Others s m b) (hk : ∀ e ∈ m.fwd, Text s e.2 t → Others s m e.2) :
    ∃ s' m' ret, removeNs s m n = some (s', m', ret) ∧ Good res s m s' m' ∧
      (view s' m', ret) = (view s m).removeNs t := by
  have hrd : ∀ x ∈ m.fwd, s.content x.1 = some (txt s x.1) ∧ s.content x.2 = some (txt s x.2) ∧ Canon s x.2 :=
    fun x hx => ⟨content_txt (I.key x hx), content_txt (I.nsText hx), I.ns x hx⟩
  obtain ⟨s1, e1, hr1, em1, sub1, ext1⟩ := dropNs_spec (n := n) (t := t) (fun a => s.ext a - held m.fwd a)
    (fun b hb => by have := ha b hb; unfold Others at this; omega) (f := m.fwd) I.reach
    (fun a => by have := I.owned a; omega) hn fun x hx => ⟨⟨_, (hrd x hx).1⟩, _, (hrd x hx).2.1⟩
  generalize hf : m.fwd.filter (fun e => ¬ txt s e.2 = t) = f at e1 ext1
  have hfm : ∀ x ∈ f, x ∈ m.fwd ∧ ¬ txt s x.2 = t := by
    intro x hx; rw [← hf] at hx
    simpa using List.mem_filter.1 hx
  have sh : Shrink s s1 := shrink_of_sub em1 sub1
  have hO : ∀ a, Others s m a → Live s1 a := by
    intro a h; have := ext1 a; unfold Others at h; exact live_of_ext hr1 (by omega)
  have hF : ∀ a, 0 < held f a → Live s1 a := by
    intro a h; have := ext1 a; have := I.owned a; exact live_of_ext hr1 (by omega)
  have hf1 : ∀ x ∈ f, s1.content x.1 = some (txt s x.1) ∧ s1.content x.2 = some (txt s x.2) ∧ Canon s1 x.2 := by
    intro x hx
    obtain ⟨h1, h2, h3⟩ := hrd x (hfm x hx).1
    exact ⟨sh.step.content (hF _ (held_mem hx).1) h1, sh.step.content (hF _ (held_mem hx).2) h2,
      sh.step.canon (hF _ (held_mem hx).2) h3⟩
  have hin : ∀ x ∈ m.fwd, ¬ txt s x.2 = t → x ∈ f := by
    intro x hx h; rw [← hf]; exact List.mem_filter.2 ⟨hx, by simpa using h⟩
  have hr : ∀ x ∈ m.rev, s1.content x.1 = some (txt s x.1) ∧ Canon s1 x.1 := by
    intro x hx
    obtain ⟨h1, h2, h3⟩ := hrd _ (I.rev x hx)
    have hl : Live s1 x.1 := by
      by_cases hc : txt s x.1 = t
      · exact hO _ (hk _ (I.rev x hx) (text_iff.2 (by rw [h2]; exact congrArg some hc)))
      · exact hF _ (held_mem (hin _ (I.rev x hx) hc)).2
    exact ⟨sh.step.content hl h2, sh.step.canon hl h3⟩
  obtain ⟨m1, u1, u2, u3, u4, u5⟩ := update_sim hr1 (τ := txt s) (m := { m with fwd := f }) hf1 hr
    (fun x hx y hy h => (hf1 _ (hin _ (I.rev x hx) (by
      show ¬ txt s x.1 = t
      rw [h]; exact (hfm y hy).2))).1) I.revN
  have hn1 : n.read s1 = some t := by
    cases n with
    | text v => exact hn
    | obj b => exact sh.step.content (hO b (ha b rfl)) hn
  have hr2 : ∀ x ∈ m1.rev, s1.content x.1 = some (txt s x.1) ∧ Canon s1 x.1 := by
    intro x hx
    rcases u4 x hx with h | h
    · exact hr x h
    · exact (hf1 _ h).2
  have hfr : find s1 t m1.rev = some (m1.rev.find? fun x => txt s1 x.1 = t) := find_eq fun x hx => ⟨_, (hr2 x hx).1⟩
  have htx : ∀ x ∈ m1.rev, txt s1 x.1 = txt s x.1 := fun x hx => by
    show (s1.content x.1).getD [] = _
    rw [(hr2 x hx).1]; rfl
  have hpw : m1.rev.Pairwise fun x y => txt s x.1 ≠ txt s y.1 := by
    have := List.pairwise_map.1 u5
    refine this.imp_of_mem fun {x y} hx hy h e => h ?_
    exact canon_eq hr1 (hr2 x hx).2 (hr2 y hy).2 (by rw [(hr2 x hx).1, (hr2 y hy).1, e])
  have hrev : ∀ x ∈ m1.rev, ¬ txt s x.1 = t → (x.2, x.1) ∈ f := by
    intro x hx h
    rcases u4 x hx with h' | h'
    · exact hin _ (I.rev x h') h
    · exact h'
  have hheld : ∀ a, held f a ≤ held m.fwd a := by
    intro a
    have := held_filter (fun e => decide (¬ txt s e.2 = t)) a m.fwd
    rw [hf] at this; omega
  have IE : ∀ m' : MMap, m'.fwd = f → (∀ x ∈ m'.rev, (x.2, x.1) ∈ m'.fwd) → (m'.rev.map Prod.fst).Nodup →
      MInv res s1 m' ∧ view s1 m' = viewT (txt s) m' := by
    intro m' h1 h2 h3
    have I' : MInv res s m' := by
      refine ⟨I.reach, I.texts, I.vns, ?_, ?_, ?_, ?_, h2, h3⟩
      · intro a; have := I.owned a; have := hheld a; rw [h1]; omega
      · intro x hx; rw [h1] at hx; exact I.key x (hfm x hx).1
      · intro x hx; rw [h1] at hx; exact I.ns x (hfm x hx).1
      · rw [h1, ← hf]; exact I.nodup.sublist List.filter_sublist
    refine I'.transfer hr1 sh.step fun a => ?_
    have := I.owned a; have := ext1 a; rw [h1]; omega
  have hvm : ({ view s m with fwd := (view s m).fwd.filter fun e => ¬ e.2 = t } : Prefix.PMap) =
      viewT (txt s) { m with fwd := f } := by
    have : (m.fwd.map (vf (txt s))).filter (fun e => ¬ e.2 = t) = f.map (vf (txt s)) := by
      rw [← hf, List.filter_map]; rfl
    rw [view_eq]
    simp only [viewT, this]
  have hany : ((view s m).fwd.any fun e => e.2 = t) = m.fwd.any fun e => txt s e.2 = t := by
    rw [view_eq]
    simp only [viewT, List.any_map]; rfl
  unfold removeNs Prefix.PMap.removeNs
  simp only [e1, Option.bind_some, u1, hn1, hfr, Option.map_some, hvm, ← u2, hany]
  cases hfx : m1.rev.find? fun x => txt s1 x.1 = t with
  | none =>
    have hno : ∀ x ∈ m1.rev, txt s x.1 ≠ t := by
      intro x hx h
      have := List.find?_eq_none.1 hfx x hx
      rw [decide_eq_true_eq, htx x hx] at this
      exact this h
    obtain ⟨I3, v3⟩ := IE m1 u3 (fun x hx => by rw [u3]; exact hrev x hx (hno x hx)) u5
    refine ⟨s1, m1, _, rfl, ⟨I3, sh, fun a => by rw [ext1 a, u3]⟩, ?_⟩
    rw [v3]
    have : Prefix.revErase t (viewT (txt s) m1).rev = (viewT (txt s) m1).rev := revErase_none hno
    rw [this]
  | some x =>
    have hx := List.mem_of_find?_eq_some hfx
    have hxt : txt s x.1 = t := by
      rw [← htx x hx]; simpa using List.find?_some hfx
    obtain ⟨I3, v3⟩ := IE { m1 with rev := erase x.1 m1.rev } u3 (fun y hy => by
      obtain ⟨y1, y2⟩ := List.mem_filter.1 hy
      show _ ∈ m1.fwd
      rw [u3]
      refine hrev y y1 fun h => ?_
      have := pw_inj (τ := txt s) hpw y1 hx (by
        exact canon_eq hr1 (hr2 y y1).2 (hr2 x hx).2 (by rw [(hr2 y y1).1, (hr2 x hx).1, h, hxt]))
      simp [this] at y2) (u5.sublist (List.filter_sublist.map _))
    refine ⟨s1, _, _, rfl, ⟨I3, sh, fun a => ?_⟩, ?_⟩
    · show _ = s.ext a + held m1.fwd a
      rw [ext1 a, u3]
    · rw [v3]
      have : Prefix.revErase t (viewT (txt s) m1).rev = (erase x.1 m1.rev).map (vr (txt s)) := by
        rw [← hxt]; exact (revErase_view hpw hx).symm
      rw [this]; rfl

theorem getPrefix_spec (I : MInv res s m) {n : Arg} {t : Str} (hn : n.read s = some t) :
    ∃ m' r, getPrefix s m n = some (m', r) ∧ MInv res s m' ∧ m'.fwd = m.fwd ∧
      (view s m', r.map fun a => ⟨a, txt s a⟩) = (view s m).getPrefix t ∧
      (∀ a, r = some a → ∃ e ∈ m.fwd, e.1 = a) := by
  have hrd : ∀ x ∈ m.fwd, s.content x.1 = some (txt s x.1) ∧ s.content x.2 = some (txt s x.2) ∧ Canon s x.2 :=
    fun x hx => ⟨content_txt (I.key x hx), content_txt (I.nsText hx), I.ns x hx⟩
  obtain ⟨m1, u1, u2, u3, u4, u5⟩ := update_sim I.reach (τ := txt s) (m := m) hrd
    (fun x hx => (hrd _ (I.rev x hx)).2) (fun x hx _ _ _ => (hrd _ (I.rev x hx)).1) I.revN
  have hrev : ∀ x ∈ m1.rev, (x.2, x.1) ∈ m.fwd := by
    intro x hx
    rcases u4 x hx with h | h
    · exact I.rev x h
    · exact h
  have hfr : find s t m1.rev = some (m1.rev.find? fun x => txt s x.1 = t) :=
    find_eq fun x hx => ⟨_, (hrd _ (hrev x hx)).2.1⟩
  refine ⟨m1, _, by unfold getPrefix; simp only [u1, Option.bind_some, hn, hfr, Option.map_some]; rfl,
    ⟨I.reach, I.texts, I.vns, by rw [u3]; exact I.owned, by rw [u3]; exact I.key, by rw [u3]; exact I.ns,
      by rw [u3]; exact I.nodup, by rw [u3]; exact hrev, u5⟩, u3, ?_, ?_⟩
  · unfold Prefix.PMap.getPrefix
    have h1 : (view s m).updateReverse = viewT (txt s) m1 := u2.symm
    have h2 : Prefix.revFind t (viewT (txt s) m1).rev = _ := revFind_view (txt s) t m1.rev
    simp only [h1, h2]
    rw [view_eq, Option.map_map]; rfl
  · intro a h
    cases hfx : m1.rev.find? fun x => txt s x.1 = t with
    | none => rw [hfx] at h; cases h
    | some x =>
      rw [hfx] at h
      cases h
      exact ⟨_, hrev x (List.mem_of_find?_eq_some hfx), rfl⟩

/-! ## The rest -/

theorem free_spec : ∀ {f : Tbl} {s : St}, Reachable s → (∀ a, held f a ≤ s.ext a) →
    ∃ s', freeLoop f s = some s' ∧ Reachable s' ∧ ∀ a, s'.ext a + held f a = s.ext a
  | [], s, hr, _ => ⟨s, rfl, hr, fun _ => rfl⟩
  | e :: f, s, hr, ho => by
    have hh := fun a => held_cons e f a
    obtain ⟨s1, g1, g2, g3, g4, g5⟩ := do_release hr (a := e.1) (by
      have := ho e.1; have := held_mem (f := e :: f) (e := e) (by simp); omega)
    obtain ⟨s2, k1, k2, k3, k4, k5⟩ := do_release g2 (a := e.2) (by
      have h1 := ho e.2; have h2 := g5 e.2; rw [hh] at h1; rw [if_pos (rfl : e.2 = e.2)] at h1; omega)
    obtain ⟨s', e1, e2, e3⟩ := free_spec (f := f) k2 (by
      intro a; have h1 := ho a; have h2 := g5 a; have h3 := k5 a; rw [hh] at h1; omega)
    refine ⟨s', by rw [freeLoop, g1]; simp only [Option.bind_some, k1]; exact e1, e2, fun a => ?_⟩
    have h1 := e3 a; have h2 := g5 a; have h3 := k5 a; rw [hh]; omega

end
end Cowl.PMem
