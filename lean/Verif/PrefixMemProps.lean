import Verif.PrefixMemOps
import Verif.PrefixMapProps
/-!
# Prefix maps in memory

C51: prefix maps touch no freed string, own exactly what their first table refers to,
and give it back.
-/
namespace Cowl
open PMem Heap

namespace PMem

/-! ## Histories -/

theorem std_cases {res : Tbl} {s : St} {m : MMap} (I : MInv res s m) (p n : Str) :
    (∃ e ∈ res, s.content e.2 = some (PrefixSpec.std p n)) ∨ PrefixSpec.std p n = n := by
  have key : ∀ x : Option Str × Option Str, x ∈ res.map (fun e => (s.content e.1, s.content e.2)) →
      ∃ e ∈ res, s.content e.2 = x.2 := by
    intro x hx
    obtain ⟨e, he, rfl⟩ := List.mem_map.1 hx
    exact ⟨e, he, rfl⟩
  rw [I.texts] at key
  unfold PrefixSpec.std
  split
  · exact .inl (key (some (ascii "owl"), some _) (by simp))
  split
  · exact .inl (key (some (ascii "rdf"), some _) (by simp))
  split
  · exact .inl (key (some (ascii "rdfs"), some _) (by simp))
  split
  · exact .inl (key (some (ascii "xsd"), some _) (by simp))
  · exact .inr rfl

theorem create_spec {res : Tbl} {s : St} (hr : Reachable s) (hv : Vocab res s) :
    ∃ s' m, create res s = some (s', m) ∧ Good res s ⟨[], [], false⟩ s' m ∧
      view s' m = Prefix.create (res.map Prod.fst) [] := by
  have hc : ∀ e ∈ res, Canon s e.2 := fun e he => .inl (hv.interned e he)
  have I0 : MInv res s ⟨[], [], false⟩ :=
    ⟨hr, hv.texts, hc, fun a => by have := hv.owned a; simp only [held_nil]; omega, by simp, by simp, by simp, by simp,
      by simp⟩
  have hrd : ∀ e ∈ res, _ := fun e he => vocab_readable hv.texts he
  have ht := hv.texts
  obtain ⟨e1, e2, e3, e4, rfl⟩ : ∃ e1 e2 e3 e4, res = [e1, e2, e3, e4] := by
    have hlen := congrArg List.length ht
    simp only [List.length_map, List.length_cons, List.length_nil] at hlen
    match res, hlen with
    | [e1, e2, e3, e4], _ => exact ⟨e1, e2, e3, e4, rfl⟩
  simp only [List.map_cons, List.map_nil, List.cons.injEq, Prod.mk.injEq, and_true] at ht
  obtain ⟨⟨a1, b1⟩, ⟨a2, b2⟩, ⟨a3, b3⟩, a4, b4⟩ := ht
  have hw : ∀ e ∈ [e1, e2, e3, e4], Others s ⟨[], [], false⟩ e.1 ∧ Others s ⟨[], [], false⟩ e.2 := by
    intro e he
    have h1 := held_mem he
    have h2 := hv.owned e.1
    have h3 := hv.owned e.2
    unfold Others
    unfold vocab at h2 h3
    simp only [held_nil]
    omega
  obtain ⟨s', m', ret, f1, f2, f3⟩ := merge_spec false [e1, e2, e3, e4] .no I0
    (fun e he => by
      obtain ⟨⟨t1, h1⟩, t2, h2⟩ := hrd e he
      exact ⟨(hw e he).1, (hw e he).2, t1, t2, h1, h2⟩)
    (by
      have x1 : txt s e1.1 = ascii "owl" := by simp [txt, a1]
      have x2 : txt s e2.1 = ascii "rdf" := by simp [txt, a2]
      have x3 : txt s e3.1 = ascii "rdfs" := by simp [txt, a3]
      have x4 : txt s e4.1 = ascii "xsd" := by simp [txt, a4]
      simp only [List.pairwise_cons, List.mem_cons, List.not_mem_nil, or_false, forall_eq_or_imp, forall_eq, x1, x2, x3, x4]
      refine ⟨by decide +kernel, by decide +kernel, by decide +kernel, by simp, by simp⟩)
    (by simp)
  refine ⟨s', m', by unfold create; rw [f1]; rfl, f2, ?_⟩
  have h := congrArg Prod.fst f3
  simp only at h
  rw [h]
  have y1 : vf (txt s) e1 = (⟨e1.1, ascii "owl"⟩, owlNs) := by simp [vf, txt, a1, b1, owlNs]
  have y2 : vf (txt s) e2 = (⟨e2.1, ascii "rdf"⟩, rdfNs) := by simp [vf, txt, a2, b2, rdfNs]
  have y3 : vf (txt s) e3 = (⟨e3.1, ascii "rdfs"⟩, rdfsNs) := by simp [vf, txt, a3, b3, rdfsNs]
  have y4 : vf (txt s) e4 = (⟨e4.1, ascii "xsd"⟩, xsdNs) := by simp [vf, txt, a4, b4, xsdNs]
  simp only [List.map_cons, List.map_nil, y1, y2, y3, y4]
  rfl

theorem client_spec {res : Tbl} {s s' : St} {m : MMap} {op : Op} {r : Nat} (I : MInv res s m) (hl : Legal s op)
    (hx : ∀ x, op = .release x → held m.fwd x + vocab res x < s.ext x) (e : step s op = some (s', r)) :
    MInv res s' m ∧ view s' m = view s m := by
  obtain ⟨_, h2, h3, h4, h5⟩ := reachable_step I.reach hl e
  refine I.transfer (.step I.reach hl e) ?_ fun a => ?_
  · by_cases hrel : ∃ x, op = .release x
    · exact (shrink_of_sub h3 (h5 hrel)).step
    · exact step_of_le h3 (h4 fun x hx => hrel ⟨x, hx⟩).1
  · have ho := I.owned a
    rw [h2]
    cases op with
    | release x =>
      have := hx x rfl
      simp only [ownedAfter]
      split
      · rename_i h; subst h; omega
      · exact ho
    | intern x => exact ho
    | _ => simp only [ownedAfter]; split <;> omega

theorem addRaw_spec {res : Tbl} {s : St} {m : MMap} (I : MInv res s m) {a1 a2 : Nat} (h1 : ¬ Live s a1) (h2 : ¬ Live s a2)
    (h12 : a1 ≠ a2) (p n : Str) (ow : Bool)
    (hk : ow = true → ∀ e ∈ m.fwd, Text s e.1 p → Text s e.2 (PrefixSpec.std p n)) :
    ∃ s' m' ret k, addRaw res s m a1 a2 p n ow = some (s', m', ret) ∧ MInv res s' m' ∧
      (∀ a, s'.ext a + held m.fwd a = s.ext a + held m'.fwd a) ∧
      (view s' m', ret) = (view s m).add ⟨k, p⟩ n ow := by
  have dead : ∀ {s : St} {a}, ¬ Live s a → s.cellOf a = none := fun {s a} h => by
    cases e : s.cellOf a with
    | none => rfl
    | some c => exact absurd (live_iff.2 ⟨c, e⟩) h
  obtain ⟨s1, k, e1, M1⟩ := newString_spec (reachable_inv I.reach) (dead h1) p
  have R1 : Reachable s1 := .step I.reach (op := .newString a1 p) h1 e1
  have x1 : ∀ a, s1.ext a = s.ext a + (if a = k then 1 else 0) := fun a => by
    rw [M1.ext, upd]; by_cases h : a = k <;> simp [h]
  obtain ⟨I1, v1⟩ := I.transfer R1 (step_of_le M1.emp M1.le) fun a => by have := I.owned a; rw [x1]; omega
  have h2' : ¬ Live s1 a2 := by
    intro h
    obtain ⟨c, hc⟩ := live_iff.1 h
    rcases M1.only a2 c hc with ⟨d, hd⟩ | h'
    · exact h2 (live_iff.2 ⟨d, hd⟩)
    · exact h12 h'.symm
  obtain ⟨s2, q, e2, M2, cq⟩ := newIntern_spec (reachable_inv R1) (dead h2') n
  have R2 : Reachable s2 := .step R1 (op := .newIntern a2 n) h2' e2
  have x2 : ∀ a, s2.ext a = s1.ext a + (if a = q then 1 else 0) := fun a => by
    rw [M2.ext, upd]; by_cases h : a = q <;> simp [h]
  obtain ⟨I2, v2⟩ := I1.transfer R2 (step_of_le M2.emp M2.le) fun a => by have := I1.owned a; rw [x2]; omega
  have tk : s2.content k = some p := content_eq.2 (M2.le.den _ _ M1.den)
  have tq : s2.content q = some n := content_eq.2 M2.den
  have cq' : Canon s2 q := by
    rcases cq with h | ⟨_, h⟩
    · exact .inl ⟨_, h⟩
    · exact .inr (h.trans M2.emp.symm)
  obtain ⟨s3, m3, ret, e3, G, v3, _⟩ := add_spec I2 tk tq ow fun ho e he ht => by
    have ht0 : Text s e.1 p := by
      obtain ⟨u, hu⟩ := I.key e he
      have : s2.content e.1 = some u := content_eq.2 (M2.le.den _ _ (M1.le.den _ _ (content_eq.1 hu)))
      rw [text_iff, this] at ht
      exact text_iff.2 (hu.trans ht)
    have hs : Text s2 e.2 (PrefixSpec.std p n) := M2.le.den _ _ (M1.le.den _ _ (hk ho e he ht0))
    refine ⟨hs, ?_⟩
    unfold Others
    rcases std_cases I2 p n with ⟨x, hx, hx'⟩ | hstd
    · have : e.2 = x.2 := canon_eq R2 (I2.ns e he) (I2.vns x hx) (by rw [text_iff.1 hs, hx'])
      have h := held_mem hx
      have := I2.owned e.2
      rw [‹e.2 = x.2›] at this ⊢
      unfold vocab at this
      omega
    · have : e.2 = q := canon_eq R2 (I2.ns e he) cq' (by rw [text_iff.1 hs, tq, hstd])
      have h := I1.owned q
      rw [this, x2, if_pos rfl]
      omega
  have x3 := G.own
  have I3 := G.inv
  have own3 : ∀ a, held m3.fwd a + vocab res a + (if a = k then 1 else 0) + (if a = q then 1 else 0) ≤ s3.ext a := by
    intro a
    have h1 := I.owned a; have h2 := x1 a; have h3 := x2 a; have h4 := x3 a
    omega
  obtain ⟨s4, f1, f2, f3, f4, f5⟩ := do_release I3.reach (a := k) (by
    have := own3 k; rw [if_pos rfl] at this; omega)
  obtain ⟨s5, g1, g2, g3, g4, g5⟩ := do_release f2 (a := q) (by
    have h1 := own3 q; have h2 := f5 q; rw [if_pos (rfl : q = q)] at h1; omega)
  obtain ⟨I5, v5⟩ := I3.transfer g2 ((shrink_of_sub f3 f4).trans (shrink_of_sub g3 g4)).step fun a => by
    have h1 := own3 a; have h2 := f5 a; have h3 := g5 a; omega
  refine ⟨s5, m3, ret, k, ?_, I5, fun a => ?_, ?_⟩
  · unfold addRaw
    simp only [e1, Option.bind_some, e2, e3, f1, g1, Option.map_some]
  · have h2 := x1 a; have h3 := x2 a; have h4 := x3 a; have h5 := f5 a; have h6 := g5 a
    omega
  · rw [v5, v3, v2, v1]

theorem reach_eq {x y : Prefix.PMap} (e : x = y) {a : PrefixSpec.Abs} (h : PrefixSpec.Reaches True y a) :
    ∃ a, PrefixSpec.Reaches True x a := ⟨a, e ▸ h⟩

theorem reaches_refines {res : Tbl} {s : St} {m : MMap} (h : Reaches True res s m) :
    MInv res s m ∧ ∃ a, PrefixSpec.Reaches True (view s m) a := by
  have hent : ∀ {s : St} {m : MMap} {a : PrefixSpec.Abs}, MInv res s m → PrefixSpec.Reaches True (view s m) a →
      ∀ p n, a p = some n → ∃ e ∈ m.fwd, Text s e.1 p ∧ txt s e.2 = n := by
    intro s m a I R p n hn
    rw [← (Prefix.inv_reaches R).mean p] at hn
    obtain ⟨k, hk, hp⟩ := Prefix.meaning_some hn
    obtain ⟨e, he, ek⟩ := List.mem_map.1 (show (k, n) ∈ m.fwd.map (vf (txt s)) from hk)
    obtain ⟨rfl, rfl⟩ := Prod.mk.inj ek
    refine ⟨e, he, text_iff.2 ?_, rfl⟩
    rw [content_txt (I.key e he)]; exact congrArg some hp
  induction h with
  | create hr hv e =>
    obtain ⟨s', m, e1, G, v⟩ := create_spec hr hv
    rw [e] at e1; cases e1
    refine ⟨G.inv, reach_eq v (.create _ [] ?_ (by simp [PrefixSpec.Distinct]))⟩
    have := congrArg List.length hv.texts
    simpa using this
  | client _ hl hx e ih =>
    obtain ⟨I, a, R⟩ := ih
    obtain ⟨I', v⟩ := client_spec I hl hx e
    exact ⟨I', reach_eq v R⟩
  | @add s s' m m' p n tp tn ow ret _ _ tp _ tn hk e ih =>
    obtain ⟨I, a, R⟩ := ih
    obtain ⟨_, _, _, e1, G, v, _⟩ := add_spec I (text_iff.1 tp) (text_iff.1 tn) ow (hk trivial)
    rw [e] at e1; cases e1
    refine ⟨G.inv, reach_eq (congrArg Prod.fst v) (.add _ _ ow R fun _ ho n' hn => ?_)⟩
    obtain ⟨e, he, h1, h2⟩ := hent I R _ _ hn
    have := (hk trivial ho e he h1).1
    rw [← h2, txt, text_iff.1 this]; rfl
  | @addRaw s s' m m' a1 a2 p n ow ret _ h1 h2 h3 hk e ih =>
    obtain ⟨I, a, R⟩ := ih
    obtain ⟨_, _, _, k, e1, I', _, v⟩ := addRaw_spec I h1 h2 h3 p n ow (hk trivial)
    rw [e] at e1; cases e1
    refine ⟨I', reach_eq (congrArg Prod.fst v) (.add ⟨k, p⟩ n ow R fun _ ho n' hn => ?_)⟩
    obtain ⟨e, he, h1, h2⟩ := hent I R _ _ hn
    have := hk trivial ho e he h1
    rw [← h2, txt, text_iff.1 this]; rfl
  | @removePrefix s s' m m' p ret _ hp e ih =>
    obtain ⟨I, a, R⟩ := ih
    obtain ⟨t, ht⟩ : ∃ t, p.read s = some t := by
      cases p with
      | obj b => obtain ⟨_, t, ht⟩ := hp; exact ⟨t, text_iff.1 ht⟩
      | text t => exact ⟨t, rfl⟩
    obtain ⟨_, _, _, e1, G, v⟩ := removePrefix_spec I ht
    rw [e] at e1; cases e1
    exact ⟨G.inv, reach_eq (congrArg Prod.fst v) (.removePrefix t R)⟩
  | @removeNs s s' m m' n ret _ hp hk e ih =>
    obtain ⟨I, a, R⟩ := ih
    obtain ⟨t, ht, ht'⟩ : ∃ t, n.read s = some t ∧ ArgText s n t := by
      cases n with
      | obj b => obtain ⟨_, t, ht⟩ := hp; exact ⟨t, text_iff.1 ht, ht⟩
      | text t => exact ⟨t, rfl, rfl⟩
    obtain ⟨_, _, _, e1, G, v⟩ := removeNs_spec I ht (fun b hb => by subst hb; exact hp.1) (hk trivial t ht')
    rw [e] at e1; cases e1
    exact ⟨G.inv, reach_eq (congrArg Prod.fst v) (.removeNs t R)⟩
  | @merge s s' m m' src ow ret _ h1 h2 hk e ih =>
    obtain ⟨I, a, R⟩ := ih
    have hrd : ∀ e ∈ src, s.content e.1 = some (txt s e.1) ∧ s.content e.2 = some (txt s e.2) := by
      intro e he
      obtain ⟨_, _, tp, tn, t1, t2⟩ := h1 e he
      exact ⟨content_txt ⟨tp, text_iff.1 t1⟩, content_txt ⟨tn, text_iff.1 t2⟩⟩
    have hpw : src.Pairwise fun e f => txt s e.1 ≠ txt s f.1 := by
      refine h2.imp_of_mem fun {e f} he hf h heq => ?_
      exact h _ (text_iff.2 (hrd e he).1) (text_iff.2 (heq ▸ (hrd f hf).1))
    have hk' : ow = true → ∀ e ∈ src, Keeps s m (txt s e.1) (txt s e.2) := fun ho e he =>
      hk trivial ho e he _ _ (text_iff.2 (hrd e he).1) (text_iff.2 (hrd e he).2)
    obtain ⟨_, _, _, e1, G, v⟩ := merge_spec ow src .no I (fun e he => by
      obtain ⟨o1, o2, tp, tn, t1, t2⟩ := h1 e he
      exact ⟨o1, o2, tp, tn, text_iff.1 t1, text_iff.1 t2⟩) hpw hk'
    rw [show mergeLoop res ow src s m .no = _ from e] at e1; cases e1
    refine ⟨G.inv, reach_eq (congrArg Prod.fst v) (.merge (src.map (vf (txt s))) ow R ?_ ?_)⟩
    · unfold PrefixSpec.Distinct
      rw [List.pairwise_map]; exact hpw
    · rintro _ ho p n n' ⟨x, hx, rfl, rfl⟩ hn
      obtain ⟨e, he, rfl⟩ := List.mem_map.1 hx
      obtain ⟨f, hf, h3, h4⟩ := hent I R _ _ hn
      have := (hk' ho e he f hf h3).1
      rw [← h4, txt, text_iff.1 this]; rfl
  | @getPrefix s m m' n r _ hp e ih =>
    obtain ⟨I, a, R⟩ := ih
    obtain ⟨t, ht⟩ : ∃ t, n.read s = some t := by
      cases n with
      | obj b => obtain ⟨_, t, ht⟩ := hp; exact ⟨t, text_iff.1 ht⟩
      | text t => exact ⟨t, rfl⟩
    obtain ⟨_, _, e1, I', _, v, _⟩ := getPrefix_spec I ht
    rw [e] at e1; cases e1
    exact ⟨I', reach_eq (congrArg Prod.fst v) (.getPrefix t R)⟩
  | @reorder s m f _ hp ih =>
    obtain ⟨I, a, R⟩ := ih
    refine ⟨⟨I.reach, I.texts, I.vns, fun x => by rw [held_perm hp]; exact I.owned x, fun e he => I.key e (hp.mem_iff.1 he),
      fun e he => I.ns e (hp.mem_iff.1 he), hp.symm.pairwise I.nodup fun h => Ne.symm h, fun e he => hp.mem_iff.2 (I.rev e he),
      I.revN⟩, _, .reorder (f.map (vf (txt s))) R (hp.map _)⟩

/-! ## A small heap -/

/-- Allocates strings: address, text, whether it is to be interned. -/
def build : List (Nat × Str × Bool) → St → Option St
  | [], s => some s
  | (a, t, i) :: l, s =>
    if (s.cellOf a).isNone then
      ((if i then newIntern s a t else newString s a t).bind fun r => build l r.1)
    else none

theorem build_reachable : ∀ (l : List (Nat × Str × Bool)) {s s' : St}, Reachable s → build l s = some s' → Reachable s'
  | [], s, s', h, e => by cases e; exact h
  | (a, t, i) :: l, s, s', h, e => by
    rw [build] at e
    split at e
    · rename_i hn
      have hd : ¬ Live s a := fun hl => by
        obtain ⟨c, hc⟩ := live_iff.1 hl
        rw [hc] at hn; cases hn
      cases i with
      | true =>
        rw [if_pos rfl, Option.bind_eq_some_iff] at e
        obtain ⟨⟨s1, r⟩, e1, e2⟩ := e
        exact build_reachable l (.step h (op := .newIntern a t) hd e1) e2
      | false =>
        rw [if_neg (by simp), Option.bind_eq_some_iff] at e
        obtain ⟨⟨s1, r⟩, e1, e2⟩ := e
        exact build_reachable l (.step h (op := .newString a t) hd e1) e2
    · cases e

theorem some_getD {α : Type} {o : Option α} {d : α} (h : o.isSome = true) : o = some (o.getD d) := by
  cases o with
  | none => cases h
  | some x => rfl

/-- The strings of the vocabulary. -/
def vocabStrs : List (Nat × Str × Bool) :=
  [(1, ascii "owl", false), (2, owlNs, true), (3, ascii "rdf", false), (4, rdfNs, true),
   (5, ascii "rdfs", false), (6, rdfsNs, true), (7, ascii "xsd", false), (8, xsdNs, true)]
/-- Their addresses. -/
def exRes : Tbl := [(1, 2), (3, 4), (5, 6), (7, 8)]
/-- A heap with these strings. -/
def heap0 : St := (build vocabStrs (init 0)).getD (init 0)

theorem heap0_reachable : Reachable heap0 :=
  build_reachable vocabStrs (.init 0) (some_getD (by decide +kernel))

theorem heap0_vocab : Vocab exRes heap0 := by
  refine ⟨by decide +kernel, ?_, ?_⟩
  · intro e he
    have : ∀ e ∈ exRes, ∃ t ∈ [owlNs, rdfNs, rdfsNs, xsdNs], heap0.cellOf e.2 = some (.str t true) := by decide +kernel
    obtain ⟨t, _, ht⟩ := this e he
    exact ⟨t, ht⟩
  · intro a
    by_cases ha : a ∈ [1, 2, 3, 4, 5, 6, 7, 8]
    · have : ∀ a ∈ [1, 2, 3, 4, 5, 6, 7, 8], vocab exRes a ≤ heap0.ext a := by decide +kernel
      exact this a ha
    · have : vocab exRes a = 0 := by
        unfold vocab held
        have h1 : (exRes.map Prod.fst).count a = 0 := List.count_eq_zero.2 fun h => ha (by
          simp [exRes] at h; rcases h with h | h | h | h <;> simp [h])
        have h2 : (exRes.map Prod.snd).count a = 0 := List.count_eq_zero.2 fun h => ha (by
          simp [exRes] at h; rcases h with h | h | h | h <;> simp [h])
        omega
      omega

/-- The namespace of the examples. -/
def nsA : Str := ascii "http://a#"
/-- Another one. -/
def nsB : Str := ascii "http://b#"

/-- A new map. -/
def ex0 : St × MMap := (create exRes heap0).getD (heap0, ⟨[], [], false⟩)
/-- Then `ex:` is registered for `http://a#`. -/
def ex1 : St × MMap × Ret := (addRaw exRes ex0.1 ex0.2 11 12 (ascii "ex") nsA false).getD (ex0.1, ex0.2, .err)
/-- Then the prefix of `http://a#` is asked for. -/
def ex2 : MMap × Option Nat := (getPrefix ex1.1 ex1.2.1 (.text nsA)).getD (ex1.2.1, none)
/-- Then `ex:` is registered for `http://b#`, overwriting. -/
def ex3 : St × MMap × Ret := (addRaw exRes ex1.1 ex2.1 13 14 (ascii "ex") nsB true).getD (ex0.1, ex0.2, .err)
/-- After `ex1`, the client makes two strings, the prefix and the namespace again. -/
def ex4 : St := (build [(13, ascii "ex", false), (14, nsA, false)] ex1.1).getD ex1.1

theorem ex0_reaches (c : Prop) : Reaches c exRes ex0.1 ex0.2 :=
  .create heap0_reachable heap0_vocab (show _ = some ex0 from some_getD (by decide +kernel))

theorem ex1_reaches (c : Prop) : Reaches c exRes ex1.1 ex1.2.1 := by
  refine .addRaw (a1 := 11) (a2 := 12) (p := ascii "ex") (n := nsA) (ow := false) (ret := ex1.2.2) (ex0_reaches c) ?_ ?_
    (by decide) (fun _ h => by cases h) (show _ = some ex1 from some_getD (by decide +kernel))
  · intro h
    obtain ⟨d, hd⟩ := live_iff.1 h
    have : ex0.1.cellOf 11 = none := by decide +kernel
    rw [this] at hd; cases hd
  · intro h
    obtain ⟨d, hd⟩ := live_iff.1 h
    have : ex0.1.cellOf 12 = none := by decide +kernel
    rw [this] at hd; cases hd

theorem ex2_reaches (c : Prop) : Reaches c exRes ex1.1 ex2.1 :=
  .getPrefix (n := .text nsA) (r := ex2.2) (ex1_reaches c) trivial (show _ = some ex2 from some_getD (by decide +kernel))

theorem ex3_reaches : Reaches False exRes ex3.1 ex3.2.1 := by
  refine .addRaw (a1 := 13) (a2 := 14) (p := ascii "ex") (n := nsB) (ow := true) (ret := ex3.2.2) (ex2_reaches False) ?_ ?_
    (by decide) (fun h => h.elim) (show _ = some ex3 from some_getD (by decide +kernel))
  · intro h
    obtain ⟨d, hd⟩ := live_iff.1 h
    have : ex1.1.cellOf 13 = none := by decide +kernel
    rw [this] at hd; cases hd
  · intro h
    obtain ⟨d, hd⟩ := live_iff.1 h
    have : ex1.1.cellOf 14 = none := by decide +kernel
    rw [this] at hd; cases hd

/-- Allocations of the client. -/
theorem build_reaches {c : Prop} {res : Tbl} {m : MMap} : ∀ (l : List (Nat × Str × Bool)) {s s' : St}, Reaches c res s m →
    build l s = some s' → Reaches c res s' m
  | [], s, s', h, e => by cases e; exact h
  | (a, t, i) :: l, s, s', h, e => by
    rw [build] at e
    split at e
    · rename_i hn
      have hd : ¬ Live s a := fun hl => by
        obtain ⟨c, hc⟩ := live_iff.1 hl
        rw [hc] at hn; cases hn
      cases i with
      | true =>
        rw [if_pos rfl, Option.bind_eq_some_iff] at e
        obtain ⟨⟨s1, r⟩, e1, e2⟩ := e
        exact build_reaches l (.client h (op := .newIntern a t) hd (fun _ h => by cases h) e1) e2
      | false =>
        rw [if_neg (by simp), Option.bind_eq_some_iff] at e
        obtain ⟨⟨s1, r⟩, e1, e2⟩ := e
        exact build_reaches l (.client h (op := .newString a t) hd (fun _ h => by cases h) e1) e2
    · cases e

theorem ex4_reaches (c : Prop) : Reaches c exRes ex4 ex1.2.1 :=
  build_reaches [(13, ascii "ex", false), (14, nsA, false)] (ex1_reaches c) (some_getD (by decide +kernel))

end PMem

/-! ## C51 -/

/-- C51 in part: after every calm history (no namespace is replaced by another one, none is
re-registered or removed while the map is its only owner), both tables refer to live strings;
the map and the library own what they must; and the texts are those of a prefix map
after a history as in C22 to C24, whose results thus hold although the reverse table owns
nothing. -/
theorem C51_partial {res : Tbl} {s : St} {m : MMap} (h : PMem.Reaches True res s m) :
    (∀ e ∈ m.fwd, (∃ p, Text s e.1 p) ∧ ∃ n, Text s e.2 n) ∧
    (∀ e ∈ m.rev, (∃ n, Text s e.1 n) ∧ ∃ p, Text s e.2 p) ∧
    (∀ a, held m.fwd a + vocab res a ≤ s.ext a) ∧ Reachable s ∧
    ∃ a, PrefixSpec.Reaches True (view s m) a := by
  obtain ⟨I, R⟩ := reaches_refines h
  have h1 : ∀ e ∈ m.fwd, (∃ p, Text s e.1 p) ∧ ∃ n, Text s e.2 n := fun e he => by
    obtain ⟨t, ht⟩ := I.key e he
    obtain ⟨u, hu⟩ := I.nsText he
    exact ⟨⟨t, text_iff.2 ht⟩, u, text_iff.2 hu⟩
  exact ⟨h1, fun e he => (h1 _ (I.rev e he)).symm, I.owned, I.reach, R⟩

/-- C51, registering: nothing that was freed is touched, the effect and the code are those of
the map of texts, and nobody else's references change. -/
theorem C51_add {res : Tbl} {s : St} {m : MMap} (h : PMem.Reaches True res s m) {p n : Nat} {tp tn : Str}
    (hp : Text s p tp) (hn : Text s n tn) (ow : Bool) (hk : ow = true → Keeps s m tp tn) :
    ∃ s' m' ret, PMem.add res s m p n ow = some (s', m', ret) ∧ Alone s m s' m' ∧
      (view s' m', ret) = (view s m).add ⟨p, tp⟩ tn ow := by
  obtain ⟨s', m', ret, e, G, v, _⟩ := add_spec (reaches_refines h).1 (text_iff.1 hp) (text_iff.1 hn) ow hk
  exact ⟨s', m', ret, e, G.own, v⟩

/-- C51, registering texts: also when a prefix is registered again with the same namespace. -/
theorem C51_add_raw {res : Tbl} {s : St} {m : MMap} (h : PMem.Reaches True res s m) {a1 a2 : Nat}
    (h1 : ¬ Live s a1) (h2 : ¬ Live s a2) (h12 : a1 ≠ a2) (p n : Str) (ow : Bool)
    (hk : ow = true → ∀ e ∈ m.fwd, Text s e.1 p → Text s e.2 (PrefixSpec.std p n)) :
    ∃ s' m' ret k, PMem.addRaw res s m a1 a2 p n ow = some (s', m', ret) ∧ Alone s m s' m' ∧
      (view s' m', ret) = (view s m).add ⟨k, p⟩ n ow := by
  obtain ⟨s', m', ret, k, e, _, o, v⟩ := addRaw_spec (reaches_refines h).1 h1 h2 h12 p n ow hk
  exact ⟨s', m', ret, k, e, o, v⟩

/-- C51, unregistering a prefix: the argument may even be the key of the table. -/
theorem C51_remove_prefix {res : Tbl} {s : St} {m : MMap} (h : PMem.Reaches True res s m) {p : Arg} {t : Str}
    (hp : ArgText s p t) : ∃ s' m' ret, PMem.removePrefix s m p = some (s', m', ret) ∧ Alone s m s' m' ∧
      (view s' m', ret) = (view s m).removePrefix t := by
  have hr : p.read s = some t := by
    cases p with
    | obj b => exact text_iff.1 hp
    | text u => exact congrArg some hp
  obtain ⟨s', m', ret, e, G, v⟩ := removePrefix_spec (reaches_refines h).1 hr
  exact ⟨s', m', ret, e, G.own, v⟩

/-- C51, unregistering a namespace that others own, too. -/
theorem C51_remove_ns {res : Tbl} {s : St} {m : MMap} (h : PMem.Reaches True res s m) {n : Arg} {t : Str}
    (ha : ArgOk s m n) (hn : ArgText s n t) (hk : ∀ e ∈ m.fwd, Text s e.2 t → Others s m e.2) :
    ∃ s' m' ret, PMem.removeNs s m n = some (s', m', ret) ∧ Alone s m s' m' ∧
      (view s' m', ret) = (view s m).removeNs t := by
  have hr : n.read s = some t := by
    cases n with
    | obj b => exact text_iff.1 hn
    | text u => exact congrArg some hn
  obtain ⟨s', m', ret, e, G, v⟩ := removeNs_spec (reaches_refines h).1 hr (fun b hb => by subst hb; exact ha.1) hk
  exact ⟨s', m', ret, e, G.own, v⟩

/-- C51, merging another map (whose keys have pairwise distinct texts). -/
theorem C51_merge {res : Tbl} {s : St} {m : MMap} (h : PMem.Reaches True res s m) {src : Tbl}
    (h1 : ∀ e ∈ src, Others s m e.1 ∧ Others s m e.2 ∧ ∃ tp tn, Text s e.1 tp ∧ Text s e.2 tn)
    (h2 : src.Pairwise fun e f => ∀ t, Text s e.1 t → ¬ Text s f.1 t) (ow : Bool)
    (hk : ow = true → ∀ e ∈ src, ∀ tp tn, Text s e.1 tp → Text s e.2 tn → Keeps s m tp tn) :
    ∃ s' m' ret, PMem.merge res s m src ow = some (s', m', ret) ∧ Alone s m s' m' ∧
      (view s' m', ret) = (view s m).merge (view s ⟨src, [], false⟩).fwd ow := by
  have k1 : ∀ e ∈ src, Others s m e.1 ∧ Others s m e.2 ∧ ∃ tp tn, s.content e.1 = some tp ∧ s.content e.2 = some tn :=
    fun e he => by
      obtain ⟨o1, o2, tp, tn, t1, t2⟩ := h1 e he
      exact ⟨o1, o2, tp, tn, text_iff.1 t1, text_iff.1 t2⟩
  have tx : ∀ e ∈ src, Text s e.1 (txt s e.1) ∧ Text s e.2 (txt s e.2) := fun e he => by
    obtain ⟨_, _, tp, tn, t1, t2⟩ := k1 e he
    exact ⟨text_iff.2 (by simp [txt, t1]), text_iff.2 (by simp [txt, t2])⟩
  obtain ⟨s', m', ret, e, G, v⟩ := merge_spec ow src .no (reaches_refines h).1 k1
    (h2.imp_of_mem fun ha hb hab heq => hab _ (tx _ ha).1 (by rw [heq]; exact (tx _ hb).1))
    (fun ho e he => hk ho e he _ _ (tx e he).1 (tx e he).2)
  exact ⟨s', m', ret, e, G.own, v⟩

/-- C51, lookups: results are live strings. -/
theorem C51_get {res : Tbl} {s : St} {m : MMap} (h : PMem.Reaches True res s m) {x : Arg} {t : Str}
    (hx : ArgText s x t) :
    (∃ r, PMem.getNs s m x = some r ∧ (∀ a, r = some a → ∃ u, Text s a u ∧ (view s m).getNs t = some u) ∧
      (r = none → (view s m).getNs t = none)) ∧
    ∃ m' r, PMem.getPrefix s m x = some (m', r) ∧ m'.fwd = m.fwd ∧ view s m' = ((view s m).getPrefix t).1 ∧
      (∀ a, r = some a → ∃ u, Text s a u ∧ ((view s m).getPrefix t).2 = some ⟨a, u⟩) ∧
      (r = none → ((view s m).getPrefix t).2 = none) := by
  have I := (reaches_refines h).1
  have hr : x.read s = some t := by
    cases x with
    | obj b => exact text_iff.1 hx
    | text u => exact congrArg some hx
  constructor
  · have hf : find s t m.fwd = some (m.fwd.find? fun e => txt s e.1 = t) := find_eq I.key
    have hg : (view s m).getNs t = ((m.fwd.find? fun e => txt s e.1 = t).map (vf (txt s))).map Prod.snd := by
      unfold Prefix.PMap.getNs
      rw [show (view s m).fwd = m.fwd.map (vf (txt s)) from rfl, fwdFind_view]
    refine ⟨(m.fwd.find? fun e => txt s e.1 = t).map Prod.snd, by
      unfold PMem.getNs; rw [hr]; simp only [Option.bind_some, hf, Option.map_some], ?_, ?_⟩
    · intro a ha
      rw [hg]
      cases hfe : m.fwd.find? fun e => txt s e.1 = t with
      | none => rw [hfe] at ha; cases ha
      | some e =>
        rw [hfe] at ha
        cases ha
        obtain ⟨u, hu⟩ := I.nsText (List.mem_of_find?_eq_some hfe)
        exact ⟨u, text_iff.2 hu, by simp [vf, txt, hu]⟩
    · intro h0
      rw [Option.map_eq_none_iff] at h0
      rw [hg, h0]; rfl
  · obtain ⟨m', r, e1, I', f1, v, mm⟩ := getPrefix_spec I hr
    refine ⟨m', r, e1, f1, congrArg Prod.fst v, ?_, ?_⟩
    · rintro a rfl
      obtain ⟨e, he, rfl⟩ := mm a rfl
      obtain ⟨u, hu⟩ := I.key e he
      refine ⟨u, text_iff.2 hu, ?_⟩
      rw [← congrArg Prod.snd v]; simp [txt, hu]
    · rintro rfl
      rw [← congrArg Prod.snd v]; rfl

/-- C51, freeing a map gives back exactly its references. -/
theorem C51_free {res : Tbl} {s : St} {m : MMap} (h : PMem.Reaches True res s m) :
    ∃ s', PMem.free s m = some s' ∧ Reachable s' ∧ ∀ a, s'.ext a + held m.fwd a = s.ext a := by
  have I := (reaches_refines h).1
  exact free_spec I.reach fun a => by have := I.owned a; omega

/-- C51 fails.
1. `http://a#` is registered, its prefix is asked for, the namespace is removed by text: the
   string is freed, and the reverse table, which still has it as a key, is searched for it.
2. The same prefix is registered again with an equal namespace that the caller owns: the
   interned string is released before it is retained.
3. The namespace of a prefix is replaced: the reverse table keeps the freed one. -/
theorem C51_fails :
    (PMem.Reaches False exRes ex1.1 ex2.1 ∧ PMem.removeNs ex1.1 ex2.1 (.text nsA) = none) ∧
    (PMem.Reaches False exRes ex4 ex1.2.1 ∧ Others ex4 ex1.2.1 13 ∧ Text ex4 13 (ascii "ex") ∧
      Others ex4 ex1.2.1 14 ∧ Text ex4 14 nsA ∧ PMem.add exRes ex4 ex1.2.1 13 14 true = none) ∧
    (PMem.Reaches False exRes ex3.1 ex3.2.1 ∧ (∃ e ∈ ex3.2.1.rev, ¬ Live ex3.1 e.1) ∧
      PMem.getPrefix ex3.1 ex3.2.1 (.text nsA) = none) := by
  have none_of : ∀ {α : Type} {o : Option α}, o.isNone = true → o = none := fun {α o} h => by
    cases o with
    | none => rfl
    | some x => cases h
  refine ⟨⟨ex2_reaches _, none_of (by decide +kernel)⟩, ⟨ex4_reaches _, ?_, ?_, ?_, ?_, none_of (by decide +kernel)⟩,
    ex3_reaches, ?_, none_of (by decide +kernel)⟩
  · unfold Others; decide +kernel
  · exact text_iff.2 (by decide +kernel)
  · unfold Others; decide +kernel
  · exact text_iff.2 (by decide +kernel)
  · have : ∃ e ∈ ex3.2.1.rev, ex3.1.cellOf e.1 = none := by decide +kernel
    obtain ⟨e, he, h⟩ := this
    exact ⟨e, he, fun hl => by obtain ⟨d, hd⟩ := live_iff.1 hl; rw [h] at hd; cases hd⟩

/-- The hypotheses of the theorems above are met: a calm history, a prefix that is registered,
and one that can be removed. -/
example : PMem.Reaches True exRes ex1.1 ex2.1 ∧
    (∃ s' m', PMem.removePrefix ex1.1 ex2.1 (.text (ascii "ex")) = some (s', m', .ok)) ∧
    ex2.2 ≠ none := by
  refine ⟨ex2_reaches _, ?_, by decide +kernel⟩
  obtain ⟨s', m', ret, e, _, v⟩ := C51_remove_prefix (ex2_reaches True) (p := .text (ascii "ex")) rfl
  have : ((view ex1.1 ex2.1).removePrefix (ascii "ex")).2 = .ok := by decide +kernel
  rw [← congrArg Prod.snd v] at this
  exact ⟨s', m', by rw [e]; exact congrArg some (by simp only [← this])⟩

end Cowl
