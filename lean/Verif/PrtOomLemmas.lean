import Verif.PrtOom
import Verif.OntoOomLemmas
import Verif.PrtStreamLemmas
/-! # Lemmas on failures while ProtocOWL is written incrementally -/
namespace Cowl.POom
open Prt Change ObjSpec IterSpec

/-- An encoder without error is as one that has all it asks for. -/
structure Sim (s : SSt) (m : MSt) : Prop where
  x : m.x = s.x
  buf : m.buf = some s.buf
  cur : m.cur = s.cur
  out : m.out = s.out
  state : m.state = .ok

/-- There is memory from now on. -/
def Rich (m : MSt) : Prop := ∀ g ∈ m.mem, g = .all

theorem Rich.got {m : MSt} (h : Rich m) : m.got = .all := by
  unfold MSt.got
  cases hm : m.mem with
  | nil => rfl
  | cons g l => exact h g (by simp [hm])

theorem Rich.tail {m : MSt} (h : Rich m) : ∀ g ∈ m.mem.tail, g = .all :=
  fun g hg => h g (List.mem_of_mem_tail hg)

/-- A result that is as meant, or an error. -/
def Good (cap : Nat) (rich : Prop) (t : SSt) (r : Option (MSt × Ret)) : Prop :=
  ∃ m c, r = some (m, c) ∧ (c = .ok → Sim t m ∧ t.out.length ≤ cap) ∧
    (rich → t.out.length ≤ cap → Sim t m ∧ Rich m ∧ c = .ok)

/-- The same, of a state that has no code yet. -/
def Fair (rich : Prop) (t : SSt) (r : Option MSt) : Prop :=
  ∃ m, r = some m ∧ (m.state = .ok → Sim t m) ∧ (rich → Sim t m ∧ Rich m)

theorem Fair.coded {cap : Nat} {rich : Prop} {t : SSt} {r : Option MSt} (h : Fair rich t r) : Good cap rich t (coded cap r) := by
  obtain ⟨m, rfl, h1, h2⟩ := h
  refine ⟨m, _, rfl, fun hc => ?_, fun hr hl => ⟨(h2 hr).1, (h2 hr).2, ?_⟩⟩
  · unfold MSt.code at hc
    split at hc
    · rename_i hs; exact absurd hc hs
    · rename_i hs
      have hs : m.state = .ok := by simpa using hs
      refine ⟨h1 hs, ?_⟩
      split at hc
      · rename_i hl; rw [← (h1 hs).out]; exact hl
      · cases hc
  · unfold MSt.code
    rw [if_neg (by simp [(h2 hr).1.state]), if_pos (by rw [(h2 hr).1.out]; exact hl)]

section
variable {u : Ulib} {anon : Bool} {size cap : Nat}

theorem flushEmpty_x (m : MSt) : m.flushEmpty.x = m.x := by
  unfold MSt.flushEmpty
  split <;> rfl

theorem flushEmpty_out (m : MSt) : m.flushEmpty.out = m.out := by
  unfold MSt.flushEmpty
  split <;> rfl

theorem flushEmpty_fair {t : SSt} {m : MSt} (hb : t.buf = emptyBuf) (hc : t.cur = 0) (hx : m.x = t.x) (ho : m.out = t.out) (hs : m.state = .ok) :
    Fair (Rich m) t (some m.flushEmpty) := by
  refine ⟨_, rfl, ?_, fun hr => ?_⟩
  · unfold MSt.flushEmpty
    split
    · exact fun _ => ⟨hx, by rw [hb], hc.symm, ho, hs⟩
    · intro h; cases h
  · unfold MSt.flushEmpty
    rw [if_pos hr.got]
    exact ⟨⟨hx, by rw [hb], hc.symm, ho, hs⟩, hr.tail⟩

theorem reset_fair {t : SSt} {m : MSt} (p : Bool) (hb : t.buf = emptyBuf) (hc : t.cur = 0) (hx : m.x.reset p = t.x) (ho : m.out = t.out) :
    Fair (Rich m) t (some (m.reset p)) := by
  unfold MSt.reset
  cases p with
  | false =>
    rw [if_neg (by simp)]
    exact flushEmpty_fair (m := { m with x := m.x.reset false, state := .ok }) hb hc hx ho rfl
  | true =>
    rw [if_pos rfl]
    split
    · obtain ⟨m', e, h1, h2⟩ := flushEmpty_fair (m := { m.used with x := m.x.reset true, state := .ok }) hb hc hx ho rfl
      exact ⟨m', e, h1, fun hr => h2 hr.tail⟩
    · rename_i hg
      exact ⟨_, rfl, (fun h => nomatch h), fun hr => absurd hr.got hg⟩

/-- What `flush` leaves, if the buffer cannot be made anew. -/
theorem flush_fair {s t : SSt} {m : MSt} (h : Sim s m) (hf : s.flush u anon = some t) :
    ∃ m', m.flush u anon cap = some m' ∧ m'.x = t.x ∧ m'.out = t.out ∧ (m'.state = .ok → Sim t m') ∧ (Rich m → Sim t m' ∧ Rich m') ∧
      t.buf = emptyBuf ∧ t.cur = 0 := by
  unfold SSt.flush at hf
  dsimp only at hf
  split at hf
  · rename_i hk
    cases hf
    unfold MSt.flush MSt.data
    rw [if_neg (by simp [h.state]), h.buf]
    dsimp only
    rw [Option.map_some]
    have hsim : Fair _ _ _ := flushEmpty_fair (t := { x := (encData u anon s.x s.buf).2, out := s.out ++ (encData u anon s.x s.buf).1.bytes })
      (m := { (m.put (encData u anon m.x s.buf).1.bytes) with
        x := (encData u anon m.x s.buf).2, state := if (encData u anon m.x s.buf).1.ok then .ok else .err })
      rfl rfl (by rw [h.x]) (by simp only [MSt.put, h.out, h.x]) (by simp [h.x, hk])
    obtain ⟨m', e, h1, h2⟩ := hsim
    refine ⟨m', e, ?_, ?_, h1, h2, rfl, rfl⟩
    · cases e
      rw [flushEmpty_x, h.x]
    · cases e
      rw [flushEmpty_out]
      simp only [MSt.put, h.x, h.out]
  · cases hf

theorem flush_rich {m m' : MSt} (hr : Rich m) (h : m.flush u anon cap = some m') : Rich m' := by
  unfold MSt.flush at h
  rw [Option.map_eq_some_iff] at h
  obtain ⟨m1, h1, rfl⟩ := h
  have hm : m1.mem = m.mem := by
    unfold MSt.data at h1
    split at h1
    · cases h1; rfl
    · split at h1
      · cases h1; rfl
      · dsimp only at h1
        split at h1
        · cases h1; rfl
        · split at h1
          · cases h1
          · cases h1; rfl
  intro g hg
  refine hr g ?_
  unfold MSt.flushEmpty at hg
  rw [← hm]
  split at hg <;> exact List.mem_of_mem_tail hg

theorem flushIfNeeded_fair {s t : SSt} {m : MSt} (h : Sim s m) (hf : s.flushIfNeeded u anon size = some t) :
    Fair (Rich m) t (m.flushIfNeeded u anon size cap) := by
  unfold SSt.flushIfNeeded at hf
  unfold MSt.flushIfNeeded
  have hp : m.prefixCount = s.prefixCount := by unfold MSt.prefixCount SSt.prefixCount; rw [h.x]
  rw [hp, h.x, h.cur]
  split at hf
  · rename_i hc
    rw [if_pos hc]
    rw [Option.map_eq_some_iff] at hf
    obtain ⟨t1, h1, rfl⟩ := hf
    obtain ⟨m', g1, g2, g3, -, -, -, -⟩ := flush_fair (cap := cap) h h1
    rw [g1, Option.map_some]
    obtain ⟨m2, e, k1, k2⟩ := reset_fair (t := t1.reset (size / 4 < s.prefixCount)) (m := m'.put [resetByte (size / 4 < s.prefixCount)])
      (size / 4 < s.prefixCount) rfl rfl (by rw [show (m'.put _).x = m'.x from rfl, g2]; rfl)
      (by simp only [MSt.put, g3, SSt.reset])
    exact ⟨m2, e, k1, fun hr => k2 (show Rich m' from flush_rich hr g1)⟩
  · rename_i hc
    rw [if_neg hc]
    split at hf
    · rename_i hd
      rw [if_pos hd]
      obtain ⟨m', g1, -, -, g4, g5, -, -⟩ := flush_fair (cap := cap) h hf
      exact ⟨m', g1, g4, g5⟩
    · rename_i hd
      rw [if_neg hd]
      cases hf
      exact ⟨m, rfl, fun _ => h, fun hr => ⟨h, hr⟩⟩

theorem addPrim_ok {m : MSt} (p : Prim) (h : m.got = .all) : m.addPrim p = { m.used with x := m.x.addPrim p, state := .ok } := by
  unfold MSt.addPrim; rw [h]

theorem addPrim_err {m : MSt} (p : Prim) (h : m.got ≠ .all) : (m.addPrim p).state = .errMem := by
  unfold MSt.addPrim
  cases hg : m.got with
  | all => exact absurd hg h
  | half => rfl
  | none => rfl

/-- The names of an object. -/
theorem prims_fair : ∀ (l : List Prim) {s : SSt} {m : MSt}, Sim s m →
    ((iterList primCb l m).2 = .ok → Sim { s with x := l.foldl Index.addPrim s.x } (iterList primCb l m).1) ∧
    ((iterList primCb l m).2 ≠ .ok → (iterList primCb l m).1.state = (iterList primCb l m).2) ∧
    (Rich m → (iterList primCb l m).2 = .ok ∧ Rich (iterList primCb l m).1)
  | [], s, m, h => ⟨fun _ => h, fun h => absurd rfl h, fun hr => ⟨rfl, hr⟩⟩
  | p :: l, s, m, h => by
    rw [iterList]
    by_cases hg : m.got = .all
    · have he : (primCb m p) = ({ m.used with x := m.x.addPrim p, state := .ok }, .ok) := by
        unfold primCb; rw [addPrim_ok p hg]
      rw [he]
      dsimp only
      rw [if_neg (by decide)]
      obtain ⟨h1, h2, h3⟩ := prims_fair l (s := { s with x := s.x.addPrim p }) (m := { m.used with x := m.x.addPrim p, state := .ok })
        ⟨by rw [h.x], h.buf, h.cur, h.out, rfl⟩
      exact ⟨h1, h2, fun hr => h3 hr.tail⟩
    · have he : (primCb m p).2 = .errMem := addPrim_err p hg
      rw [he, if_pos (by decide)]
      refine ⟨fun hh => ?_, fun _ => rfl, fun hr => absurd hr.got hg⟩
      rw [he] at hh; cases hh

theorem add_good {s t : SSt} {m : MSt} (h : Sim s m) (adder : OntoSt → Ref → OntoSt) (x : Ref)
    (hf : s.add u anon size adder x = some t) : Good cap (Rich m) t (m.add u anon size cap adder x) := by
  unfold SSt.add at hf
  unfold MSt.add
  rw [addObj_eq] at hf
  dsimp only
  rw [OntoOom.iterPrims_all]
  obtain ⟨h1, h2, h3⟩ := prims_fair (occ x.obj) h
  by_cases hr : (iterList primCb (occ x.obj) m).2 = .ok
  · rw [if_neg (by simp [hr])]
    have hs := h1 hr
    rw [hs.buf]
    dsimp only
    split
    · obtain ⟨m', e, k1, k2⟩ := flushIfNeeded_fair (size := size) (cap := cap)
        (s := { s with x := (occ x.obj).foldl Index.addPrim s.x, buf := adder s.buf x, cur := s.cur + 1 }) (m :=
        { (iterList primCb (occ x.obj) m).1.used with
          buf := some (adder s.buf x), state := .ok, cur := (iterList primCb (occ x.obj) m).1.cur + 1 })
        ⟨hs.x, rfl, congrArg (· + 1) hs.cur, hs.out, rfl⟩ hf
      exact Fair.coded ⟨m', e, k1, fun hr => k2 (h3 hr).2.tail⟩
    · rename_i hg
      exact ⟨_, _, rfl, (fun h => nomatch h), fun hr => absurd (h3 hr).2.got hg⟩
  · rw [if_pos hr]
    refine ⟨_, _, rfl, fun hc => ?_, fun hh => absurd (h3 hh).1 hr⟩
    rw [h2 hr] at hc
    exact absurd hc hr

theorem addPrefix_good {s t : SSt} {m : MSt} (h : Sim s m) (e : Str × Str) (hf : s.addPrefix u anon size e = some t) :
    Good cap (Rich m) t (m.addPrefix u anon size cap e) := by
  unfold SSt.addPrefix at hf
  unfold MSt.addPrefix
  split
  · obtain ⟨m', e', k1, k2⟩ := flushIfNeeded_fair (size := size) (cap := cap)
      (s := { s with x := s.x.addPrefix e.2 e.1 })
      (m := { m.used with x := m.x.addPrefix e.2 e.1, state := .ok }) ⟨by rw [h.x], h.buf, h.cur, h.out, rfl⟩ hf
    exact Fair.coded ⟨m', e', k1, fun hr => k2 hr.tail⟩
  · rename_i hg
    exact ⟨_, _, rfl, (fun h => nomatch h), fun hr => absurd hr.got hg⟩

theorem ctrl_good {s t : SSt} {m : MSt} (h : Sim s m) (c : UInt8) (hf : s.ctrl u anon c = some t) :
    Good cap (Rich m) t (coded cap ((m.flush u anon cap).map fun t => t.put [c])) := by
  unfold SSt.ctrl at hf
  rw [Option.map_eq_some_iff] at hf
  obtain ⟨t1, h1, rfl⟩ := hf
  obtain ⟨m', g1, g2, g3, g4, g5, -, -⟩ := flush_fair (cap := cap) h h1
  rw [g1, Option.map_some]
  have hsim : Sim t1 m' → Sim { t1 with out := t1.out ++ [c] } (m'.put [c]) :=
    fun k => ⟨k.x, k.buf, k.cur, by simp [MSt.put, k.out], k.state⟩
  exact Fair.coded ⟨_, rfl, fun hk => hsim (g4 hk), fun hr => ⟨hsim (g5 hr).1, (g5 hr).2⟩⟩

theorem resetOp_good {s t : SSt} {m : MSt} (h : Sim s m) (p : Bool) (hf : (s.flush u anon).map (fun t => t.reset p) = some t) :
    Good cap (Rich m) t (coded cap ((m.flush u anon cap).map fun t => (t.put [resetByte p]).reset p)) := by
  rw [Option.map_eq_some_iff] at hf
  obtain ⟨t1, h1, rfl⟩ := hf
  obtain ⟨m', g1, g2, g3, -, -, -, -⟩ := flush_fair (cap := cap) h h1
  rw [g1, Option.map_some]
  obtain ⟨m2, e, k1, k2⟩ := reset_fair (t := t1.reset p) (m := m'.put [resetByte p]) p rfl rfl
    (by rw [show (m'.put _).x = m'.x from rfl, g2]; rfl) (by simp only [MSt.put, g3, SSt.reset])
  exact Fair.coded ⟨m2, e, k1, fun hr => k2 (show Rich m' from flush_rich hr g1)⟩

theorem op_good {s t : SSt} {m : MSt} (h : Sim s m) (o : SOp) (hf : s.op u anon size o = some t) :
    Good cap (Rich m) t (m.op u anon size cap o) := by
  cases o with
  | ax x => exact add_good h _ x hf
  | addFrame => exact ctrl_good h 0 hf
  | removeFrame => exact ctrl_good h 1 hf
  | resetFrame p => exact resetOp_good h p hf

/-! ## What is written grows -/

theorem flush_out {s t : SSt} (h : s.flush u anon = some t) : s.out <+: t.out := by
  unfold SSt.flush at h
  dsimp only at h
  split at h
  · cases h; exact List.prefix_append _ _
  · cases h

theorem flushIfNeeded_out {s t : SSt} (h : s.flushIfNeeded u anon size = some t) : s.out <+: t.out := by
  unfold SSt.flushIfNeeded at h
  split at h
  · rw [Option.map_eq_some_iff] at h
    obtain ⟨t1, h1, rfl⟩ := h
    exact (flush_out h1).trans (List.prefix_append _ _)
  · split at h
    · exact flush_out h
    · cases h; exact List.prefix_refl _

theorem add_out {s t : SSt} {adder : OntoSt → Ref → OntoSt} {x : Ref} (h : s.add u anon size adder x = some t) : s.out <+: t.out :=
  flushIfNeeded_out (s := { s with x := s.x.addObj x.obj, buf := adder s.buf x, cur := s.cur + 1 }) h

theorem addPrefix_out {s t : SSt} {e : Str × Str} (h : s.addPrefix u anon size e = some t) : s.out <+: t.out :=
  flushIfNeeded_out (s := { s with x := s.x.addPrefix e.2 e.1 }) h

theorem op_out {s t : SSt} {o : SOp} (h : s.op u anon size o = some t) : s.out <+: t.out := by
  cases o with
  | ax x => exact add_out h
  | addFrame | removeFrame =>
    unfold SSt.op SSt.ctrl at h
    rw [Option.map_eq_some_iff] at h
    obtain ⟨t1, h1, rfl⟩ := h
    exact (flush_out h1).trans (List.prefix_append _ _)
  | resetFrame p =>
    unfold SSt.op at h
    rw [Option.map_eq_some_iff] at h
    obtain ⟨t1, h1, rfl⟩ := h
    exact (flush_out h1).trans (List.prefix_append _ _)

theorem fold_out {α : Type} {f : SSt → α → Option SSt} (hf : ∀ s t a, f s a = some t → s.out <+: t.out) :
    ∀ (l : List α) {s t : SSt}, l.foldlM f s = some t → s.out <+: t.out
  | [], s, t, h => by cases h; exact List.prefix_refl _
  | a :: l, s, t, h => by
    rw [List.foldlM_cons] at h
    obtain ⟨s1, h1, h2⟩ := Option.bind_eq_some_iff.1 h
    exact (hf _ _ _ h1).trans (fold_out hf l h2)

/-! ## Sequences -/

/-- One thing after the other. -/
theorem Good.andThen {rich rich' : Prop} {t t' : SSt} {r : Option (MSt × Ret)} {k : MSt → Option (MSt × Ret)} (h : Good cap rich t r)
    (hr : rich' → rich) (ho : t.out <+: t'.out) (hk : ∀ m, Sim t m → t.out.length ≤ cap → Good cap (Rich m) t' (k m)) : Good cap rich' t' (andThen r k) := by
  obtain ⟨m, c, rfl, h1, h2⟩ := h
  show Good cap rich' t' (if c = .ok then k m else some (m, c))
  by_cases hc : c = .ok
  · rw [if_pos hc]
    obtain ⟨m', c', e, g1, g2⟩ := hk m (h1 hc).1 (h1 hc).2
    exact ⟨m', c', e, g1, fun q hl => g2 (h2 (hr q) (Nat.le_trans ho.length_le hl)).2.1 hl⟩
  · rw [if_neg hc]
    exact ⟨m, c, rfl, fun e => absurd e hc, fun q hl => absurd (h2 (hr q) (Nat.le_trans ho.length_le hl)).2.2 hc⟩

theorem loop_good {α : Type} {f : SSt → α → Option SSt} {g : MSt → α → Option (MSt × Ret)}
    (ho : ∀ s t a, f s a = some t → s.out <+: t.out) (hg : ∀ s t m a, Sim s m → f s a = some t → Good cap (Rich m) t (g m a)) :
    ∀ (l : List α) {s t : SSt} {m : MSt}, Sim s m → s.out.length ≤ cap → l.foldlM f s = some t → Good cap (Rich m) t (loop g l m)
  | [], s, t, m, h, hl, hf => by cases hf; exact ⟨m, .ok, rfl, fun _ => ⟨h, hl⟩, fun hr _ => ⟨h, hr, rfl⟩⟩
  | a :: l, s, t, m, h, hl, hf => by
    rw [List.foldlM_cons] at hf
    obtain ⟨s1, h1, h2⟩ := Option.bind_eq_some_iff.1 hf
    exact (hg _ _ _ _ h h1).andThen id (fold_out ho l h2) fun m' hs hc => loop_good ho hg l hs hc h2

/-! ## The index while prefixes are added -/

/-- There are at most `k` prefixes and no other names. -/
structure Few (k : Nat) (s : SSt) : Prop where
  ns : s.x.ns.pv.vec.length ≤ stdPrefixes.length + k
  ids : s.x.ids.vec = []
  cur : s.cur = 0

theorem vec_add_length {α : Type} [DecidableEq α] (m : Prt.PVec α) (x : α) (b : Bool) : (m.add x b).vec.length ≤ m.vec.length + 1 := by
  unfold Prt.PVec.add
  split
  · omega
  · dsimp only
    split
    · split <;> simp
    · simp

theorem ns_add_length (m : NsMap) (n : Str) (p : Option Str) : (m.add n p).pv.vec.length ≤ m.pv.vec.length + 1 := by
  unfold NsMap.add
  split
  · omega
  · exact vec_add_length _ _ _

theorem addPrim_length (x : Index) (i : Iri) : (x.addPrim (.iri i)).ns.pv.vec.length ≤ x.ns.pv.vec.length + 1 ∧
    (x.addPrim (.iri i)).ids.vec.length ≤ x.ids.vec.length + 1 :=
  ⟨ns_add_length _ _ _, vec_add_length _ _ _⟩

theorem flush_few {s t : SSt} {k : Nat} (h : Few k s) (hf : s.flush u anon = some t) : Few k t := by
  unfold SSt.flush at hf
  dsimp only at hf
  split at hf
  · cases hf
    unfold encData
    split
    · exact ⟨h.ns, h.ids, rfl⟩
    · exact ⟨h.ns, h.ids, rfl⟩
  · cases hf

theorem flushIfNeeded_few {s t : SSt} {k : Nat} (h : Few k s) (hf : s.flushIfNeeded u anon size = some t) : Few k t := by
  unfold SSt.flushIfNeeded at hf
  split at hf
  · rw [Option.map_eq_some_iff] at hf
    obtain ⟨t1, h1, rfl⟩ := hf
    refine ⟨?_, rfl, rfl⟩
    unfold SSt.reset Index.reset
    dsimp only
    split
    · have : NsMap.init.pv.vec.length = stdPrefixes.length := by decide +kernel
      omega
    · exact (flush_few h h1).ns
  · split at hf
    · exact flush_few h hf
    · cases hf; exact h

theorem prefixes_few : ∀ (l : List (Str × Str)) {s t : SSt} {k : Nat}, Few k s → l.foldlM (SSt.addPrefix u anon size) s = some t →
    Few (k + l.length) t
  | [], s, t, k, h, hf => by cases hf; exact h
  | e :: l, s, t, k, h, hf => by
    rw [List.foldlM_cons] at hf
    obtain ⟨s1, h1, h2⟩ := Option.bind_eq_some_iff.1 hf
    have hs : Few (k + 1) s1 := flushIfNeeded_few (s := { s with x := s.x.addPrefix e.2 e.1 })
      ⟨Nat.le_trans (ns_add_length _ _ _) (by have := h.ns; omega), h.ids, h.cur⟩ h1
    have := prefixes_few l hs h2
    rw [List.length_cons]
    rwa [Nat.add_assoc, Nat.add_comm 1] at this

/-! ## IRI and version -/

theorem calm {m : MSt} (hn : m.x.ns.pv.vec.length + m.x.ids.vec.length ≤ stdPrefixes.length + size)
    (hi : m.x.ids.vec.length ≤ size) (hc : m.cur = 0) : m.flushIfNeeded u anon size cap = some m := by
  unfold MSt.flushIfNeeded MSt.prefixCount
  rw [if_neg (by omega), if_neg (by omega)]

theorem addPrim_err_bounds {m : MSt} {i : Iri} (h : m.got ≠ .all) :
    (m.addPrim (.iri i)).x.ns.pv.vec.length ≤ m.x.ns.pv.vec.length + 1 ∧ (m.addPrim (.iri i)).x.ids = m.x.ids ∧
      (m.addPrim (.iri i)).cur = m.cur := by
  unfold MSt.addPrim
  cases hg : m.got with
  | all => exact absurd hg h
  | half => exact ⟨ns_add_length _ _ _, rfl, rfl⟩
  | none => exact ⟨Nat.le_succ _, rfl, rfl⟩

/-- An encoder that has an error and does not write. -/
theorem failed_good {rich : Prop} {t : SSt} {m : MSt} (hs : m.state = .errMem) (hm : m.flushIfNeeded u anon size cap = some m)
    (hr : ¬ rich) : Good cap rich t (coded cap (m.flushIfNeeded u anon size cap)) := by
  rw [hm]
  exact Fair.coded ⟨m, rfl, (fun h => by rw [hs] at h; cases h), fun h => absurd h hr⟩

theorem addId_good {s t : SSt} {m : MSt} (h : Sim s m) {iri version : Option Iri} {k : Nat} (hk : Few k s)
    (hroom : iri = none ∨ k + 4 ≤ size) (hf : s.addId u anon size iri version = some t) :
    Good cap (Rich m) t (m.addId u anon size cap iri version) := by
  unfold SSt.addId at hf
  unfold MSt.addId MSt.setId
  cases iri with
  | none => exact Fair.coded (flushIfNeeded_fair h hf)
  | some i =>
    have hroom : k + 4 ≤ size := hroom.resolve_left (by simp)
    have hns := hk.ns
    have hids : m.x.ids.vec.length = 0 := by rw [h.x, hk.ids]; rfl
    have hnm : m.x.ns.pv.vec.length ≤ stdPrefixes.length + k := by rw [h.x]; exact hns
    have hcur : m.cur = 0 := h.cur.trans hk.cur
    rw [h.buf]
    dsimp only
    by_cases hg : m.got = .all
    · have e1 : ({ m with buf := some { s.buf with iri := some i } } : MSt).addPrim (.iri i) =
          { m with buf := some { s.buf with iri := some i }, mem := m.mem.tail, x := m.x.addPrim (.iri i), state := .ok } :=
        addPrim_ok _ hg
      rw [e1]
      dsimp only
      rw [if_neg (by simp)]
      cases version with
      | none =>
        obtain ⟨m', e, g1, g2⟩ := flushIfNeeded_fair (size := size) (cap := cap)
          (s := { s with buf := { s.buf with iri := some i }, x := s.x.addPrim (.iri i) })
          (m := { m with buf := some { s.buf with iri := some i }, mem := m.mem.tail, x := m.x.addPrim (.iri i), state := .ok })
          ⟨by rw [h.x], rfl, h.cur, h.out, rfl⟩ hf
        exact Fair.coded ⟨m', e, g1, fun hr => g2 hr.tail⟩
      | some v =>
        dsimp only
        obtain ⟨b1, b2⟩ := addPrim_length m.x i
        by_cases hg2 : m.mem.tail.headD .all = .all
        · have e2 : ({ m with buf := some { s.buf with iri := some i, version := some v }, mem := m.mem.tail, x := m.x.addPrim (.iri i), state := .ok } : MSt).addPrim (.iri v) =
              { m with buf := some { s.buf with iri := some i, version := some v }, mem := m.mem.tail.tail, x := (m.x.addPrim (.iri i)).addPrim (.iri v), state := .ok } :=
            addPrim_ok _ hg2
          rw [Option.bind_some, e2]
          obtain ⟨m', e, g1, g2⟩ := flushIfNeeded_fair (size := size) (cap := cap)
            (s := { s with buf := { s.buf with iri := some i, version := some v }, x := (s.x.addPrim (.iri i)).addPrim (.iri v) })
            (m := { m with buf := some { s.buf with iri := some i, version := some v }, mem := m.mem.tail.tail, x := (m.x.addPrim (.iri i)).addPrim (.iri v), state := .ok })
            ⟨by rw [h.x], rfl, h.cur, h.out, rfl⟩ hf
          exact Fair.coded ⟨m', e, g1, fun hr => g2 fun g hg => hr g (List.mem_of_mem_tail (List.mem_of_mem_tail hg))⟩
        · obtain ⟨c1, c2, c3⟩ := addPrim_err_bounds (i := v) (m := { m with buf := some { s.buf with iri := some i, version := some v }, mem := m.mem.tail, x := m.x.addPrim (.iri i), state := .ok }) hg2
          dsimp only at c1 c2 c3
          rw [Option.bind_some]
          refine failed_good (addPrim_err _ hg2) (calm ?_ ?_ (c3.trans hcur)) fun hr => ?_
          · rw [c2]; omega
          · rw [c2]; omega
          · have hr' : Rich { m with mem := m.mem.tail } := hr.tail
            exact absurd hr'.got hg2
    · obtain ⟨c1, c2, c3⟩ := addPrim_err_bounds (i := i) (m := { m with buf := some { s.buf with iri := some i } }) hg
      dsimp only at c1 c2 c3
      have e1 := addPrim_err (m := { m with buf := some { s.buf with iri := some i } }) (.iri i) hg
      rw [if_pos (by rw [e1]; simp), Option.bind_some]
      refine failed_good e1 (calm ?_ ?_ (c3.trans hcur)) fun hr => absurd hr.got hg
      · rw [c2]; omega
      · rw [c2]; omega

theorem addId_out {s t : SSt} {iri version : Option Iri} (h : s.addId u anon size iri version = some t) : s.out <+: t.out := by
  unfold SSt.addId at h
  have := flushIfNeeded_out h
  split at this <;> exact this

/-! ## Documents -/

theorem header_good {t : SSt} (m : MSt) (ho : m.out = []) {h : Header} (hroom : h.iri = none ∨ h.prefixes.length + 4 ≤ size)
    (hw : writeHeader u anon size h = some t) : Good cap (Rich m) t (m.header u anon size cap h) := by
  unfold writeHeader at hw
  obtain ⟨s1, h1, hw⟩ := Option.bind_eq_some_iff.1 hw
  obtain ⟨s2, h2, hw⟩ := Option.bind_eq_some_iff.1 hw
  obtain ⟨s3, h3, h4⟩ := Option.bind_eq_some_iff.1 hw
  have o4 := fold_out (fun _ _ _ => add_out) _ h4
  have o3 := (fold_out (fun _ _ _ => add_out) _ h3).trans o4
  have o2 := (addId_out h2).trans o3
  have o1 := (fold_out (fun _ _ _ => addPrefix_out) _ h1).trans o2
  unfold MSt.header
  refine Good.andThen (t := { out := [] }) (reset_fair (t := { out := [] }) true rfl rfl rfl ho).coded id (List.nil_prefix) fun m hm hl => ?_
  refine Good.andThen (t := { out := [1] }) (rich := Rich m) (Fair.coded ⟨_, rfl, fun _ => ?_, fun hr => ⟨?_, hr⟩⟩) id o1 fun m hm hl => ?_
  · exact ⟨hm.x, hm.buf, hm.cur, by simp [MSt.put, hm.out], hm.state⟩
  · exact ⟨hm.x, hm.buf, hm.cur, by simp [MSt.put, hm.out], hm.state⟩
  refine (loop_good (fun _ _ _ => addPrefix_out) (fun _ _ _ e hs hf => addPrefix_good hs e hf) _ hm hl h1).andThen id o2 fun m hm hl => ?_
  have hfew : Few (0 + h.prefixes.length) s1 := prefixes_few h.prefixes ⟨by decide +kernel, rfl, rfl⟩ h1
  rw [Nat.zero_add] at hfew
  refine (addId_good hm hfew hroom h2).andThen id o3 fun m hm hl => ?_
  refine (loop_good (fun _ _ _ => add_out) (fun _ _ _ e hs hf => add_good hs _ e hf) _ hm hl h3).andThen id o4 fun m hm hl => ?_
  exact loop_good (fun _ _ _ => add_out) (fun _ _ _ e hs hf => add_good hs _ e hf) _ hm hl h4

/-- After the footer. -/
theorem footer_good {s : SSt} {m : MSt} (h : Sim s m) {b : Str} (hw : s.writeFooter u anon = some b) :
    Good cap (Rich m) { out := b } (m.footer u anon cap) := by
  unfold SSt.writeFooter at hw
  rw [Option.map_eq_some_iff] at hw
  obtain ⟨t, h1, rfl⟩ := hw
  obtain ⟨m', g1, g2, g3, -, -, -, -⟩ := flush_fair (cap := cap) h h1
  unfold MSt.footer
  rw [g1, Option.map_some]
  obtain ⟨m2, e, k1, k2⟩ := reset_fair (t := { out := t.out ++ [3] }) (m := m'.put [3]) true rfl rfl rfl (by simp only [MSt.put, g3])
  exact Fair.coded ⟨m2, e, k1, fun hr => k2 (show Rich m' from flush_rich hr g1)⟩

theorem session_good {b : Str} (m : MSt) (ho : m.out = []) {h : Header} {ops : List SOp}
    (hroom : h.iri = none ∨ h.prefixes.length + 4 ≤ size) (hw : writeSession u anon size h ops = some b) :
    Good cap (Rich m) { out := b } (m.session u anon size cap h ops) := by
  unfold writeSession at hw
  obtain ⟨s1, h1, hw⟩ := Option.bind_eq_some_iff.1 hw
  obtain ⟨s2, h2, h3⟩ := Option.bind_eq_some_iff.1 hw
  have o3 : s2.out <+: b := by
    unfold SSt.writeFooter at h3
    rw [Option.map_eq_some_iff] at h3
    obtain ⟨t, h4, rfl⟩ := h3
    exact (flush_out h4).trans (List.prefix_append _ _)
  have o2 := (fold_out (fun _ _ _ => op_out) _ h2).trans o3
  refine (header_good m ho hroom h1).andThen id o2 fun m hm hl => ?_
  refine (loop_good (fun _ _ _ => op_out) (fun _ _ _ e hs hf => op_good hs e hf) _ hm hl h2).andThen id o3 fun m hm hl => ?_
  exact footer_good hm h3

end

end Cowl.POom
