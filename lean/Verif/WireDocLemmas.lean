import Verif.WireReadLemmas
import Verif.PrtHandlerSpec
/-!
# Lemmas: what documents in ProtocOWL say
-/
namespace Cowl.Wire
open Ast Prt
open Func (Item)

/-- What the handler gets for an entry. -/
def Entry.item : Entry → Item
  | .pfx p n => .prefixDecl p n
  | .iri i => .iri i
  | .version i => .version i
  | .imported i => .import i
  | .annot a => .annot a.toObj
  | .ax a => .ax a.toObj

/-- What the handler was given so far. -/
abbrev Log := List (Bool × Item)

/-- The situation of the decoder. -/
def sit (s : FSt Log) : Sit := ⟨src s.dec, s.dec.ix.nss, s.remove⟩

/-- The function reads such parts, notes what they say, and does not end the document. -/
def Runs (f : FSt Log → FRes Log) (P : Part) : Prop := ∀ s,
  (∀ c, f s ≠ .stop c .done) ∧ ∀ s', f s = .go s' →
    s'.remove = s.remove ∧ ∃ es, P (sit s) es (sit s') ∧ s'.ctx = s.ctx ++ es.map fun e => (s.remove, e.item)

section
variable {E : Env}

/-- Something is read, and then a function is run. -/
theorem Runs.get {α : Type} {x : Dec α} {Q : α → Lang} (h : Takes E x Q) {k : α → FSt Log → FRes Log} {P : Part}
    (hk : ∀ s a s', x s.dec = .ok a s'.dec → s'.remove = s.remove → s'.ctx = s.ctx →
      Acts E.u.readVarint E.u.readSvarint E.gen (Q a) (sit s) (sit s') →
      (∀ c, k a s' ≠ .stop c .done) ∧ ∀ s'', k a s' = .go s'' →
        s''.remove = s.remove ∧ ∃ es, P (sit s) es (sit s'') ∧ s''.ctx = s.ctx ++ es.map fun e => (s.remove, e.item)) :
    Runs (fun s => s.get x k) P := by
  intro s
  unfold FSt.get
  dsimp only
  cases e : x s.dec with
  | err => exact ⟨nofun, nofun⟩
  | ub => exact ⟨nofun, nofun⟩
  | ok a d =>
    obtain ⟨h1, cs, h2, h3⟩ := h _ _ _ e
    exact hk s a { s with dec := d } e rfl rfl ⟨h1, rfl, cs, h2, h3⟩

theorem deliver_note (i : Item) (s : FSt Log) :
    deliver noteAll i s = .go { s with ctx := s.ctx ++ [(s.remove, i)], code := .ok } := rfl

theorem Runs.times {f : FSt Log → FRes Log} {P : Part} (h : Runs f P) : ∀ n, Runs (Prt.times f n) (Times P n)
  | 0 => fun s => ⟨nofun, fun s' e => by cases e; exact ⟨rfl, [], ⟨rfl, rfl⟩, (List.append_nil _).symm⟩⟩
  | n + 1 => fun s => by
    rw [Prt.times]
    cases e : f s with
    | stop c r =>
      refine ⟨fun c' e' => ?_, nofun⟩
      cases e'
      exact (h s).1 c e
    | go m =>
      obtain ⟨h1, es, h2, h3⟩ := (h s).2 m e
      obtain ⟨h4, h5⟩ := Runs.times h n m
      refine ⟨h4, fun s' e' => ?_⟩
      obtain ⟨h6, fs, h7, h8⟩ := h5 s' e'
      refine ⟨h6.trans h1, es ++ fs, ⟨_, es, fs, rfl, h2, h7⟩, ?_⟩
      rw [h8, h3, h1, List.map_append, List.append_assoc]

theorem Runs.counted (hu : E.u.Lawful) {f : FSt Log → FRes Log} {P : Part} (h : Runs f P) :
    Runs (Prt.counted E f) (Listed E.u.readVarint E.u.readSvarint E.gen P) := by
  refine Runs.get (takes_varint hu) fun s n s' _ h1 h2 h3 => ?_
  obtain ⟨h4, h5⟩ := Runs.times h n s'
  refine ⟨h4, fun t e => ?_⟩
  obtain ⟨h6, es, h7, h8⟩ := h5 t e
  refine ⟨h6.trans h1, es, ⟨n, _, ⟨h3.1, h3.2.1, ?_⟩, h7⟩, by rw [h8, h2, h1]⟩
  obtain ⟨cs, ⟨rfl, _⟩, h⟩ := h3.2.2
  exact ⟨_, rfl, h⟩

/-- Something is read and noted. -/
theorem Runs.note {α : Type} {x : Dec α} {Q : α → Lang} (h : Takes E x Q) {i : α → Item} {P : Part}
    (hP : ∀ a s t, Acts E.u.readVarint E.u.readSvarint E.gen (Q a) s t → ∃ e : Entry, i a = e.item ∧ P s [e] t) :
    Runs (fun s => s.get x fun a s => deliver noteAll (i a) s) P := by
  refine Runs.get h fun s a s' _ h1 h2 h3 => ?_
  rw [deliver_note]
  refine ⟨nofun, fun t e => ?_⟩
  cases e
  obtain ⟨e, h4, h5⟩ := hP a _ _ h3
  exact ⟨h1, [e], h5, by rw [h4, h1, h2]; rfl⟩

/-- Something is read, and the indices change. -/
theorem runs_read {α : Type} {x : Dec α} {P : Part} {k : α → FSt Log → FRes Log}
    (hx : ∀ s a s', x s = .ok a s' → ∀ b, ∃ es, P ⟨src s, s.ix.nss, b⟩ es ⟨src s', s'.ix.nss, b⟩ ∧
      ∀ f : FSt Log, ∃ cd, k a f = .go { f with ctx := f.ctx ++ es.map fun e => (f.remove, e.item), code := cd }) :
    Runs (fun s => s.get x k) P := by
  intro s
  unfold FSt.get
  dsimp only
  cases e : x s.dec with
  | err => exact ⟨nofun, nofun⟩
  | ub => exact ⟨nofun, nofun⟩
  | ok a d =>
    obtain ⟨es, h1, h2⟩ := hx _ _ _ e s.remove
    obtain ⟨cd, h3⟩ := h2 { s with dec := d }
    dsimp only
    rw [h3]
    refine ⟨nofun, fun s' e' => ?_⟩
    cases e'
    exact ⟨rfl, es, h1, rfl⟩

/-- Splitting a run. -/
theorem bind_ok {α β : Type} {x : Dec α} {f : α → Dec β} {s : DSt} {b : β} {s' : DSt} (h : (x >>= f) s = .ok b s') :
    ∃ a m, x s = .ok a m ∧ f a m = .ok b s' := by
  simp only [bind_def, Dec.bind] at h
  cases e : x s with
  | ok a m => rw [e] at h; exact ⟨a, m, rfl, h⟩
  | err => rw [e] at h; cases h
  | ub => rw [e] at h; cases h

theorem runs_prefix (hu : E.u.Lawful) :
    Runs (prefixDecl E noteAll) (pfxDecl E.u.readVarint E.u.readSvarint E.gen) := by
  refine runs_read fun s a s' e b => ?_
  unfold decPfx at e
  obtain ⟨p, m1, e1, e⟩ := bind_ok e
  obtain ⟨n, m2, e2, e⟩ := bind_ok e
  obtain ⟨_, m3, e3, e⟩ := bind_ok e
  cases e3; cases e
  obtain ⟨h1, cs, h2, h3⟩ := takes_decStr hu _ _ _ e1
  obtain ⟨h4, ds, h5, h6⟩ := takes_decStr hu _ _ _ e2
  exact ⟨[.pfx p n], ⟨p, n, ⟨src m2, m2.ix.nss, b⟩, rfl, ⟨h4.trans h1, rfl, cs ++ ds, seq_mk h2 h5, does_append h3 h6⟩, rfl⟩,
    fun f => ⟨_, deliver_note _ _⟩⟩

theorem runs_ns (hu : E.u.Lawful) : Runs (Prt.nsDecl E) (nsDecl E.u.readVarint E.u.readSvarint E.gen) := by
  refine runs_read fun s a s' e b => ?_
  unfold decNs at e
  obtain ⟨n, m1, e1, e⟩ := bind_ok e
  cases e
  obtain ⟨h1, cs, h2, h3⟩ := takes_decStr hu _ _ _ e1
  exact ⟨[], ⟨n, ⟨src m1, m1.ix.nss, b⟩, rfl, ⟨h1, rfl, cs, h2, h3⟩, rfl⟩, fun f => ⟨.ok, by simp⟩⟩

theorem runs_iri (hu : E.u.Lawful) :
    Runs (quiet (decIriDecl E)) (iriDecl E.u.readVarint E.u.readSvarint E.gen mkIri) := by
  refine runs_read fun s a s' e b => ?_
  unfold decIriDecl at e
  obtain ⟨k, m1, e1, e⟩ := bind_ok e
  obtain ⟨r, m2, e2, e⟩ := bind_ok e
  obtain ⟨n, m3, e3, e⟩ := bind_ok e
  cases e
  unfold getNs at e3
  split at e3
  · rename_i n' hn
    cases e3
    obtain ⟨h1, cs, ⟨h2, _⟩, h3⟩ := takes_varint hu _ _ _ e1
    obtain ⟨h4, ds, h5, h6⟩ := takes_decStr hu _ _ _ e2
    exact ⟨[], ⟨k, _, r, ⟨src m2, m2.ix.nss, b⟩, rfl,
      ⟨h4.trans h1, rfl, cs ++ ds, seq_mk h2 h5, does_append h3 h6⟩, hn, rfl⟩,
      fun f => ⟨f.code, by simp⟩⟩
  · cases e3

theorem runs_anon (hu : E.u.Lawful) :
    Runs (quiet (decAnonDecl E)) (anonDecl E.u.readVarint E.u.readSvarint E.gen) := by
  refine runs_read fun s a s' e b => ?_
  unfold decAnonDecl at e
  obtain ⟨n, m1, e1, e⟩ := bind_ok e
  cases e
  obtain ⟨h1, cs, h2, h3⟩ := takes_decStr hu _ _ _ e1
  exact ⟨[], ⟨n, ⟨src m1, m1.ix.nss, b⟩, rfl, ⟨h1, rfl, cs, h2, h3⟩, rfl⟩, fun f => ⟨f.code, by simp⟩⟩

theorem runs_import (hu : E.u.Lawful) : Runs (importItem E noteAll) fun s es t =>
    ∃ i, es = [.imported i] ∧ Acts E.u.readVarint E.u.readSvarint E.gen (name 0 (.iri i)) s t :=
  Runs.note (takes_decIri hu) fun i _ _ h => ⟨.imported i, rfl, i, rfl, h⟩

theorem acts_says {α : Type} {g : α → Obj} {L : α → Lang} {o : Obj} {s t : Sit}
    (h : Acts E.u.readVarint E.u.readSvarint E.gen (says g L o) s t) :
    ∃ x, o = g x ∧ Acts E.u.readVarint E.u.readSvarint E.gen (L x) s t := by
  obtain ⟨h1, h2, cs, ⟨x, h3, h4⟩, h5⟩ := h
  exact ⟨x, h3, h1, h2, cs, h4, h5⟩

theorem runs_annot (hu : E.u.Lawful) : Runs (annotItem E noteAll) fun s es t =>
    ∃ a, es = [.annot a] ∧ Acts E.u.readVarint E.u.readSvarint E.gen (annotSays a) s t := by
  intro s
  refine Runs.note (takes_decAnnot hu (s.dec.inp.length + 1)) (i := .annot) (P := fun s es t =>
    ∃ a, es = [.annot a] ∧ Acts E.u.readVarint E.u.readSvarint E.gen (annotSays a) s t) (fun o _ _ h => ?_) s
  obtain ⟨a, ho, h'⟩ := acts_says h
  exact ⟨.annot a, by rw [ho]; rfl, a, rfl, h'⟩

theorem runs_axiom (hu : E.u.Lawful) (c : UInt8) (hc : 9 ≤ c.toNat % 64) : Runs (axiomFrame E noteAll c) fun s es t =>
    ∃ a, es = [.ax a] ∧ Acts E.u.readVarint E.u.readSvarint E.gen (axSays a c) s t := by
  intro s
  refine Runs.get (takes_decAxiom hu (s.dec.inp.length + 1) c hc) (P := fun s es t =>
    ∃ a, es = [.ax a] ∧ Acts E.u.readVarint E.u.readSvarint E.gen (axSays a c) s t) (fun s a s' _ h1 h2 h3 => ?_) s
  rw [deliver_note]
  split
  · rename_i hb
    refine ⟨nofun, fun t e => ?_⟩
    cases e
    obtain ⟨h4, h5, cs, h6, h7⟩ := h3
    obtain ⟨x, h8, h9⟩ := h6 hb
    exact ⟨h1, [.ax x], ⟨x, rfl, h4, h5, cs, h9, h7⟩, by rw [h8, h1, h2]; rfl⟩
  · exact ⟨nofun, nofun⟩

theorem runs_names (hu : E.u.Lawful) (b : Bool) : Runs (iriVersion E noteAll b) fun s es t =>
    ∃ i m, Acts E.u.readVarint E.u.readSvarint E.gen (name 0 (.iri i)) s m ∧
      if b = true then ∃ v, es = [.iri i, .version v] ∧ Acts E.u.readVarint E.u.readSvarint E.gen (name 0 (.iri v)) m t
      else es = [.iri i] ∧ t = m := by
  intro s
  have h1 := Runs.note (takes_decIri hu) (i := .iri) (P := fun s es t =>
    ∃ i, es = [.iri i] ∧ Acts E.u.readVarint E.u.readSvarint E.gen (name 0 (.iri i)) s t)
    (fun i _ _ h => ⟨.iri i, rfl, i, rfl, h⟩)
  have h2 := Runs.note (takes_decIri hu) (i := .version) (P := fun s es t =>
    ∃ i, es = [.version i] ∧ Acts E.u.readVarint E.u.readSvarint E.gen (name 0 (.iri i)) s t)
    (fun i _ _ h => ⟨.version i, rfl, i, rfl, h⟩)
  obtain ⟨h3, h4⟩ := h1 s
  unfold iriVersion
  cases e : (s.get (decIri E) fun i s => deliver noteAll (.iri i) s) with
  | stop c r =>
    refine ⟨fun c' e' => ?_, nofun⟩
    cases e'
    exact h3 c e
  | go m =>
    obtain ⟨h5, es, ⟨i, rfl, h6⟩, h7⟩ := h4 m e
    cases b with
    | false =>
      refine ⟨nofun, fun t e' => ?_⟩
      cases e'
      exact ⟨h5, [.iri i], ⟨i, _, h6, rfl, rfl⟩, h7⟩
    | true =>
      obtain ⟨h8, h9⟩ := h2 m
      refine ⟨h8, fun t e' => ?_⟩
      obtain ⟨h10, fs, ⟨v, rfl, h11⟩, h12⟩ := h9 t e'
      refine ⟨h10.trans h5, [.iri i, .version v], ⟨i, _, h6, v, rfl, h11⟩, ?_⟩
      rw [h12, h7, h5, List.append_assoc]; rfl

/-- One frame. The second part is about the end of the document. -/
theorem run_frame (hu : E.u.Lawful) (c : UInt8) (s : FSt Log) :
    (∀ x, frameOf E noteAll c s = .stop x .done → c.toNat % 64 = 3 ∧ x = s.ctx) ∧
    ∀ s', frameOf E noteAll c s = .go s' → ∃ es, Frame E.u.readVarint E.u.readSvarint E.gen mkIri c (sit s) es (sit s') ∧
      s'.ctx = s.ctx ++ es.map fun e => (s.remove, e.item) := by
  have out : ∀ {f : FSt Log → FRes Log} {P : Part}, Runs f P → (∀ x, f s = .stop x .done → c.toNat % 64 = 3 ∧ x = s.ctx) ∧
      ∀ s', f s = .go s' → ∃ es, P (sit s) es (sit s') ∧ s'.ctx = s.ctx ++ es.map fun e => (s.remove, e.item) := by
    intro f P h
    refine ⟨fun x e => absurd e ((h s).1 x), fun s' e => ?_⟩
    obtain ⟨-, h1⟩ := (h s).2 s' e
    exact h1
  unfold frameOf
  generalize hq : c.toNat % 64 = q at *
  match q with
  | 0 =>
    refine ⟨nofun, fun s' e => ?_⟩
    cases e
    exact ⟨[], by unfold Frame; rw [hq]; exact ⟨rfl, rfl⟩, (List.append_nil _).symm⟩
  | 1 =>
    refine ⟨nofun, fun s' e => ?_⟩
    cases e
    exact ⟨[], by unfold Frame; rw [hq]; exact ⟨rfl, rfl⟩, (List.append_nil _).symm⟩
  | 2 =>
    refine ⟨nofun, fun s' e => ?_⟩
    cases e
    refine ⟨[], ?_, (List.append_nil _).symm⟩
    unfold Frame; rw [hq]
    refine ⟨rfl, ?_⟩
    simp only [sit, src, DIndex.reset, bit6, bit7, decide_eq_true_eq]
    rfl
  | 3 =>
    refine ⟨fun x e => ?_, nofun⟩
    injection e with e1 _
    exact ⟨rfl, e1.symm⟩
  | 4 =>
    have := out (Runs.counted hu (runs_prefix hu))
    have := out (Runs.counted hu (runs_ns hu))
    unfold Frame
    rw [hq]
    dsimp only [bit6]
    by_cases hb : c.toNat / 64 % 2 = 1
    · simp only [hb, decide_true, if_true]; assumption
    · simp only [hb, decide_false, if_false]; assumption
  | 5 =>
    have := out (Runs.counted hu (runs_iri hu))
    have := out (Runs.counted hu (runs_anon hu))
    unfold Frame
    rw [hq]
    dsimp only [bit6]
    by_cases hb : c.toNat / 64 % 2 = 1
    · simp only [hb, decide_true, if_true]; assumption
    · simp only [hb, decide_false, if_false]; assumption
  | 6 =>
    have := out (runs_names hu (bit7 c))
    unfold Frame
    rw [hq]
    simpa only [bit7, decide_eq_true_eq] using this
  | 7 =>
    have := out (Runs.counted hu (runs_import hu))
    unfold Frame
    rw [hq]
    exact this
  | 8 =>
    have := out (Runs.counted hu (runs_annot hu))
    unfold Frame
    rw [hq]
    exact this
  | q + 9 =>
    have := out (runs_axiom hu c (by omega))
    unfold Frame
    rw [hq]
    exact this

theorem run_frames (hu : E.u.Lawful) : ∀ n (s : FSt Log) (x : Log), frames E noteAll n s = (x, .done) →
    ∃ fs, Frames E.u.readVarint E.u.readSvarint E.gen mkIri (sit s) fs ∧ x = s.ctx ++ fs.map fun f => (f.1, f.2.item)
  | 0, _, _, h => by cases h
  | n + 1, s, x, h => by
    unfold frames at h
    unfold Prt.frame at h
    cases hi : s.dec.inp with
    | nil =>
      rw [hi] at h
      have h1 : s.ctx = x := congrArg Prod.fst h
      exact ⟨[], .eof hi, by rw [← h1]; exact (List.append_nil _).symm⟩
    | cons c r =>
      rw [hi] at h
      dsimp only at h
      obtain ⟨h1, h2⟩ := run_frame hu c { s with dec := { s.dec with inp := r } }
      cases e : frameOf E noteAll c { s with dec := { s.dec with inp := r } } with
      | stop y q =>
        rw [e] at h
        cases h
        obtain ⟨h3, h4⟩ := h1 _ e
        exact ⟨[], .last hi h3, by rw [h4]; exact (List.append_nil _).symm⟩
      | go t =>
        rw [e] at h
        obtain ⟨es, h3, h4⟩ := h2 t e
        obtain ⟨fs, h5, h6⟩ := run_frames hu n t x h
        refine ⟨_, .more hi h3 h5, ?_⟩
        rw [h6, h4, List.map_append, List.map_map, List.append_assoc]
        rfl

theorem run_doc (hu : E.u.Lawful) {b : Str} {x : Log} (h : prtChanges E b = (x, .done)) :
    ∃ fs, DocSays E.u.readVarint E.u.readSvarint E.gen mkIri b fs ∧ x = fs.map fun f => (f.1, f.2.item) := by
  unfold prtChanges prtRead at h
  split at h
  · cases h
  · rename_i c r
    split at h
    · rename_i hc
      subst hc
      obtain ⟨fs, h1, h2⟩ := run_frames hu _ _ _ h
      exact ⟨fs, ⟨r, rfl, h1⟩, h2⟩
    · cases h

end

end Cowl.Wire
