import Verif.PrtIo
import Verif.PrtCutLemmas
/-! # Lemmas: ProtocOWL input that cannot be read to its end -/
namespace Cowl.Prt
open Func (Item)

section
variable {E : Env} {σ : Type} {h : Callback σ (Bool × Item)}

/-- A part of a frame does the same with more input, unless it asks for more. -/
structure Stays (f : FSt σ → FRes σ) : Prop where
  go : ∀ s q s', f s = .go s' → f (s.ext q) = .go (s'.ext q)
  stop : ∀ s q c e, f s = .stop c e → e ≠ .rejected → e ≠ .ub → f (s.ext q) = .stop c e

theorem Stays.andThen {f g : FSt σ → FRes σ} (hf : Stays f) (hg : Stays g) :
    Stays (fun s => (f s).andThen g) := by
  refine ⟨fun s q s' e => ?_, fun s q c r e h1 h2 => ?_⟩
  · show (f (s.ext q)).andThen g = _
    have e : (f s).andThen g = _ := e
    cases h : f s with
    | go t => rw [h] at e; rw [hf.go s q t h]; exact hg.go t q s' e
    | stop c r => rw [h] at e; cases e
  · show (f (s.ext q)).andThen g = _
    have e : (f s).andThen g = _ := e
    cases h : f s with
    | go t => rw [h] at e; rw [hf.go s q t h]; exact hg.stop t q c r e h1 h2
    | stop c' r' => rw [h] at e; cases e; rw [hf.stop s q c r h h1 h2]; rfl

theorem Stays.get {α : Type} {x : Str → Dec α} {f : α → FSt σ → FRes σ}
    (hx : ∀ s q a s', x s.inp s = .ok a s' → x (s.inp ++ q) (s.ext q) = .ok a (s'.ext q)) (hf : ∀ a, Stays (f a)) :
    Stays (fun s => s.get (x s.dec.inp) f) := by
  refine ⟨fun s q s' e => ?_, fun s q c r e h1 h2 => ?_⟩
  · have e : s.get (x s.dec.inp) f = _ := e
    show (s.ext q).get (x (s.dec.inp ++ q)) f = _
    cases h : x s.dec.inp s.dec with
    | ok a d =>
      rw [get_ok h] at e
      rw [get_ok (s := s.ext q) (hx s.dec q a d h)]
      exact (hf a).go { s with dec := d } q s' e
    | err => rw [get_err h] at e; cases e
    | ub => rw [get_ub h] at e; cases e
  · have e : s.get (x s.dec.inp) f = _ := e
    show (s.ext q).get (x (s.dec.inp ++ q)) f = _
    cases h : x s.dec.inp s.dec with
    | ok a d =>
      rw [get_ok h] at e
      rw [get_ok (s := s.ext q) (hx s.dec q a d h)]
      exact (hf a).stop { s with dec := d } q c r e h1 h2
    | err => rw [get_err h] at e; cases e; exact absurd rfl h1
    | ub => rw [get_ub h] at e; cases e; exact absurd rfl h2

theorem stays_go {f : DSt → DSt} {r : Bool → Bool} {p : Bool} (hf : ∀ d q, f (d.ext q) = (f d).ext q) :
    Stays (σ := σ) (fun s => .go { s with dec := f s.dec, remove := r s.remove, code := if p then .ok else s.code }) := by
  refine ⟨fun s q s' e => ?_, fun s q c r e => by cases e⟩
  cases e
  dsimp only [FSt.ext]
  rw [hf]

theorem stays_id : Stays (σ := σ) FRes.go := stays_go (f := id) (r := id) (p := false) fun _ _ => rfl

theorem stays_deliver (i : Item) : Stays (deliver h i) := by
  refine ⟨fun s q s' e => ?_, fun s q c r e _ _ => ?_⟩
  · unfold deliver at e ⊢
    dsimp only [FSt.ext] at e ⊢
    split at e
    · cases e
    · rename_i hn
      cases e
      rw [if_neg hn]
  · unfold deliver at e ⊢
    dsimp only [FSt.ext] at e ⊢
    split at e
    · rename_i hn
      cases e
      rw [if_pos hn]
    · cases e

theorem Stays.times {f : FSt σ → FRes σ} (h : Stays f) : ∀ n, Stays (times f n)
  | 0 => stays_id
  | n + 1 => h.andThen (Stays.times h n)

theorem Stays.ite {p : Bool} {f g : FSt σ → FRes σ} (h : Stays f) (h' : Stays g) :
    Stays (fun s => if p then f s else g s) := by
  cases p
  · exact h'
  · exact h

variable (hl : E.u.Local)
include hl

theorem Stays.counted {f : FSt σ → FRes σ} (h : Stays f) : Stays (counted E f) :=
  Stays.get (x := fun _ => varint E) (fun s q => mono_varint hl s q) h.times

omit hl in
theorem stays_quiet {x : Dec Unit} (h : Mono x) : Stays (σ := σ) (quiet x) :=
  Stays.get (x := fun _ => x) (fun s q => h s q) fun _ => stays_id

theorem stays_axiomFrame (hu : E.u.Lawful) (c : UInt8) : Stays (axiomFrame E h c) := by
  have hstep : ∀ (s : DSt) q a s', decAxiom E (s.inp.length + 1) c s = .ok a s' → a.2 = true →
      decAxiom E ((s.ext q).inp.length + 1) c (s.ext q) = .ok a (s'.ext q) := by
    intro s q a s' e
    have hle : s.inp.length + 1 ≤ (s.ext q).inp.length + 1 := by
      simp [DSt.ext]
    rw [(le_decAxiom hu (Nat.lt_succ_self _) hle c s (Nat.le_refl _)).1] at e
    exact (mono_decAxiom hl _ c s q a s' e).1
  have late : ∀ (r : FRes σ), (∃ c, afterError r = .stop c .rejected) := by
    intro r; cases r <;> exact ⟨_, rfl⟩
  refine ⟨fun s q s' e => ?_, fun s q c' r e h1 h2 => ?_⟩
  · unfold axiomFrame at e ⊢
    cases k : decAxiom E (s.dec.inp.length + 1) c s.dec with
    | ok a d =>
      rw [get_ok k] at e
      split at e
      · rename_i ha
        refine (get_ok (s := s.ext q) (hstep _ q _ _ k ha)).trans ?_
        rw [if_pos ha]
        exact (stays_deliver (.ax a.1)).go { s with dec := d } q s' e
      · obtain ⟨c, hc⟩ := late (deliver h (.ax a.1) { s with dec := d })
        rw [hc] at e; cases e
    | err => rw [get_err k] at e; cases e
    | ub => rw [get_ub k] at e; cases e
  · unfold axiomFrame at e ⊢
    cases k : decAxiom E (s.dec.inp.length + 1) c s.dec with
    | ok a d =>
      rw [get_ok k] at e
      split at e
      · rename_i ha
        refine (get_ok (s := s.ext q) (hstep _ q _ _ k ha)).trans ?_
        rw [if_pos ha]
        exact (stays_deliver (.ax a.1)).stop { s with dec := d } q c' r e h1 h2
      · obtain ⟨c, hc⟩ := late (deliver h (.ax a.1) { s with dec := d })
        rw [hc] at e; cases e; exact absurd rfl h1
    | err => rw [get_err k] at e; cases e; exact absurd rfl h1
    | ub => rw [get_ub k] at e; cases e; exact absurd rfl h2

theorem stays_frameOf (hu : E.u.Lawful) (c : UInt8) : Stays (frameOf E h c) := by
  have hi : ∀ {f : Iri → Item}, Stays (fun s => s.get (decIri E) fun i s => deliver h (f i) s) := fun {f} =>
    Stays.get (x := fun _ => decIri E) (fun s q => mono_decIri hl s q) fun i => stays_deliver (f i)
  unfold frameOf
  split
  · exact stays_go (f := id) (r := fun _ => false) (p := false) fun _ _ => rfl
  · exact stays_go (f := id) (r := fun _ => true) (p := false) fun _ _ => rfl
  · exact stays_go (f := fun d => { d with ix := d.ix.reset (bit6 c) (bit7 c) }) (r := id) (p := bit6 c || bit7 c) fun _ _ => rfl
  · exact ⟨(fun s q s' e => by cases e), (fun s q c r e _ _ => by cases e; rfl)⟩
  · refine Stays.ite (Stays.counted hl (Stays.get (x := fun _ => decPfx E) (fun s q => ?_) fun d => stays_deliver (.prefixDecl d.1 d.2)))
      (Stays.counted hl (Stays.get (x := fun _ => decNs E) (fun s q => ((mono_decStr hl).bind fun _ => mono_pushNs _ : Mono (decNs E)) s q)
        fun _ => stays_go (f := id) (r := id) (p := true) fun _ _ => rfl))
    exact ((mono_decStr hl).bind fun _ => (mono_decStr hl).bind fun _ => (mono_pushNs _).bind fun _ => Mono.pure _ : Mono (decPfx E)) s q
  · exact Stays.ite
      (Stays.counted hl (stays_quiet ((mono_varint hl).bind fun _ => (mono_decStr hl).bind fun _ => (mono_getNs _).bind fun _ => mono_pushId _)))
      (Stays.counted hl (stays_quiet ((mono_decStr hl).bind fun _ => mono_pushId _)))
  · exact Stays.andThen hi (Stays.ite hi stays_id)
  · exact Stays.counted hl hi
  · refine Stays.counted hl (Stays.get (x := fun i => decAnnot E (i.length + 1)) (fun s q a s' e => ?_) fun a => stays_deliver (.annot a))
    have hle : s.inp.length + 1 ≤ (s.inp ++ q).length + 1 := by simp
    rw [(le_decAnnot hu _ _ (Nat.lt_succ_self _) _ hle s (Nat.le_refl _)).1] at e
    exact mono_decAnnot hl _ s q a s' e
  · exact stays_axiomFrame hl hu c

omit hl in
theorem frame_ext (s : FSt σ) (q : Str) (c : UInt8) (r : Str) (e : s.dec.inp = c :: r) :
    frame E h (s.ext q) = frameOf E h c (FSt.ext { s with dec := { s.dec with inp := r } } q) := by
  unfold frame
  dsimp only [FSt.ext, DSt.ext]
  rw [e]
  rfl

/-- What is accepted is accepted whatever follows. -/
theorem framesIo_ext (hu : E.u.Lawful) (q : Str) : ∀ (n m : Nat) (s : FSt σ) (c : σ) (e : End), s.dec.inp.length < n →
    (s.ext q).dec.inp.length < m → framesIo E h n s = (c, e) → e ≠ .rejected → e ≠ .ub →
    frames E h m (s.ext q) = (c, e)
  | 0, _, _, _, _, h, _, _, _, _ => by omega
  | _ + 1, 0, _, _, _, _, h, _, _, _ => by omega
  | n + 1, m + 1, s, c, e, h1, h2, h3, h4, h5 => by
    rw [framesIo] at h3
    rw [frames]
    cases hi : s.dec.inp with
    | nil =>
      have : frameIo E h s = .stop s.ctx .rejected := by unfold frameIo; rw [hi]
      rw [this] at h3; cases h3; exact absurd rfl h4
    | cons b r =>
      have k : frameIo E h s = frameOf E h b { s with dec := { s.dec with inp := r } } := by unfold frameIo; rw [hi]
      have k' : frame E h s = frameOf E h b { s with dec := { s.dec with inp := r } } := by unfold frame; rw [hi]
      rw [frame_ext s q b r hi]
      rw [k] at h3
      cases e' : frameOf E h b { s with dec := { s.dec with inp := r } } with
      | go t =>
        rw [e'] at h3
        rw [(stays_frameOf hl hu b).go _ q t e']
        have s1 := frame_shrinks hu (k'.trans e')
        have s2 := frame_shrinks hu ((frame_ext s q b r hi).trans ((stays_frameOf hl hu b).go _ q t e'))
        exact framesIo_ext hu q n m t c e (by omega) (by omega) h3 h4 h5
      | stop c' r' =>
        rw [e'] at h3
        cases h3
        rw [(stays_frameOf hl hu b).stop _ q c e e' h4 h5]

omit hl in
/-- A stream that fails and one that ends. -/
theorem framesIo_frames : ∀ (n : Nat) (s : FSt σ), (framesIo E h n s).1 = (frames E h n s).1 ∧
    ((framesIo E h n s).2 = (frames E h n s).2 ∨
      (framesIo E h n s).2 = .rejected ∧ (frames E h n s).2 ≠ .ub)
  | 0, s => ⟨rfl, .inl rfl⟩
  | n + 1, s => by
    rw [framesIo, frames]
    cases hi : s.dec.inp with
    | nil =>
      have h1 : frameIo E h s = .stop s.ctx .rejected := by unfold frameIo; rw [hi]
      have h2 : frame E h s = .stop s.ctx (ended s.code) := by unfold frame; rw [hi]
      rw [h1, h2]
      refine ⟨rfl, .inr ⟨rfl, ?_⟩⟩
      dsimp only [ended]
      split <;> exact nofun
    | cons b r =>
      have : frameIo E h s = frame E h s := by unfold frameIo frame; rw [hi]
      rw [this]
      cases frame E h s with
      | go t => exact framesIo_frames n t
      | stop c r => exact ⟨rfl, .inl rfl⟩

end
end Cowl.Prt
