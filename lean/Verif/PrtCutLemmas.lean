import Verif.PrtCutSpec
import Verif.PrtHandlerLemmas
import Verif.PrtFrameLemmas
/-!
# Lemmas: reading with more input than before
-/
namespace Cowl.Prt
open Func (Item)

/-- More input. -/
def DSt.ext (s : DSt) (q : Str) : DSt := { s with inp := s.inp ++ q }

/-- What was read is read with more input too. -/
def Mono {α : Type} (x : Dec α) : Prop := ∀ s q a s', x s = .ok a s' → x (s.ext q) = .ok a (s'.ext q)

section
variable {α β : Type}

theorem Mono.pure (a : α) : Mono (pure a : Dec α) := fun _ _ _ _ h => by cases h; rfl

theorem Mono.fail : Mono (fail : Dec α) := fun _ _ _ _ h => by cases h

theorem Mono.unchecked (E : Env) : Mono (unchecked E : Dec α) := by
  intro s q a s' h
  unfold Prt.unchecked at h
  split at h <;> cases h

theorem Mono.bind {x : Dec α} {f : α → Dec β} (h : Mono x) (hf : ∀ a, Mono (f a)) : Mono (x >>= f) := by
  intro s q b s'' e
  simp only [bind_def, Dec.bind] at e ⊢
  cases hx : x s with
  | ok a s' =>
    rw [hx] at e
    rw [h s q a s' hx]
    exact hf a s' q b s'' e
  | err => rw [hx] at e; cases e
  | ub => rw [hx] at e; cases e

theorem Mono.ite {c : Prop} [Decidable c] {x y : Dec α} (h : Mono x) (h' : Mono y) : Mono (if c then x else y) := by
  split <;> assumption

end

section
variable {E : Env} (hl : E.u.Local)

theorem mono_byte : Mono byte := by
  intro s q a s' h
  unfold byte at h
  split at h
  · rename_i c r e
    cases h
    unfold byte DSt.ext
    rw [e]
    rfl
  · cases h

theorem mono_bytes (n : Nat) : Mono (bytes n) := by
  intro s q a s' h
  unfold bytes at h
  split at h
  · rename_i hn
    cases h
    unfold bytes DSt.ext
    dsimp only
    rw [if_pos (by rw [List.length_append]; omega), List.take_append_of_le_length hn, List.drop_append_of_le_length hn]
  · cases h

theorem mono_getId (k : Nat) : Mono (getId E k) := by
  intro s q a s' h
  cases e : s.ix.ids[k]? with
  | some i =>
    have h1 : getId E k s = .ok i s := by unfold getId; rw [e]
    have h2 : getId E k (s.ext q) = .ok i (s.ext q) := by
      unfold getId; rw [show (s.ext q).ix.ids[k]? = some i from e]
    rw [h1] at h; cases h; exact h2
  | none =>
    unfold getId at h
    rw [e] at h
    dsimp only at h
    split at h
    · rename_i hk
      cases h
      unfold getId
      rw [show (s.ext q).ix.ids[k]? = none from e]
      exact if_pos hk
    · cases h

theorem mono_getIri (k : Nat) : Mono (getIri E k) :=
  (mono_getId k).bind fun i => by cases i <;> first | exact Mono.pure _ | exact Mono.fail

theorem mono_getEnt (t : EntKind) (k : Nat) : Mono (getEnt E t k) :=
  (mono_getIri k).bind fun _ => Mono.pure _

theorem mono_getInd (k : Nat) : Mono (getInd E k) :=
  (mono_getId k).bind fun i => by cases i <;> exact Mono.pure _

theorem mono_getIriOrAnon (k : Nat) : Mono (getIriOrAnon E k) :=
  (mono_getId k).bind fun i => by cases i <;> exact Mono.pure _

theorem mono_ofLitRes (r : LitRes) : Mono (ofLitRes E r) := by
  cases r <;> first | exact Mono.pure _ | exact Mono.unchecked E

theorem mono_ofOpt (o : Option Obj) : Mono (ofOpt o) := by
  cases o <;> first | exact Mono.fail | exact Mono.pure _

theorem mono_orUnchecked (o : Option Obj) : Mono (orUnchecked E o) := by
  cases o <;> first | exact Mono.unchecked E | exact Mono.pure _

theorem mono_notNull {x : Dec (Option Obj)} (h : Mono x) : Mono (notNull x) :=
  h.bind fun o => by cases o <;> first | exact Mono.fail | exact Mono.pure _

theorem mono_decMany {x : Dec Obj} (h : Mono x) : ∀ n, Mono (decMany x n)
  | 0 => Mono.pure _
  | n + 1 => h.bind fun _ => (mono_decMany h n).bind fun _ => Mono.pure _

theorem mono_decIf {x : Dec Obj} (h : Mono x) (b : Bool) : Mono (decIf b x) :=
  Mono.ite (h.bind fun _ => Mono.pure _) (Mono.pure _)

theorem mono_whole {x : Dec Obj} (h : Mono x) : Mono (whole x) := h.bind fun _ => Mono.pure _

theorem mono_pushNs (n : Str) : Mono (pushNs n) := by
  intro s q a s' h; cases h; rfl

theorem mono_pushId (i : Id) : Mono (pushId i) := by
  intro s q a s' h; cases h; rfl

theorem mono_getNs (k : Nat) : Mono (getNs k) := by
  intro s q a s' h
  cases e : s.ix.nss[k]? with
  | some i =>
    have h1 : getNs k s = .ok i s := by unfold getNs; rw [e]
    have h2 : getNs k (s.ext q) = .ok i (s.ext q) := by
      unfold getNs; rw [show (s.ext q).ix.nss[k]? = some i from e]
    rw [h1] at h; cases h; exact h2
  | none => unfold getNs at h; rw [e] at h; cases h

include hl

theorem mono_varint : Mono (varint E) := by
  intro s q a s' h
  unfold varint at h
  split at h
  · rename_i e
    cases h
    unfold varint DSt.ext
    dsimp only
    rw [hl.varint q e]
  · cases h

theorem mono_svarint : Mono (svarint E) := by
  intro s q a s' h
  unfold svarint at h
  split at h
  · rename_i e
    cases h
    unfold svarint DSt.ext
    dsimp only
    rw [hl.svarint q e]
  · cases h

theorem mono_decStr : Mono (decStr E) := (mono_varint hl).bind fun n => mono_bytes n
theorem mono_decIri : Mono (decIri E) := (mono_varint hl).bind fun n => mono_getIri n
theorem mono_decEnt (t : EntKind) : Mono (decEnt E t) := (mono_varint hl).bind fun n => mono_getEnt t n
theorem mono_decInd : Mono (decInd E) := (mono_varint hl).bind fun n => mono_getInd n
theorem mono_decIriOrAnon : Mono (decIriOrAnon E) := (mono_varint hl).bind fun n => mono_getIriOrAnon n

theorem mono_decOpe : Mono (decOpe E) :=
  (mono_varint hl).bind fun _ => Mono.ite ((mono_decEnt hl .objProp).bind fun _ => Mono.pure _) (mono_getEnt _ _)

theorem mono_decValue (f : Nat) : Mono (decValue E f) := by
  unfold decValue
  split
  · exact mono_decStr hl
  · exact mono_byte.bind fun _ => Mono.ite (Mono.pure _) (Mono.ite (Mono.pure _) Mono.fail)
  · exact (mono_svarint hl).bind fun _ => Mono.pure _
  · exact (mono_varint hl).bind fun _ => Mono.pure _
  · exact (mono_svarint hl).bind fun _ => (mono_varint hl).bind fun _ => Mono.pure _
  · exact (mono_svarint hl).bind fun _ => (mono_varint hl).bind fun _ => (mono_svarint hl).bind fun _ => Mono.pure _
  · exact Mono.fail

theorem mono_decLit : Mono (decLit E) := by
  refine mono_byte.bind fun h => (mono_decValue hl _).bind fun v => ?_
  split
  · exact (mono_ofLitRes _).bind fun _ => Mono.pure _
  · exact (mono_decStr hl).bind fun _ => (mono_ofLitRes _).bind fun _ => Mono.pure _
  · exact (mono_decIri hl).bind fun _ => (mono_ofLitRes _).bind fun _ => Mono.pure _
  · exact Mono.pure _

theorem mono_decAnnotVal : Mono (decAnnotVal E) :=
  (mono_varint hl).bind fun _ => Mono.ite (mono_decLit hl) ((mono_getIriOrAnon _).bind fun _ => Mono.pure _)

theorem mono_decItems {x : Dec Obj} (h : Mono x) : Mono (decItems E x) :=
  (mono_varint hl).bind fun n => mono_decMany h n

theorem mono_decVec {x : Dec Obj} (h : Mono x) : Mono (decVec E x) :=
  (mono_decItems hl h).bind fun _ => Mono.pure _

theorem mono_decFacet : Mono (decFacet E) :=
  (mono_decIri hl).bind fun _ => (mono_notNull (mono_decLit hl)).bind fun _ => Mono.pure _

theorem mono_decAnnots {x : Dec Obj} (h : Mono x) (b : Bool) : Mono (decAnnots E x b) :=
  Mono.ite ((mono_decItems hl h).bind fun _ => Mono.pure _) (Mono.pure _)

theorem mono_annotIri (k : Nat) : Mono (annotIri E k) := Mono.ite (mono_decIri hl) (mono_getIri _)

theorem mono_decObjQuant {x : Dec Obj} (h : Mono x) (q : Nat) : Mono (decObjQuant E x q) :=
  (mono_decOpe hl).bind fun _ => h.bind fun _ => mono_ofOpt _

theorem mono_decDataQuant {x : Dec Obj} (h : Mono x) (q : Nat) : Mono (decDataQuant E x q) :=
  (mono_decEnt hl _).bind fun _ => h.bind fun _ => mono_ofOpt _

theorem mono_decObjCard {x : Dec Obj} (h : Mono x) (q : Nat) : Mono (decObjCard E x q) :=
  (mono_varint hl).bind fun _ => (mono_decOpe hl).bind fun _ => (mono_decIf h _).bind fun _ => mono_ofOpt _

theorem mono_decDataCard {x : Dec Obj} (h : Mono x) (q : Nat) : Mono (decDataCard E x q) :=
  (mono_varint hl).bind fun _ => (mono_decEnt hl _).bind fun _ => (mono_decIf h _).bind fun _ => mono_ofOpt _

theorem mono_drStep {x : Dec Obj} (h : Mono x) : Mono (drStep E x) := by
  refine (mono_varint hl).bind fun t => Mono.ite (mono_getEnt _ _) ?_
  split
  · exact (mono_decEnt hl _).bind fun _ => (mono_decVec hl (mono_decFacet hl)).bind fun _ => Mono.pure _
  · exact (mono_decVec hl h).bind fun _ => Mono.pure _
  · exact (mono_decVec hl h).bind fun _ => Mono.pure _
  · exact h.bind fun _ => Mono.pure _
  · exact (mono_decVec hl (mono_notNull (mono_decLit hl))).bind fun _ => Mono.pure _
  · exact Mono.fail

theorem mono_decDR : ∀ n, Mono (decDR E n)
  | 0 => Mono.fail
  | n + 1 => mono_drStep hl (mono_decDR n)

theorem mono_ceStep {x y : Dec Obj} (hd : Mono x) (h : Mono y) : Mono (ceStep E x y) := by
  refine (mono_varint hl).bind fun t => Mono.ite (mono_getEnt _ _) ?_
  split
  · exact mono_decObjQuant hl h _
  · exact mono_decObjQuant hl h _
  · exact mono_decObjCard hl h _
  · exact mono_decObjCard hl h _
  · exact mono_decObjCard hl h _
  · exact (mono_decOpe hl).bind fun _ => (mono_decInd hl).bind fun _ => Mono.pure _
  · exact (mono_decOpe hl).bind fun _ => Mono.pure _
  · exact mono_decDataQuant hl hd _
  · exact mono_decDataQuant hl hd _
  · exact mono_decDataCard hl hd _
  · exact mono_decDataCard hl hd _
  · exact mono_decDataCard hl hd _
  · exact (mono_decEnt hl _).bind fun _ => (mono_decLit hl).bind fun _ => (mono_orUnchecked _).bind fun _ => Mono.pure _
  · exact (mono_decVec hl h).bind fun _ => Mono.pure _
  · exact (mono_decVec hl h).bind fun _ => Mono.pure _
  · exact h.bind fun _ => Mono.pure _
  · exact (mono_decVec hl (mono_decInd hl)).bind fun _ => Mono.pure _
  · exact Mono.fail

theorem mono_decCE : ∀ n, Mono (decCE E n)
  | 0 => Mono.fail
  | n + 1 => mono_ceStep hl (mono_decDR hl (n + 1)) (mono_decCE n)

theorem mono_decAnnot : ∀ n, Mono (decAnnot E n)
  | 0 => Mono.fail
  | n + 1 => (mono_varint hl).bind fun _ => (mono_annotIri hl _).bind fun _ => (mono_notNull (mono_decAnnotVal hl)).bind fun _ =>
      (mono_decAnnots hl (mono_decAnnot n) _).bind fun _ => Mono.pure _

theorem mono_decField (n : Nat) (f : FK) : Mono (decField E n f) := by
  cases f with
  | ce => exact mono_whole (mono_decCE hl n)
  | dr => exact mono_whole (mono_decDR hl n)
  | ind => exact mono_whole (mono_decInd hl)
  | ope => exact mono_whole (mono_decOpe hl)
  | iri => exact (mono_decIri hl).bind fun _ => Mono.pure _
  | iriOrAnon => exact mono_whole (mono_decIriOrAnon hl)
  | lit => exact mono_decLit hl
  | aval => exact mono_decAnnotVal hl
  | ent t => exact mono_whole (mono_decEnt hl t)
  | vecCE => exact mono_whole (mono_decVec hl (mono_decCE hl n))
  | vecInd => exact mono_whole (mono_decVec hl (mono_decInd hl))
  | vecOpe => exact mono_whole (mono_decVec hl (mono_decOpe hl))
  | vecDpe => exact mono_whole (mono_decVec hl (mono_decEnt hl _))

theorem mono_decFields (n : Nat) : ∀ fs, Mono (decFields E n fs)
  | [] => Mono.pure _
  | f :: fs => (mono_decField hl n f).bind fun _ => (mono_decFields n fs).bind fun _ => Mono.pure _

omit hl in
theorem mono_allWhole (os : List (Option Obj)) : Mono (allWhole E os) := by
  unfold allWhole
  split
  · exact Mono.pure _
  · exact Mono.unchecked E

theorem mono_decPlain (n : Nat) (t : OType) (fs : List FK) (b : Bool) : Mono (decPlain E n t fs b) :=
  (mono_decFields hl n fs).bind fun _ => (mono_decAnnots hl (mono_decAnnot hl n) b).bind fun _ =>
    (mono_allWhole _).bind fun _ => Mono.pure _

theorem mono_decSubSup (c : Bool) : Mono (decSubSup E c) := by
  have : Mono (decSubOpe E c) :=
    Mono.ite ((mono_decItems hl (mono_decOpe hl)).bind fun _ => Mono.pure _) (mono_decOpe hl)
  exact this.bind fun _ => (mono_decOpe hl).bind fun _ => Mono.pure _

/-- An axiom that was read in whole is read with more input too; otherwise it is a
sub-property axiom. -/
def MonoA (E : Env) (x : Dec (Obj × Bool)) : Prop := ∀ s q a s', x s = .ok a s' →
  (a.2 = true → x (s.ext q) = .ok a (s'.ext q)) ∧ (a.2 = false → E.checked = false ∧ a.1.otype = .aSubObjProp)

omit hl in
theorem Mono.noLate {x : Dec Obj} (h : Mono x) : MonoA E (noLate x) := by
  intro s q a s' e
  have : Mono (Prt.noLate x) := h.bind fun _ => Mono.pure _
  refine ⟨fun _ => this s q a s' e, fun h' => ?_⟩
  unfold Prt.noLate at e
  simp only [bind_def, Dec.bind] at e
  cases hx : x s with
  | ok b t => rw [hx] at e; cases e; cases h'
  | err => rw [hx] at e; cases e
  | ub => rw [hx] at e; cases e

theorem mono_decSubObjProp (n : Nat) (c b : Bool) : MonoA E (decSubObjProp E n c b) := by
  intro s q a s' e
  unfold decSubObjProp at e ⊢
  cases hx : decSubSup E c s with
  | ub => rw [hx] at e; cases e
  | err => rw [hx] at e; dsimp only at e; split at e <;> cases e
  | ok p t =>
    rw [hx] at e
    rw [mono_decSubSup hl c s q p t hx]
    dsimp only at e ⊢
    cases hy : decAnnots E (decAnnot E n) b t with
    | ub => rw [hy] at e; cases e
    | err =>
      rw [hy] at e
      dsimp only at e
      split at e
      · cases e
      · rename_i hc
        cases e
        exact ⟨(fun h => by cases h), fun _ => ⟨by simpa using hc, rfl⟩⟩
    | ok as t' =>
      rw [hy] at e
      cases e
      rw [mono_decAnnots hl (mono_decAnnot hl n) b t q as s' hy]
      exact ⟨fun _ => rfl, fun h => by cases h⟩

theorem mono_decAxiom (n : Nat) (c : UInt8) : MonoA E (decAxiom E n c) := by
  have hf : MonoA E (fail : Dec (Obj × Bool)) := fun _ _ _ _ e => by cases e
  unfold decAxiom
  dsimp only
  split
  · exact Mono.noLate ((mono_decEnt hl _).bind fun _ => (mono_decAnnots hl (mono_decAnnot hl n) _).bind fun _ => Mono.pure _)
  · split
    · exact mono_decSubObjProp hl n _ _
    · split
      · exact Mono.noLate (mono_decPlain hl n _ _ _)
      · exact hf
    · exact hf

end

/-! ## Frames -/

section
variable {E : Env}

theorem begins_mono {r : List (Bool × Item) × End} {w w' : List (Bool × Item)} (h : Begins E r w) (hw : w <+: w') :
    Begins E r w' := by
  rcases h with h | ⟨h1, h2, l, rm, o, h3, h4, h5⟩
  · exact .inl (h.trans hw)
  · exact .inr ⟨h1, h2, l, rm, o, h3, h4, h5.trans hw⟩

/-- More input between frames. -/
def FSt.ext {σ : Type} (s : FSt σ) (q : Str) : FSt σ := { s with dec := s.dec.ext q }

/-- A part of a frame does the same with more input, if it comes to its end without. -/
structure Grow (E : Env) (f : FSt (List (Bool × Item)) → FRes (List (Bool × Item))) : Prop where
  log : ∀ s, s.ctx <+: (f s).log
  go : ∀ s q s', f s = .go s' → f (s.ext q) = .go (s'.ext q)
  stop : ∀ s q c r, f s = .stop c r → Begins E (c, r) (f (s.ext q)).log

theorem Grow.andThen {f g : FSt (List (Bool × Item)) → FRes (List (Bool × Item))} (hf : Grow E f) (hg : Grow E g) :
    Grow E (fun s => (f s).andThen g) := by
  have hlog : ∀ s, (f s).log <+: ((f s).andThen g).log := by
    intro s
    cases h : f s with
    | go t => exact hg.log t
    | stop c r => exact List.prefix_refl _
  refine ⟨fun s => (hf.log s).trans (hlog s), fun s q s' e => ?_, fun s q c r e => ?_⟩
  · show (f (s.ext q)).andThen g = _
    have e : (f s).andThen g = _ := e
    cases h : f s with
    | go t =>
      rw [h] at e
      rw [hf.go s q t h]
      exact hg.go t q s' e
    | stop c r => rw [h] at e; cases e
  · show Begins E (c, r) ((f (s.ext q)).andThen g).log
    have e : (f s).andThen g = _ := e
    cases h : f s with
    | go t =>
      rw [h] at e
      rw [hf.go s q t h]
      exact hg.stop t q c r e
    | stop c' r' =>
      rw [h] at e
      cases e
      exact begins_mono (hf.stop s q c r h) (hlog _)

theorem get_ok {σ α : Type} {s : FSt σ} {x : Dec α} {k : α → FSt σ → FRes σ} {a : α} {d : DSt} (e : x s.dec = .ok a d) :
    s.get x k = k a { s with dec := d } := by unfold FSt.get; rw [e]

theorem get_err {σ α : Type} {s : FSt σ} {x : Dec α} {k : α → FSt σ → FRes σ} (e : x s.dec = .err) :
    s.get x k = .stop s.ctx .rejected := by unfold FSt.get; rw [e]

theorem get_ub {σ α : Type} {s : FSt σ} {x : Dec α} {k : α → FSt σ → FRes σ} (e : x s.dec = .ub) :
    s.get x k = .stop s.ctx .ub := by unfold FSt.get; rw [e]

theorem Grow.get {α : Type} {x : Str → Dec α} {f : α → FSt (List (Bool × Item)) → FRes (List (Bool × Item))}
    (hx : ∀ s q a s', x s.inp s = .ok a s' → x (s.inp ++ q) (s.ext q) = .ok a (s'.ext q)) (hf : ∀ a, Grow E (f a)) :
    Grow E (fun s => s.get (x s.dec.inp) f) := by
  have hlog : ∀ s : FSt (List (Bool × Item)), s.ctx <+: (s.get (x s.dec.inp) f).log := by
    intro s
    cases h : x s.dec.inp s.dec with
    | ok a d => rw [get_ok h]; exact (hf a).log { s with dec := d }
    | err => rw [get_err h]; exact List.prefix_refl _
    | ub => rw [get_ub h]; exact List.prefix_refl _
  refine ⟨hlog, fun s q s' e => ?_, fun s q c r e => ?_⟩
  · have e : s.get (x s.dec.inp) f = _ := e
    show (s.ext q).get (x (s.dec.inp ++ q)) f = _
    cases h : x s.dec.inp s.dec with
    | ok a d =>
      rw [get_ok h] at e
      rw [get_ok (s := s.ext q) (hx s.dec q a d h)]
      exact (hf a).go { s with dec := d } q s' e
    | err => rw [get_err h] at e; cases e
    | ub => rw [get_ub h] at e; cases e
  · have e : s.get (x s.dec.inp) f = _ := e
    have hl : s.ctx <+: ((s.ext q).get (x (s.dec.inp ++ q)) f).log := hlog (s.ext q)
    show Begins E (c, r) ((s.ext q).get (x (s.dec.inp ++ q)) f).log
    cases h : x s.dec.inp s.dec with
    | ok a d =>
      rw [get_ok h] at e
      rw [get_ok (s := s.ext q) (hx s.dec q a d h)]
      exact (hf a).stop { s with dec := d } q c r e
    | err => rw [get_err h] at e; cases e; exact .inl hl
    | ub => rw [get_ub h] at e; cases e; exact .inl hl

theorem grow_go {f : DSt → DSt} {r : Bool → Bool} {p : Bool} (hf : ∀ d q, f (d.ext q) = (f d).ext q) :
    Grow E (fun s => .go { s with dec := f s.dec, remove := r s.remove, code := if p then .ok else s.code }) := by
  refine ⟨fun s => List.prefix_refl _, fun s q s' e => ?_, fun s q c r e => by cases e⟩
  cases e
  dsimp only [FSt.ext]
  rw [hf]

theorem grow_id : Grow E FRes.go := grow_go (f := id) (r := id) (p := false) fun _ _ => rfl

theorem grow_deliver (i : Item) : Grow E (deliver noteAll i) :=
  ⟨fun s => List.prefix_append _ _, fun s q s' e => by cases e; rfl, fun s q c r e => by cases e⟩

theorem Grow.times {f : FSt (List (Bool × Item)) → FRes (List (Bool × Item))} (h : Grow E f) : ∀ n, Grow E (times f n)
  | 0 => grow_id
  | n + 1 => h.andThen (Grow.times h n)

theorem Grow.ite {p : Bool} {f g : FSt (List (Bool × Item)) → FRes (List (Bool × Item))} (h : Grow E f) (h' : Grow E g) :
    Grow E (fun s => if p then f s else g s) := by
  cases p
  · exact h'
  · exact h

variable (hl : E.u.Local)
include hl

theorem Grow.counted {f : FSt (List (Bool × Item)) → FRes (List (Bool × Item))} (h : Grow E f) : Grow E (counted E f) :=
  Grow.get (x := fun _ => varint E) (fun s q => mono_varint hl s q) h.times

omit hl in
theorem grow_quiet {x : Dec Unit} (h : Mono x) : Grow E (quiet x) :=
  Grow.get (x := fun _ => x) (fun s q => h s q) fun _ => grow_id

theorem grow_axiomFrame (hu : E.u.Lawful) (c : UInt8) : Grow E (axiomFrame E noteAll c) := by
  have hlog : ∀ s, s.ctx <+: (axiomFrame E noteAll c s).log := by
    intro s
    unfold axiomFrame
    cases h : decAxiom E (s.dec.inp.length + 1) c s.dec with
    | ok a d =>
      rw [get_ok h]
      split <;> exact List.prefix_append _ _
    | err => rw [get_err h]; exact List.prefix_refl _
    | ub => rw [get_ub h]; exact List.prefix_refl _
  have hstep : ∀ (s : DSt) q a s', decAxiom E (s.inp.length + 1) c s = .ok a s' →
      (a.2 = true → decAxiom E ((s.ext q).inp.length + 1) c (s.ext q) = .ok a (s'.ext q)) ∧
      (a.2 = false → E.checked = false ∧ a.1.otype = .aSubObjProp) := by
    intro s q a s' e
    have hle : s.inp.length + 1 ≤ (s.ext q).inp.length + 1 := by
      simp [DSt.ext]
    rw [(le_decAxiom hu (Nat.lt_succ_self _) hle c s (Nat.le_refl _)).1] at e
    exact mono_decAxiom hl _ c s q a s' e
  refine ⟨hlog, fun s q s' e => ?_, fun s q c' r e => ?_⟩
  · unfold axiomFrame at e ⊢
    cases h : decAxiom E (s.dec.inp.length + 1) c s.dec with
    | ok a d =>
      rw [get_ok h] at e
      split at e
      · rename_i ha
        refine (get_ok (s := s.ext q) ((hstep _ q _ _ h).1 ha)).trans ?_
        rw [if_pos ha]
        exact (grow_deliver (E := E) (.ax a.1)).go { s with dec := d } q s' e
      · cases e
    | err => rw [get_err h] at e; cases e
    | ub => rw [get_ub h] at e; cases e
  · have hl := hlog (s.ext q)
    unfold axiomFrame at e
    cases h : decAxiom E (s.dec.inp.length + 1) c s.dec with
    | ok a d =>
      rw [get_ok h] at e
      split at e
      · cases e
      · rename_i ha
        cases e
        obtain ⟨h1, h2⟩ := (hstep _ q _ _ h).2 (by simpa using ha)
        exact .inr ⟨h1, rfl, s.ctx, s.remove, a.1, rfl, h2, hl⟩
    | err => rw [get_err h] at e; cases e; exact .inl hl
    | ub => rw [get_ub h] at e; cases e; exact .inl hl

theorem grow_frameOf (hu : E.u.Lawful) (c : UInt8) : Grow E (frameOf E noteAll c) := by
  have hi : ∀ {f : Iri → Item}, Grow E (fun s => s.get (decIri E) fun i s => deliver noteAll (f i) s) := fun {f} =>
    Grow.get (x := fun _ => decIri E) (fun s q => mono_decIri hl s q) fun i => grow_deliver (f i)
  unfold frameOf
  split
  · exact grow_go (f := id) (r := fun _ => false) (p := false) fun _ _ => rfl
  · exact grow_go (f := id) (r := fun _ => true) (p := false) fun _ _ => rfl
  · exact grow_go (f := fun d => { d with ix := d.ix.reset (bit6 c) (bit7 c) }) (r := id) (p := bit6 c || bit7 c) fun _ _ => rfl
  · exact ⟨fun s => List.prefix_refl _, (fun s q s' e => by cases e), (fun s q c r e => by cases e; exact .inl (List.prefix_refl _))⟩
  · refine Grow.ite (Grow.counted hl (Grow.get (x := fun _ => decPfx E) (fun s q => ?_) fun d => grow_deliver (.prefixDecl d.1 d.2)))
      (Grow.counted hl (Grow.get (x := fun _ => decNs E) (fun s q => ((mono_decStr hl).bind fun _ => mono_pushNs _ : Mono (decNs E)) s q)
        fun _ => grow_go (f := id) (r := id) (p := true) fun _ _ => rfl))
    exact ((mono_decStr hl).bind fun _ => (mono_decStr hl).bind fun _ => (mono_pushNs _).bind fun _ => Mono.pure _ : Mono (decPfx E)) s q
  · exact Grow.ite
      (Grow.counted hl (grow_quiet ((mono_varint hl).bind fun _ => (mono_decStr hl).bind fun _ => (mono_getNs _).bind fun _ => mono_pushId _)))
      (Grow.counted hl (grow_quiet ((mono_decStr hl).bind fun _ => mono_pushId _)))
  · exact Grow.andThen hi (Grow.ite hi grow_id)
  · exact Grow.counted hl hi
  · refine Grow.counted hl (Grow.get (x := fun i => decAnnot E (i.length + 1)) (fun s q a s' e => ?_) fun a => grow_deliver (.annot a))
    have hle : s.inp.length + 1 ≤ (s.inp ++ q).length + 1 := by simp
    rw [(le_decAnnot hu _ _ (Nat.lt_succ_self _) _ hle s (Nat.le_refl _)).1] at e
    exact mono_decAnnot hl _ s q a s' e
  · exact grow_axiomFrame hl hu c

theorem grow_frame (hu : E.u.Lawful) : Grow E (frame E noteAll) := by
  have hlog : ∀ s, s.ctx <+: (frame E noteAll s).log := by
    intro s
    unfold frame
    split
    · exact List.prefix_refl _
    · rename_i c r _
      exact (grow_frameOf hl hu c).log { s with dec := { s.dec with inp := r } }
  have hcons : ∀ (s : FSt (List (Bool × Item))) (q : Str) (c : UInt8) (r : Str), s.dec.inp = c :: r →
      frame E noteAll (s.ext q) = frameOf E noteAll c (FSt.ext { s with dec := { s.dec with inp := r } } q) := by
    intro s q c r e
    unfold frame
    dsimp only [FSt.ext, DSt.ext]
    rw [e]
    rfl
  refine ⟨hlog, fun s q s' e => ?_, fun s q c r e => ?_⟩
  · unfold frame at e
    split at e
    · cases e
    · rename_i c r hi
      rw [hcons s q c r hi]
      exact (grow_frameOf hl hu c).go _ q s' e
  · have h0 := hlog (s.ext q)
    unfold frame at e
    split at e
    · cases e
      exact .inl h0
    · rename_i c' r' hi
      rw [hcons s q c' r' hi]
      exact (grow_frameOf hl hu c').stop _ q c r e

theorem frames_begin (hu : E.u.Lawful) (q : Str) : ∀ (n m : Nat) (s : FSt (List (Bool × Item))), s.dec.inp.length < n →
    (s.ext q).dec.inp.length < m → Begins E (frames E noteAll n s) (frames E noteAll m (s.ext q)).1
  | 0, _, _, h, _ => by omega
  | _ + 1, 0, _, _, h => by omega
  | n + 1, m + 1, s, h, h' => by
    rw [frames, frames]
    cases e : frame E noteAll s with
    | go t =>
      have e' := (grow_frame hl hu).go s q t e
      rw [e']
      have h1 := frame_shrinks hu e
      have h2 := frame_shrinks hu e'
      exact frames_begin hu q n m t (by omega) (by omega)
    | stop c r =>
      refine begins_mono ((grow_frame hl hu).stop s q c r e) ?_
      cases e' : frame E noteAll (s.ext q) with
      | stop c' r' => exact List.prefix_refl _
      | go t =>
        obtain ⟨k, hk⟩ := frames_log E m t
        exact ⟨k, hk.symm⟩

end
end Cowl.Prt
