import Verif.PrtDoc
import Verif.PrtFuelLemmas
/-!
# Lemmas: the decoder with and without the checks that the program lacks
-/
namespace Cowl.Prt
open Func (Item)

/-- The same, with the checks that the program lacks. -/
def Env.check (E : Env) : Env := { E with checked := true }

/-- The second function is never undefined; the first one does the same, or is undefined
where the second one is an error. -/
def Sim {α : Type} (x y : Dec α) : Prop := ∀ s, y s ≠ .ub ∧ ((x s = .ub ∧ y s = .err) ∨ x s = y s)

section
variable {α β : Type}

theorem Sim.pure (a : α) : Sim (pure a : Dec α) (Pure.pure a) := fun _ => ⟨nofun, .inr rfl⟩
theorem Sim.fail : Sim (fail : Dec α) fail := fun _ => ⟨nofun, .inr rfl⟩

theorem Sim.unchecked (E : Env) : Sim (unchecked E : Dec α) (unchecked E.check) := by
  intro s
  unfold Prt.unchecked
  refine ⟨nofun, ?_⟩
  cases E.checked
  · exact .inl ⟨rfl, rfl⟩
  · exact .inr rfl

theorem Sim.bind {x y : Dec α} {f g : α → Dec β} (h : Sim x y) (hf : ∀ a, Sim (f a) (g a)) :
    Sim (x >>= f) (y >>= g) := by
  intro s
  simp only [bind_def, Dec.bind]
  obtain ⟨h1, h2⟩ := h s
  cases hy : y s with
  | ub => exact absurd hy h1
  | err =>
    refine ⟨nofun, ?_⟩
    rcases h2 with ⟨h2, -⟩ | h2 <;> rw [h2]
    · exact .inl ⟨rfl, rfl⟩
    · rw [hy]; exact .inr rfl
  | ok a s' =>
    refine ⟨(hf a s').1, ?_⟩
    rcases h2 with ⟨-, h2⟩ | h2
    · rw [hy] at h2; cases h2
    · rw [h2, hy]; exact (hf a s').2

theorem Sim.ite {c : Prop} [Decidable c] {x y x' y' : Dec α} (h : Sim x x') (h' : Sim y y') :
    Sim (if c then x else y) (if c then x' else y') := by split <;> assumption

end

section
variable {E : Env}

theorem sim_varint : Sim (varint E) (varint E.check) := by
  intro s
  refine ⟨?_, .inr rfl⟩
  unfold varint; split <;> nofun

theorem sim_svarint : Sim (svarint E) (svarint E.check) := by
  intro s
  refine ⟨?_, .inr rfl⟩
  unfold svarint; split <;> nofun

theorem sim_byte : Sim byte byte := by
  intro s
  refine ⟨?_, .inr rfl⟩
  unfold byte; split <;> nofun

theorem sim_bytes (n : Nat) : Sim (bytes n) (bytes n) := by
  intro s
  refine ⟨?_, .inr rfl⟩
  unfold bytes; split <;> nofun

theorem sim_decStr : Sim (decStr E) (decStr E.check) := sim_varint.bind fun n => sim_bytes n

theorem sim_getId (k : Nat) : Sim (getId E k) (getId E.check k) := by
  intro s
  refine ⟨?_, .inr rfl⟩
  unfold getId
  split
  · nofun
  · split <;> nofun

theorem sim_getIri (k : Nat) : Sim (getIri E k) (getIri E.check k) :=
  (sim_getId k).bind fun i => by cases i <;> first | exact Sim.pure _ | exact Sim.fail

theorem sim_getEnt (t : EntKind) (k : Nat) : Sim (getEnt E t k) (getEnt E.check t k) :=
  (sim_getIri k).bind fun _ => Sim.pure _

theorem sim_getInd (k : Nat) : Sim (getInd E k) (getInd E.check k) :=
  (sim_getId k).bind fun i => by cases i <;> exact Sim.pure _

theorem sim_getIriOrAnon (k : Nat) : Sim (getIriOrAnon E k) (getIriOrAnon E.check k) :=
  (sim_getId k).bind fun i => by cases i <;> exact Sim.pure _

theorem sim_ofLitRes (r : LitRes) : Sim (ofLitRes E r) (ofLitRes E.check r) := by
  cases r <;> first | exact Sim.pure _ | exact Sim.unchecked E

theorem sim_ofOpt (o : Option Obj) : Sim (ofOpt o) (ofOpt o) := by
  cases o <;> first | exact Sim.fail | exact Sim.pure _

theorem sim_orUnchecked (o : Option Obj) : Sim (orUnchecked E o) (orUnchecked E.check o) := by
  cases o <;> first | exact Sim.unchecked E | exact Sim.pure _

theorem sim_notNull {x y : Dec (Option Obj)} (h : Sim x y) : Sim (notNull x) (notNull y) :=
  h.bind fun o => by cases o <;> first | exact Sim.fail | exact Sim.pure _

theorem sim_decMany {x y : Dec Obj} (h : Sim x y) : ∀ n, Sim (decMany x n) (decMany y n)
  | 0 => Sim.pure _
  | n + 1 => h.bind fun _ => (sim_decMany h n).bind fun _ => Sim.pure _

theorem sim_decIf {x y : Dec Obj} (h : Sim x y) (b : Bool) : Sim (decIf b x) (decIf b y) :=
  Sim.ite (h.bind fun _ => Sim.pure _) (Sim.pure _)

theorem sim_whole {x y : Dec Obj} (h : Sim x y) : Sim (whole x) (whole y) := h.bind fun _ => Sim.pure _

theorem sim_decIri : Sim (decIri E) (decIri E.check) := sim_varint.bind fun n => sim_getIri n
theorem sim_decEnt (t : EntKind) : Sim (decEnt E t) (decEnt E.check t) := sim_varint.bind fun n => sim_getEnt t n
theorem sim_decInd : Sim (decInd E) (decInd E.check) := sim_varint.bind fun n => sim_getInd n
theorem sim_decIriOrAnon : Sim (decIriOrAnon E) (decIriOrAnon E.check) := sim_varint.bind fun n => sim_getIriOrAnon n

theorem sim_decOpe : Sim (decOpe E) (decOpe E.check) :=
  sim_varint.bind fun _ => Sim.ite ((sim_decEnt .objProp).bind fun _ => Sim.pure _) (sim_getEnt _ _)

theorem sim_decValue (f : Nat) : Sim (decValue E f) (decValue E.check f) := by
  unfold decValue
  split
  · exact sim_decStr
  · exact sim_byte.bind fun _ => Sim.ite (Sim.pure _) (Sim.ite (Sim.pure _) Sim.fail)
  · exact sim_svarint.bind fun _ => Sim.pure _
  · exact sim_varint.bind fun _ => Sim.pure _
  · exact sim_svarint.bind fun _ => sim_varint.bind fun _ => Sim.pure _
  · exact sim_svarint.bind fun _ => sim_varint.bind fun _ => sim_svarint.bind fun _ => Sim.pure _
  · exact Sim.fail

theorem sim_decLit : Sim (decLit E) (decLit E.check) := by
  refine sim_byte.bind fun h => (sim_decValue _).bind fun v => ?_
  split
  · exact (sim_ofLitRes _).bind fun _ => Sim.pure _
  · exact sim_decStr.bind fun _ => (sim_ofLitRes _).bind fun _ => Sim.pure _
  · exact sim_decIri.bind fun _ => (sim_ofLitRes _).bind fun _ => Sim.pure _
  · exact Sim.pure _

theorem sim_decAnnotVal : Sim (decAnnotVal E) (decAnnotVal E.check) :=
  sim_varint.bind fun _ => Sim.ite sim_decLit ((sim_getIriOrAnon _).bind fun _ => Sim.pure _)

theorem sim_decItems {x y : Dec Obj} (h : Sim x y) : Sim (decItems E x) (decItems E.check y) :=
  sim_varint.bind fun n => sim_decMany h n

theorem sim_decVec {x y : Dec Obj} (h : Sim x y) : Sim (decVec E x) (decVec E.check y) :=
  (sim_decItems h).bind fun _ => Sim.pure _

theorem sim_decFacet : Sim (decFacet E) (decFacet E.check) :=
  sim_decIri.bind fun _ => (sim_notNull sim_decLit).bind fun _ => Sim.pure _

theorem sim_decAnnots {x y : Dec Obj} (h : Sim x y) (b : Bool) : Sim (decAnnots E x b) (decAnnots E.check y b) :=
  Sim.ite ((sim_decItems h).bind fun _ => Sim.pure _) (Sim.pure _)

theorem sim_annotIri (k : Nat) : Sim (annotIri E k) (annotIri E.check k) := Sim.ite sim_decIri (sim_getIri _)

theorem sim_decObjQuant {x y : Dec Obj} (h : Sim x y) (q : Nat) : Sim (decObjQuant E x q) (decObjQuant E.check y q) :=
  sim_decOpe.bind fun _ => h.bind fun _ => sim_ofOpt _

theorem sim_decDataQuant {x y : Dec Obj} (h : Sim x y) (q : Nat) : Sim (decDataQuant E x q) (decDataQuant E.check y q) :=
  (sim_decEnt _).bind fun _ => h.bind fun _ => sim_ofOpt _

theorem sim_decObjCard {x y : Dec Obj} (h : Sim x y) (q : Nat) : Sim (decObjCard E x q) (decObjCard E.check y q) :=
  sim_varint.bind fun _ => sim_decOpe.bind fun _ => (sim_decIf h _).bind fun _ => sim_ofOpt _

theorem sim_decDataCard {x y : Dec Obj} (h : Sim x y) (q : Nat) : Sim (decDataCard E x q) (decDataCard E.check y q) :=
  sim_varint.bind fun _ => (sim_decEnt _).bind fun _ => (sim_decIf h _).bind fun _ => sim_ofOpt _

theorem sim_drStep {x y : Dec Obj} (h : Sim x y) : Sim (drStep E x) (drStep E.check y) := by
  refine sim_varint.bind fun t => Sim.ite (sim_getEnt _ _) ?_
  split
  · exact (sim_decEnt _).bind fun _ => (sim_decVec sim_decFacet).bind fun _ => Sim.pure _
  · exact (sim_decVec h).bind fun _ => Sim.pure _
  · exact (sim_decVec h).bind fun _ => Sim.pure _
  · exact h.bind fun _ => Sim.pure _
  · exact (sim_decVec (sim_notNull sim_decLit)).bind fun _ => Sim.pure _
  · exact Sim.fail

theorem sim_decDR : ∀ n, Sim (decDR E n) (decDR E.check n)
  | 0 => Sim.fail
  | n + 1 => sim_drStep (sim_decDR n)

theorem sim_ceStep {x y x' y' : Dec Obj} (hd : Sim x x') (h : Sim y y') :
    Sim (ceStep E x y) (ceStep E.check x' y') := by
  refine sim_varint.bind fun t => Sim.ite (sim_getEnt _ _) ?_
  split
  · exact sim_decObjQuant h _
  · exact sim_decObjQuant h _
  · exact sim_decObjCard h _
  · exact sim_decObjCard h _
  · exact sim_decObjCard h _
  · exact sim_decOpe.bind fun _ => sim_decInd.bind fun _ => Sim.pure _
  · exact sim_decOpe.bind fun _ => Sim.pure _
  · exact sim_decDataQuant hd _
  · exact sim_decDataQuant hd _
  · exact sim_decDataCard hd _
  · exact sim_decDataCard hd _
  · exact sim_decDataCard hd _
  · exact (sim_decEnt _).bind fun _ => sim_decLit.bind fun _ => (sim_orUnchecked _).bind fun _ => Sim.pure _
  · exact (sim_decVec h).bind fun _ => Sim.pure _
  · exact (sim_decVec h).bind fun _ => Sim.pure _
  · exact h.bind fun _ => Sim.pure _
  · exact (sim_decVec sim_decInd).bind fun _ => Sim.pure _
  · exact Sim.fail

theorem sim_decCE : ∀ n, Sim (decCE E n) (decCE E.check n)
  | 0 => Sim.fail
  | n + 1 => sim_ceStep (sim_decDR (n + 1)) (sim_decCE n)

theorem sim_decAnnot : ∀ n, Sim (decAnnot E n) (decAnnot E.check n)
  | 0 => Sim.fail
  | n + 1 => sim_varint.bind fun _ => (sim_annotIri _).bind fun _ => (sim_notNull sim_decAnnotVal).bind fun _ =>
      (sim_decAnnots (sim_decAnnot n) _).bind fun _ => Sim.pure _

theorem sim_decField (n : Nat) (f : FK) : Sim (decField E n f) (decField E.check n f) := by
  cases f with
  | ce => exact sim_whole (sim_decCE n)
  | dr => exact sim_whole (sim_decDR n)
  | ind => exact sim_whole sim_decInd
  | ope => exact sim_whole sim_decOpe
  | iri => exact sim_decIri.bind fun _ => Sim.pure _
  | iriOrAnon => exact sim_whole sim_decIriOrAnon
  | lit => exact sim_decLit
  | aval => exact sim_decAnnotVal
  | ent k => exact sim_whole (sim_decEnt k)
  | vecCE => exact sim_whole (sim_decVec (sim_decCE n))
  | vecInd => exact sim_whole (sim_decVec sim_decInd)
  | vecOpe => exact sim_whole (sim_decVec sim_decOpe)
  | vecDpe => exact sim_whole (sim_decVec (sim_decEnt _))

theorem sim_decFields (n : Nat) : ∀ fs, Sim (decFields E n fs) (decFields E.check n fs)
  | [] => Sim.pure _
  | f :: fs => (sim_decField n f).bind fun _ => (sim_decFields n fs).bind fun _ => Sim.pure _

theorem sim_allWhole (os : List (Option Obj)) : Sim (allWhole E os) (allWhole E.check os) := by
  unfold allWhole
  split
  · exact Sim.pure _
  · exact Sim.unchecked E

theorem sim_decPlain (n : Nat) (t : OType) (fs : List FK) (b : Bool) :
    Sim (decPlain E n t fs b) (decPlain E.check n t fs b) :=
  (sim_decFields n fs).bind fun _ => (sim_decAnnots (sim_decAnnot n) b).bind fun _ =>
    (sim_allWhole _).bind fun _ => Sim.pure _

theorem sim_decSubSup (c : Bool) : Sim (decSubSup E c) (decSubSup E.check c) := by
  have : Sim (decSubOpe E c) (decSubOpe E.check c) :=
    Sim.ite ((sim_decItems sim_decOpe).bind fun _ => Sim.pure _) sim_decOpe
  exact this.bind fun _ => sim_decOpe.bind fun _ => Sim.pure _

/-- As `Sim`, or the first function returns an axiom together with an error. -/
def SimL (x y : Dec (Obj × Bool)) : Prop :=
  ∀ s, y s ≠ .ub ∧ (∀ o s', y s ≠ .ok (o, false) s') ∧
    (x s = y s ∨ (y s = .err ∧ (x s = .ub ∨ ∃ o s', x s = .ok (o, false) s')))

theorem Sim.noLate {x y : Dec Obj} (h : Sim x y) : SimL (noLate x) (noLate y) := by
  intro s
  have hb : Sim (Prt.noLate x) (Prt.noLate y) := h.bind fun _ => Sim.pure _
  refine ⟨(hb s).1, ?_, ?_⟩
  · intro o s' e
    simp only [Prt.noLate, bind_def, Dec.bind] at e
    cases hy : y s with
    | ok a s1 => rw [hy] at e; cases e
    | err => rw [hy] at e; cases e
    | ub => rw [hy] at e; cases e
  · rcases (hb s).2 with h | h
    · exact .inr ⟨h.2, .inl h.1⟩
    · exact .inl h

theorem sim_decSubObjProp (n : Nat) (c b : Bool) : SimL (decSubObjProp E n c b) (decSubObjProp E.check n c b) := by
  intro s
  unfold decSubObjProp
  obtain ⟨h1, h2⟩ := sim_decSubSup (E := E) c s
  cases hy : decSubSup E.check c s with
  | ub => exact absurd hy h1
  | err =>
    refine ⟨nofun, nofun, ?_⟩
    rcases h2 with ⟨h2, -⟩ | h2 <;> rw [h2]
    · exact .inr ⟨rfl, .inl rfl⟩
    · rw [hy]
      show (if E.checked = true then _ else _) = _ ∨ _ ∧ ((if E.checked = true then _ else _) = _ ∨ _)
      cases E.checked
      · exact .inr ⟨rfl, .inl rfl⟩
      · exact .inl rfl
  | ok p s' =>
    obtain ⟨p, q⟩ := p
    obtain ⟨h3, h4⟩ := sim_decAnnots (E := E) (sim_decAnnot n) b s'
    rcases h2 with ⟨-, h2⟩ | h2
    · rw [hy] at h2; cases h2
    rw [h2, hy]
    dsimp only
    cases hy' : decAnnots E.check (decAnnot E.check n) b s' with
    | ub => exact absurd hy' h3
    | err =>
      refine ⟨nofun, nofun, ?_⟩
      rcases h4 with ⟨h4, -⟩ | h4 <;> rw [h4]
      · exact .inr ⟨rfl, .inl rfl⟩
      · rw [hy']
        show (if E.checked = true then _ else _) = _ ∨ _ ∧ (_ ∨ ∃ o s'', (if E.checked = true then _ else _) = _)
        cases E.checked
        · exact .inr ⟨rfl, .inr ⟨_, _, rfl⟩⟩
        · exact .inl rfl
    | ok as s'' =>
      refine ⟨nofun, nofun, ?_⟩
      rcases h4 with ⟨-, h4⟩ | h4
      · rw [hy'] at h4; cases h4
      · rw [h4, hy']; exact .inl rfl

theorem simL_fail : SimL fail fail := fun _ => ⟨nofun, nofun, .inl rfl⟩

theorem sim_decAxiom (n : Nat) (c : UInt8) : SimL (decAxiom E n c) (decAxiom E.check n c) := by
  unfold decAxiom
  dsimp only
  split
  · exact ((sim_decEnt _).bind fun _ => (sim_decAnnots (sim_decAnnot n) _).bind fun _ => Sim.pure _).noLate
  · split
    · exact sim_decSubObjProp n _ _
    · split
      · exact (sim_decPlain n _ _ _).noLate
      · exact simL_fail
    · exact simL_fail

end

/-! ## Frames -/

section
variable {σ : Type} {E : Env} {h : Callback σ (Bool × Item)}

/-- The same for parts of frames: the second is never undefined; both are the same, or the
second ends with a rejection and the first with that or undefined. -/
def FSim (x y : FRes σ) : Prop :=
  (∀ c, y ≠ .stop c .ub) ∧
    (x = y ∨ ∃ c c' r, x = .stop c r ∧ y = .stop c' .rejected ∧ (r = .rejected ∨ r = .ub))

theorem FSim.same {x : FRes σ} (hx : ∀ c, x ≠ .stop c .ub) : FSim x x := ⟨hx, .inl rfl⟩

theorem FSim.go (s : FSt σ) : FSim (.go s) (.go s) := FSim.same nofun

theorem fsim_deliver (i : Item) (s : FSt σ) : FSim (deliver h i s) (deliver h i s) := by
  refine FSim.same fun c => ?_
  unfold deliver
  dsimp only
  split <;> nofun

theorem FSim.andThen {x y : FRes σ} {k l : FSt σ → FRes σ} (hx : FSim x y) (hk : ∀ s, FSim (k s) (l s)) :
    FSim (x.andThen k) (y.andThen l) := by
  obtain ⟨h1, h2⟩ := hx
  rcases h2 with rfl | ⟨c, c', r, rfl, rfl, hr⟩
  · cases x with
    | go s => exact hk s
    | stop c r => exact FSim.same fun c' e => h1 c' e
  · exact ⟨nofun, .inr ⟨c, c', r, rfl, rfl, hr⟩⟩

theorem FSim.get {α : Type} {s : FSt σ} {x y : Dec α} {k l : α → FSt σ → FRes σ} (hx : Sim x y)
    (hk : ∀ a s, FSim (k a s) (l a s)) : FSim (s.get x k) (s.get y l) := by
  unfold FSt.get
  obtain ⟨h1, h2⟩ := hx s.dec
  rcases h2 with ⟨h2, h3⟩ | h2
  · rw [h2, h3]; exact ⟨nofun, .inr ⟨_, _, _, rfl, rfl, .inr rfl⟩⟩
  · rw [h2]
    cases hy : y s.dec with
    | ub => exact absurd hy h1
    | err => exact FSim.same nofun
    | ok a d => exact hk a _

theorem fsim_times {x y : FSt σ → FRes σ} (hx : ∀ s, FSim (x s) (y s)) : ∀ n s, FSim (times x n s) (times y n s)
  | 0, s => FSim.go s
  | n + 1, s => (hx s).andThen (fsim_times hx n)

theorem fsim_counted {x y : FSt σ → FRes σ} (hx : ∀ s, FSim (x s) (y s)) (s : FSt σ) :
    FSim (counted E x s) (counted E.check y s) := FSim.get sim_varint fun n s => fsim_times hx n s

theorem sim_pushNs (n : Str) : Sim (pushNs n) (pushNs n) := fun _ => ⟨nofun, .inr rfl⟩
theorem sim_pushId (i : Id) : Sim (pushId i) (pushId i) := fun _ => ⟨nofun, .inr rfl⟩

theorem sim_getNs (k : Nat) : Sim (getNs k) (getNs k) := by
  intro s
  refine ⟨?_, .inr rfl⟩
  unfold getNs; split <;> nofun

theorem fsim_ended (c : σ) (x : Ret) : FSim (.stop c (ended x)) (.stop c (ended x)) := by
  refine FSim.same fun c' e => ?_
  unfold ended at e
  split at e <;> cases e

theorem fsim_frameOf (c : UInt8) (s : FSt σ) : FSim (frameOf E h c s) (frameOf E.check h c s) := by
  unfold frameOf
  split
  · exact FSim.go _
  · exact FSim.go _
  · exact FSim.go _
  · exact fsim_ended _ _
  · split
    · refine fsim_counted (fun s => FSim.get ?_ fun a s => fsim_deliver _ s) s
      exact sim_decStr.bind fun _ => sim_decStr.bind fun _ => (sim_pushNs _).bind fun _ => Sim.pure _
    · refine fsim_counted (fun s => FSim.get ?_ fun a s => FSim.go _) s
      exact sim_decStr.bind fun _ => sim_pushNs _
  · split
    · refine fsim_counted (fun s => FSim.get ?_ fun a s => FSim.go s) s
      exact sim_varint.bind fun _ => sim_decStr.bind fun _ => (sim_getNs _).bind fun _ => sim_pushId _
    · refine fsim_counted (fun s => FSim.get ?_ fun a s => FSim.go s) s
      exact sim_decStr.bind fun _ => sim_pushId _
  · refine FSim.andThen (FSim.get sim_decIri fun a s => fsim_deliver _ s) fun s => ?_
    cases bit7 c
    · exact FSim.go s
    · exact FSim.get sim_decIri fun a s => fsim_deliver _ s
  · exact fsim_counted (fun s => FSim.get sim_decIri fun a s => fsim_deliver _ s) s
  · exact fsim_counted (fun s => FSim.get (sim_decAnnot _) fun a s => fsim_deliver _ s) s
  · unfold axiomFrame FSt.get
    obtain ⟨h1, h2, h3⟩ := sim_decAxiom (E := E) (s.dec.inp.length + 1) c s.dec
    refine ⟨fun c' => ?_, ?_⟩
    · cases e : decAxiom E.check (s.dec.inp.length + 1) c s.dec with
      | ub => exact absurd e h1
      | err => nofun
      | ok a d =>
        obtain ⟨o, b⟩ := a
        cases b with
        | false => exact absurd e (h2 o d)
        | true => exact (fsim_deliver (h := h) (.ax o) { s with dec := d }).1 c'
    rcases h3 with h3 | ⟨h3, h4 | ⟨o, s', h4⟩⟩
    · rw [h3]; exact .inl rfl
    · rw [h3, h4]; exact .inr ⟨_, _, _, rfl, rfl, .inr rfl⟩
    · rw [h3, h4]
      refine .inr ?_
      dsimp only
      cases deliver h (.ax o) { s with dec := s' } with
      | go t => exact ⟨_, _, _, rfl, rfl, .inl rfl⟩
      | stop t r => exact ⟨_, _, _, rfl, rfl, .inl rfl⟩

theorem fsim_frame (s : FSt σ) : FSim (frame E h s) (frame E.check h s) := by
  unfold frame
  split
  · exact fsim_ended _ _
  · exact fsim_frameOf _ _

theorem sim_frames : ∀ n (s : FSt σ), (frames E.check h n s).2 ≠ .ub ∧
    (frames E h n s = frames E.check h n s ∨
      ((frames E.check h n s).2 = .rejected ∧ ((frames E h n s).2 = .rejected ∨ (frames E h n s).2 = .ub)))
  | 0, s => ⟨nofun, .inl rfl⟩
  | n + 1, s => by
    obtain ⟨h1, h2⟩ := fsim_frame (E := E) (h := h) s
    rw [frames, frames]
    cases hy : frame E.check h s with
    | go t =>
      obtain ⟨i1, i2⟩ := sim_frames n t
      refine ⟨i1, ?_⟩
      rcases h2 with h2 | ⟨c, c', r, h2, h3, hr⟩
      · rw [h2, hy]; exact i2
      · rw [hy] at h3; cases h3
    | stop t r =>
      refine ⟨fun e => h1 t (by rw [hy]; exact congrArg _ e), ?_⟩
      rcases h2 with h2 | ⟨c, c', r', h2, h3, hr⟩
      · rw [h2, hy]; exact .inl rfl
      · rw [hy] at h3; injection h3 with e1 e2
        rw [h2]; exact .inr ⟨e2, hr⟩

end

end Cowl.Prt
