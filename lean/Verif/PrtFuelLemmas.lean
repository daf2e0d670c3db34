import Verif.PrtAxLemmas
/-!
# Lemmas: the bound on the depth of nesting

The decoding functions of constructs take a bound on the depth. Here: a bound above the
length of the input is never reached, since every level reads at least one byte.
-/
namespace Cowl.Prt

/-- On inputs of at most `L` bytes the functions agree, and they never give bytes back. -/
def Le {α : Type} (L : Nat) (x y : Dec α) : Prop :=
  ∀ s : DSt, s.inp.length ≤ L → x s = y s ∧ ∀ a s', x s = .ok a s' → s'.inp.length ≤ s.inp.length

/-- The function reads at least one byte. -/
def Reads {α : Type} (x : Dec α) : Prop := ∀ s a s', x s = .ok a s' → s'.inp.length < s.inp.length

section
variable {α β : Type} {L : Nat}

theorem Le.pure (a : α) : Le L (pure a : Dec α) (Pure.pure a) :=
  fun s _ => ⟨rfl, fun a s' h => by cases h; exact Nat.le_refl _⟩

theorem Le.fail : Le L (fail : Dec α) fail := fun _ _ => ⟨rfl, fun _ _ h => by cases h⟩

theorem Le.unchecked (E : Env) : Le L (unchecked E : Dec α) (unchecked E) := by
  intro s _
  refine ⟨rfl, fun a s' h => ?_⟩
  unfold Prt.unchecked at h
  split at h <;> cases h

theorem Le.bind {x y : Dec α} {f g : α → Dec β} (h : Le L x y) (hf : ∀ a, Le L (f a) (g a)) :
    Le L (x >>= f) (y >>= g) := by
  intro s hs
  obtain ⟨h1, h2⟩ := h s hs
  simp only [bind_def, Dec.bind, ← h1]
  cases hx : x s with
  | ok a s' =>
    have hl := h2 a s' hx
    obtain ⟨h3, h4⟩ := hf a s' (Nat.le_trans hl hs)
    exact ⟨h3, fun b s'' e => Nat.le_trans (h4 b s'' e) hl⟩
  | err => exact ⟨rfl, fun _ _ e => by cases e⟩
  | ub => exact ⟨rfl, fun _ _ e => by cases e⟩

/-- After a read, fewer bytes remain. -/
theorem Le.step {x : Dec α} {f g : α → Dec β} (hr : Reads x) (hf : ∀ L' < L, ∀ a, Le L' (f a) (g a)) :
    Le L (x >>= f) (x >>= g) := by
  intro s hs
  simp only [bind_def, Dec.bind]
  cases hx : x s with
  | ok a s' =>
    have hl := hr s a s' hx
    obtain ⟨h3, h4⟩ := hf s'.inp.length (by omega) a s' (Nat.le_refl _)
    exact ⟨h3, fun b s'' e => by have := h4 b s'' e; omega⟩
  | err => exact ⟨rfl, fun _ _ e => by cases e⟩
  | ub => exact ⟨rfl, fun _ _ e => by cases e⟩

theorem Reads.le {x : Dec α} (h : Reads x) : Le L x x :=
  fun s _ => ⟨rfl, fun a s' e => Nat.le_of_lt (h s a s' e)⟩

theorem Le.mono {x y : Dec α} {L' : Nat} (h : Le L x y) (hl : L' ≤ L) : Le L' x y :=
  fun s hs => h s (Nat.le_trans hs hl)

theorem Le.ite {c : Prop} [Decidable c] {x y x' y' : Dec α} (h : Le L x x') (h' : Le L y y') :
    Le L (if c then x else y) (if c then x' else y') := by split <;> assumption

end

section
variable {E : Env} (hu : E.u.Lawful) {L : Nat}

theorem le_byte : Le L byte byte := by
  intro s _
  refine ⟨rfl, fun a s' h => ?_⟩
  unfold byte at h
  split at h
  · rename_i e; cases h; rw [e]; simp
  · cases h

theorem le_bytes (n : Nat) : Le L (bytes n) (bytes n) := by
  intro s _
  refine ⟨rfl, fun a s' h => ?_⟩
  unfold bytes at h
  split at h
  · cases h; simp
  · cases h

theorem le_getId (k : Nat) : Le L (getId E k) (getId E k) := by
  intro s _
  refine ⟨rfl, fun a s' h => ?_⟩
  unfold getId at h
  split at h
  · cases h; exact Nat.le_refl _
  · split at h <;> cases h
    exact Nat.le_refl _

theorem le_getIri (k : Nat) : Le L (getIri E k) (getIri E k) :=
  (le_getId k).bind fun i => by cases i <;> first | exact Le.pure _ | exact Le.fail

theorem le_getEnt (t : EntKind) (k : Nat) : Le L (getEnt E t k) (getEnt E t k) :=
  (le_getIri k).bind fun _ => Le.pure _

theorem le_getInd (k : Nat) : Le L (getInd E k) (getInd E k) :=
  (le_getId k).bind fun i => by cases i <;> exact Le.pure _

theorem le_getIriOrAnon (k : Nat) : Le L (getIriOrAnon E k) (getIriOrAnon E k) :=
  (le_getId k).bind fun i => by cases i <;> exact Le.pure _

theorem le_ofLitRes (r : LitRes) : Le L (ofLitRes E r) (ofLitRes E r) := by
  cases r <;> first | exact Le.pure _ | exact Le.unchecked E

theorem le_ofOpt (o : Option Obj) : Le L (ofOpt o) (ofOpt o) := by
  cases o <;> first | exact Le.fail | exact Le.pure _

theorem le_orUnchecked (o : Option Obj) : Le L (orUnchecked E o) (orUnchecked E o) := by
  cases o <;> first | exact Le.unchecked E | exact Le.pure _

theorem le_notNull {x y : Dec (Option Obj)} (h : Le L x y) : Le L (notNull x) (notNull y) :=
  h.bind fun o => by cases o <;> first | exact Le.fail | exact Le.pure _

theorem le_decMany {x y : Dec Obj} (h : Le L x y) : ∀ n, Le L (decMany x n) (decMany y n)
  | 0 => Le.pure _
  | n + 1 => h.bind fun _ => (le_decMany h n).bind fun _ => Le.pure _

theorem le_decIf {x y : Dec Obj} (h : Le L x y) (b : Bool) : Le L (decIf b x) (decIf b y) :=
  Le.ite (h.bind fun _ => Le.pure _) (Le.pure _)

theorem le_whole {x y : Dec Obj} (h : Le L x y) : Le L (whole x) (whole y) := h.bind fun _ => Le.pure _

include hu

theorem reads_varint : Reads (varint E) := by
  intro s a s' h
  unfold varint at h
  split at h
  · rename_i e; cases h; exact (hu.varint_lt e).2
  · cases h

theorem reads_svarint : Reads (svarint E) := by
  intro s a s' h
  unfold svarint at h
  split at h
  · rename_i e; cases h; exact (hu.svarint_lt e).2
  · cases h

theorem le_varint : Le L (varint E) (varint E) := (reads_varint hu).le
theorem le_svarint : Le L (svarint E) (svarint E) := (reads_svarint hu).le

theorem le_decStr : Le L (decStr E) (decStr E) := (le_varint hu).bind fun n => le_bytes n
theorem le_decIri : Le L (decIri E) (decIri E) := (le_varint hu).bind fun n => le_getIri n
theorem le_decEnt (t : EntKind) : Le L (decEnt E t) (decEnt E t) := (le_varint hu).bind fun n => le_getEnt t n
theorem le_decInd : Le L (decInd E) (decInd E) := (le_varint hu).bind fun n => le_getInd n
theorem le_decIriOrAnon : Le L (decIriOrAnon E) (decIriOrAnon E) := (le_varint hu).bind fun n => le_getIriOrAnon n

theorem le_decOpe : Le L (decOpe E) (decOpe E) :=
  (le_varint hu).bind fun _ => Le.ite ((le_decEnt hu .objProp).bind fun _ => Le.pure _) (le_getEnt _ _)

theorem le_decValue (f : Nat) : Le L (decValue E f) (decValue E f) := by
  unfold decValue
  split
  · exact le_decStr hu
  · exact le_byte.bind fun _ => Le.ite (Le.pure _) (Le.ite (Le.pure _) Le.fail)
  · exact (le_svarint hu).bind fun _ => Le.pure _
  · exact (le_varint hu).bind fun _ => Le.pure _
  · exact (le_svarint hu).bind fun _ => (le_varint hu).bind fun _ => Le.pure _
  · exact (le_svarint hu).bind fun _ => (le_varint hu).bind fun _ => (le_svarint hu).bind fun _ => Le.pure _
  · exact Le.fail

theorem le_decLit : Le L (decLit E) (decLit E) := by
  refine le_byte.bind fun h => (le_decValue hu _).bind fun v => ?_
  split
  · exact (le_ofLitRes _).bind fun _ => Le.pure _
  · exact (le_decStr hu).bind fun _ => (le_ofLitRes _).bind fun _ => Le.pure _
  · exact (le_decIri hu).bind fun _ => (le_ofLitRes _).bind fun _ => Le.pure _
  · exact Le.pure _

theorem le_decAnnotVal : Le L (decAnnotVal E) (decAnnotVal E) :=
  (le_varint hu).bind fun _ => Le.ite (le_decLit hu) ((le_getIriOrAnon _).bind fun _ => Le.pure _)

theorem le_decItems {x y : Dec Obj} (h : Le L x y) : Le L (decItems E x) (decItems E y) :=
  (le_varint hu).bind fun n => le_decMany h n

theorem le_decVec {x y : Dec Obj} (h : Le L x y) : Le L (decVec E x) (decVec E y) :=
  (le_decItems hu h).bind fun _ => Le.pure _

theorem le_decFacet : Le L (decFacet E) (decFacet E) :=
  (le_decIri hu).bind fun _ => (le_notNull (le_decLit hu)).bind fun _ => Le.pure _

theorem le_decAnnots {x y : Dec Obj} (h : Le L x y) (b : Bool) : Le L (decAnnots E x b) (decAnnots E y b) :=
  Le.ite ((le_decItems hu h).bind fun _ => Le.pure _) (Le.pure _)

theorem le_annotIri (k : Nat) : Le L (annotIri E k) (annotIri E k) := Le.ite (le_decIri hu) (le_getIri _)

theorem le_decObjQuant {x y : Dec Obj} (h : Le L x y) (q : Nat) : Le L (decObjQuant E x q) (decObjQuant E y q) :=
  (le_decOpe hu).bind fun _ => h.bind fun _ => le_ofOpt _

theorem le_decDataQuant {x y : Dec Obj} (h : Le L x y) (q : Nat) : Le L (decDataQuant E x q) (decDataQuant E y q) :=
  (le_decEnt hu _).bind fun _ => h.bind fun _ => le_ofOpt _

theorem le_decObjCard {x y : Dec Obj} (h : Le L x y) (q : Nat) : Le L (decObjCard E x q) (decObjCard E y q) :=
  (le_varint hu).bind fun _ => (le_decOpe hu).bind fun _ => (le_decIf h _).bind fun _ => le_ofOpt _

theorem le_decDataCard {x y : Dec Obj} (h : Le L x y) (q : Nat) : Le L (decDataCard E x q) (decDataCard E y q) :=
  (le_varint hu).bind fun _ => (le_decEnt hu _).bind fun _ => (le_decIf h _).bind fun _ => le_ofOpt _

theorem le_drStep {x y : Dec Obj} (h : ∀ L' < L, Le L' x y) : Le L (drStep E x) (drStep E y) := by
  refine Le.step (reads_varint hu) fun L' hL t => Le.ite (le_getEnt _ _) ?_
  have h := h L' hL
  split
  · exact (le_decEnt hu _).bind fun _ => (le_decVec hu (le_decFacet hu)).bind fun _ => Le.pure _
  · exact (le_decVec hu h).bind fun _ => Le.pure _
  · exact (le_decVec hu h).bind fun _ => Le.pure _
  · exact h.bind fun _ => Le.pure _
  · exact (le_decVec hu (le_notNull (le_decLit hu))).bind fun _ => Le.pure _
  · exact Le.fail

theorem le_decDR : ∀ n L, L < n → ∀ k, n ≤ k → Le L (decDR E n) (decDR E k)
  | 0, _, h, _, _ => by omega
  | n + 1, L, h, k, hk => by
    obtain ⟨k, rfl⟩ : ∃ j, k = j + 1 := ⟨k - 1, by omega⟩
    exact le_drStep hu fun L' hL => le_decDR n L' (by omega) k (by omega)

theorem le_ceStep {x y x' y' : Dec Obj} (hd : ∀ L' < L, Le L' x x') (h : ∀ L' < L, Le L' y y') :
    Le L (ceStep E x y) (ceStep E x' y') := by
  refine Le.step (reads_varint hu) fun L' hL t => Le.ite (le_getEnt _ _) ?_
  have h := h L' hL
  have hd := hd L' hL
  split
  · exact le_decObjQuant hu h _
  · exact le_decObjQuant hu h _
  · exact le_decObjCard hu h _
  · exact le_decObjCard hu h _
  · exact le_decObjCard hu h _
  · exact (le_decOpe hu).bind fun _ => (le_decInd hu).bind fun _ => Le.pure _
  · exact (le_decOpe hu).bind fun _ => Le.pure _
  · exact le_decDataQuant hu hd _
  · exact le_decDataQuant hu hd _
  · exact le_decDataCard hu hd _
  · exact le_decDataCard hu hd _
  · exact le_decDataCard hu hd _
  · exact (le_decEnt hu _).bind fun _ => (le_decLit hu).bind fun _ => (le_orUnchecked _).bind fun _ => Le.pure _
  · exact (le_decVec hu h).bind fun _ => Le.pure _
  · exact (le_decVec hu h).bind fun _ => Le.pure _
  · exact h.bind fun _ => Le.pure _
  · exact (le_decVec hu (le_decInd hu)).bind fun _ => Le.pure _
  · exact Le.fail

theorem le_decCE : ∀ n L, L < n → ∀ k, n ≤ k → Le L (decCE E n) (decCE E k)
  | 0, _, h, _, _ => by omega
  | n + 1, L, h, k, hk => by
    obtain ⟨k, rfl⟩ : ∃ j, k = j + 1 := ⟨k - 1, by omega⟩
    exact le_ceStep hu (fun L' hL => le_decDR hu (n + 1) L' (by omega) (k + 1) hk)
      (fun L' hL => le_decCE n L' (by omega) k (by omega))

theorem le_decAnnot : ∀ n L, L < n → ∀ k, n ≤ k → Le L (decAnnot E n) (decAnnot E k)
  | 0, _, h, _, _ => by omega
  | n + 1, L, h, k, hk => by
    obtain ⟨k, rfl⟩ : ∃ j, k = j + 1 := ⟨k - 1, by omega⟩
    refine Le.step (reads_varint hu) fun L' hL t => ?_
    exact (le_annotIri hu _).bind fun _ => (le_notNull (le_decAnnotVal hu)).bind fun _ =>
      (le_decAnnots hu (le_decAnnot n L' (by omega) k (by omega)) _).bind fun _ => Le.pure _

theorem le_decField {n : Nat} (h : L < n) {k : Nat} (hk : n ≤ k) (f : FK) : Le L (decField E n f) (decField E k f) := by
  cases f with
  | ce => exact le_whole (le_decCE hu n L h k hk)
  | dr => exact le_whole (le_decDR hu n L h k hk)
  | ind => exact le_whole (le_decInd hu)
  | ope => exact le_whole (le_decOpe hu)
  | iri => exact (le_decIri hu).bind fun _ => Le.pure _
  | iriOrAnon => exact le_whole (le_decIriOrAnon hu)
  | lit => exact le_decLit hu
  | aval => exact le_decAnnotVal hu
  | ent t => exact le_whole (le_decEnt hu t)
  | vecCE => exact le_whole (le_decVec hu (le_decCE hu n L h k hk))
  | vecInd => exact le_whole (le_decVec hu (le_decInd hu))
  | vecOpe => exact le_whole (le_decVec hu (le_decOpe hu))
  | vecDpe => exact le_whole (le_decVec hu (le_decEnt hu _))

theorem le_decFields {n : Nat} (h : L < n) {k : Nat} (hk : n ≤ k) : ∀ fs, Le L (decFields E n fs) (decFields E k fs)
  | [] => Le.pure _
  | f :: fs => (le_decField hu h hk f).bind fun _ => (le_decFields h hk fs).bind fun _ => Le.pure _

omit hu in
theorem le_allWhole (os : List (Option Obj)) : Le L (allWhole E os) (allWhole E os) := by
  unfold allWhole
  split
  · exact Le.pure _
  · exact Le.unchecked E

theorem le_decPlain {n : Nat} (h : L < n) {k : Nat} (hk : n ≤ k) (t : OType) (fs : List FK) (b : Bool) :
    Le L (decPlain E n t fs b) (decPlain E k t fs b) :=
  (le_decFields hu h hk fs).bind fun _ => (le_decAnnots hu (le_decAnnot hu n L h k hk) b).bind fun _ =>
    (le_allWhole _).bind fun _ => Le.pure _

omit hu in
theorem le_noLate {x y : Dec Obj} (h : Le L x y) : Le L (noLate x) (noLate y) := h.bind fun _ => Le.pure _

theorem le_decSubSup (c : Bool) : Le L (decSubSup E c) (decSubSup E c) := by
  have : Le L (decSubOpe E c) (decSubOpe E c) :=
    Le.ite ((le_decItems hu (le_decOpe hu)).bind fun _ => Le.pure _) (le_decOpe hu)
  exact this.bind fun _ => (le_decOpe hu).bind fun _ => Le.pure _

theorem le_decSubObjProp {n : Nat} (h : L < n) {k : Nat} (hk : n ≤ k) (c b : Bool) :
    Le L (decSubObjProp E n c b) (decSubObjProp E k c b) := by
  intro s hs
  unfold decSubObjProp
  have h1 := (le_decSubSup hu (L := L) c s hs).2
  cases hx : decSubSup E c s with
  | ub => exact ⟨rfl, fun _ _ e => by cases e⟩
  | err => refine ⟨rfl, fun _ _ e => ?_⟩; dsimp only at e; split at e <;> cases e
  | ok a s' =>
    have hl := h1 a s' hx
    obtain ⟨h2, h3⟩ := le_decAnnots hu (le_decAnnot hu n L h k hk) b s' (by omega)
    dsimp only
    rw [← h2]
    cases hy : decAnnots E (decAnnot E n) b s' with
    | ub => exact ⟨rfl, fun _ _ e => by cases e⟩
    | err =>
      refine ⟨rfl, fun _ _ e => ?_⟩
      dsimp only at e
      split at e
      · cases e
      · cases e; exact hl
    | ok as s'' =>
      refine ⟨rfl, fun _ _ e => ?_⟩
      cases e
      exact Nat.le_trans (h3 _ _ hy) hl

theorem le_decAxiom {n : Nat} (h : L < n) {k : Nat} (hk : n ≤ k) (c : UInt8) :
    Le L (decAxiom E n c) (decAxiom E k c) := by
  unfold decAxiom
  dsimp only
  split
  · exact le_noLate ((le_decEnt hu _).bind fun _ => (le_decAnnots hu (le_decAnnot hu n L h k hk) _).bind fun _ => Le.pure _)
  · split
    · exact le_decSubObjProp hu h hk _ _
    · split
      · exact le_noLate (le_decPlain hu h hk _ _ _)
      · exact Le.fail
    · exact Le.fail

end
end Cowl.Prt
