import Verif.PrtOwnBase
/-!
# References held by the ProtocOWL reader: lemmas

Every function of the decoder gives back what it takes.
-/
namespace Cowl.DOwn
open Cowl.Own
open Cowl.YOwn (Leaf HOp getLeaf litRun hopsRun HopsFair getLeaf_ok retain_ok shrink_release hops_spec Shrink)
open Cowl.Prt (FK axFields axTypes ceTypes drTypes entTypes)

/-- The vectors, with the one that is returned. -/
def vecs (b : Bool) (r : Option Nat) (V : List Nat) : List Nat := if b then r.toList ++ V else V

/-- The function gives the caller a reference, or NULL after an error, and takes nothing; `b` tells that
it gives a vector. -/
def Decodes (K : List Nat) (b : Bool) (p : Dec (Option Nat)) : Prop :=
  ∀ L V E, (∀ v ∈ V, v ∈ L) →
    Triple (Ok K L V E) p fun r => Ok K (r.toList ++ L) (vecs b r V) (E ∨ r = none)

/-- As before, but NULL need not be an error. -/
def Yields (K : List Nat) (b : Bool) (p : Dec (Option Nat)) : Prop :=
  ∀ L V E, (∀ v ∈ V, v ∈ L) → Triple (Ok K L V E) p fun r => Ok K (r.toList ++ L) (vecs b r V) E

/-- The function leaves things as they are. -/
def Keeps {α : Type} (K : List Nat) (p : Dec α) : Prop :=
  ∀ L V E, (∀ v ∈ V, v ∈ L) → Triple (Ok K L V E) p fun _ => Ok K L V E

section
variable {K : List Nat}

theorem vecs_sub {b : Bool} {r : Option Nat} {V : List Nat} : ∀ v ∈ V, v ∈ vecs b r V := fun v hv => by
  unfold vecs; split
  · exact List.mem_append_right _ hv
  · exact hv

theorem vecs_in {b : Bool} {r : Option Nat} {L V : List Nat} (h : ∀ v ∈ V, v ∈ L) :
    ∀ v ∈ vecs b r V, v ∈ r.toList ++ L := fun v hv => by
  unfold vecs at hv; split at hv
  · rcases List.mem_append.mp hv with hv | hv
    · exact List.mem_append_left _ hv
    · exact List.mem_append_right _ (h v hv)
  · exact List.mem_append_right _ (h v hv)

theorem Decodes.weaken {b : Bool} {p : Dec (Option Nat)} (h : Decodes K b p) : Decodes K false p := fun L V E hV =>
  (h L V E hV).post fun _ _ h => h.sub (fun _ => rfl) vecs_sub id

theorem Decodes.yields {b : Bool} {p : Dec (Option Nat)} (h : Decodes K b p) : Yields K b p := fun L V E hV =>
  (h L V E hV).post fun _ _ h => h.sub (fun _ => rfl) (fun _ h => h) .inl

theorem yields_null {b : Bool} : Yields K b (pure none) := fun L V E _ => .pure fun d h =>
  h.sub (fun _ => rfl) (fun v hv => by cases b <;> simpa [vecs] using hv) id

theorem Decodes.ite {b : Bool} {c : Prop} [Decidable c] {p q : Dec (Option Nat)} (h : Decodes K b p) (h' : Decodes K b q) :
    Decodes K b (if c then p else q) := by split <;> assumption

theorem d_either {b c : Bool} {p q : Dec (Option Nat)} (h : Decodes K b p) (h' : Decodes K b q) :
    Decodes K b (either c p q) := by unfold either; split <;> assumption

theorem d_fail {b : Bool} : Decodes K b fail := fun L V E _ => t_fail.post fun r d h => by
  obtain ⟨rfl, h⟩ := h
  exact h.sub (fun _ => rfl) (fun v hv => by cases b <;> simpa [vecs] using hv) fun _ => trivial

theorem d_withNum {b : Bool} {f : Nat → Dec (Option Nat)} (h : ∀ n, Decodes K b (f n)) : Decodes K b (withNum f) :=
  fun L V E hV => t_withNum (fun d h => h.sub (fun _ => rfl) (fun v hv => by cases b <;> simpa [vecs] using hv) fun _ => trivial)
    fun n => h n L V E hV

theorem d_string : Decodes K false string := d_withNum fun _ L V E _ =>
  .bind ((t_leaf .leaf []).mono (fun d h => ⟨h, by simp⟩) fun r d h => h.1) t_nn

/-! ## Identifiers -/

theorem t_addId {L V : List Nat} {E : Prop} (a : Nat) :
    Triple (fun d => Ok K L V E d ∧ d.st.live a = true) (addId a) fun _ d => Ok K L V E d ∧ a ∈ d.ids := fun d hd _ => by
  obtain ⟨s, h1, h2, h3, h4, _⟩ := retain_spec hd.1.inv hd.2
  refine ⟨(), { d with st := s, ids := d.ids ++ [a] }, by unfold addId; rw [h1], ⟨h2, fun b => ?_, fun v hv => ?_, hd.1.err⟩, by simp⟩
  · show s.ext b = d.others b + (K.count b + (d.ids ++ [a]).count b + d.nss.count b + L.count b)
    rw [h4, hd.1.ext, List.count_append, List.count_singleton]
    by_cases e : b = a
    · rw [if_pos e, if_pos (by simp [e])]; omega
    · rw [if_neg e, if_neg (by simpa using fun h => e h.symm)]; omega
  · obtain ⟨h5, b, l, h6⟩ := hd.1.vec v hv
    exact ⟨h5, b, l, by show s.cell v = _; rw [h3, h6]⟩

theorem t_addNs {L V : List Nat} {E : Prop} (a : Nat) :
    Triple (fun d => Ok K L V E d ∧ d.st.live a = true) (addNs a) fun _ => Ok K L V E := fun d hd _ => by
  obtain ⟨s, h1, h2, h3, h4, _⟩ := retain_spec hd.1.inv hd.2
  refine ⟨(), { d with st := s, nss := d.nss ++ [a] }, by unfold addNs; rw [h1], ⟨h2, fun b => ?_, fun v hv => ?_, hd.1.err⟩⟩
  · show s.ext b = d.others b + (K.count b + d.ids.count b + (d.nss ++ [a]).count b + L.count b)
    rw [h4, hd.1.ext, List.count_append, List.count_singleton]
    by_cases e : b = a
    · rw [if_pos e, if_pos (by simp [e])]; omega
    · rw [if_neg e, if_neg (by simpa using fun h => e h.symm)]; omega
  · obtain ⟨h5, b, l, h6⟩ := hd.1.vec v hv
    exact ⟨h5, b, l, by show s.cell v = _; rw [h3, h6]⟩

/-- The object belongs to the index. -/
abbrev Indexed (K L V : List Nat) (E : Prop) (r : Option Nat) (d : D) : Prop :=
  Ok K L V (E ∨ r = none) d ∧ ∀ a, r = some a → a ∈ d.ids

theorem indexed_none {L V : List Nat} {E : Prop} {d : D} (h : Ok K L V True d) : Indexed K L V E none d :=
  ⟨h.sub (fun _ => rfl) (fun _ h => h) fun _ => trivial, by simp⟩

theorem t_newAnon {L V : List Nat} {E : Prop} (hV : ∀ v ∈ V, v ∈ L) :
    Triple (Ok K L V E) newAnon (Indexed K L V E) := by
  refine .bind ((t_leaf .leaf []).weaken fun d h => ⟨h, by simp⟩) fun r => ?_
  cases r with
  | none =>
    refine (t_fail (K := K) (L := L) (V := V) (E := E)).mono (fun d h => h.1) fun r d h => ?_
    obtain ⟨rfl, h⟩ := h
    exact indexed_none h
  | some a =>
    refine .bind ((t_askOk _).weaken fun d h => h.1) fun c => ?_
    refine .given (φ := c.ok = true) (fun d h => h.2.2) fun hok => ?_
    unfold keepAnon
    rw [if_pos hok]
    refine .bind ((t_addId a).weaken fun d h => ⟨h.1, h.1.live (by simp)⟩) fun _ => ?_
    intro d hd hl
    obtain ⟨b, d', e1, e2⟩ := Triple.bind (t_release (K := K) (L := L) (V := V) (E := E) (I := d.ids) (N := d.nss) (some a)
      (L₀ := (some a).toList ++ L) (W := V) (fun b => by rw [List.count_append]) (fun _ h => h) hV)
      (fun _ => Triple.pure (a := some a) (Q := Indexed K L V E) fun d' h' =>
        ⟨h'.1.sub (fun _ => rfl) (fun _ h => h) (by simp), fun x e => by cases e; rw [h'.2.1]; exact hd.2⟩)
      d ⟨hd.1, rfl, rfl⟩ hl
    exact ⟨b, d', e1, e2⟩

theorem t_getId {L V : List Nat} {E : Prop} (hV : ∀ v ∈ V, v ∈ L) (k : Nat) :
    Triple (Ok K L V E) (getId k) (Indexed K L V E) := fun d hd hl => by
  unfold getId at hl ⊢
  cases hk : d.ids[k]? with
  | some a =>
    exact ⟨some a, d, rfl, hd.sub (fun _ => rfl) (fun _ h => h) (by simp), fun x e => by
      cases e; exact List.mem_of_getElem? hk⟩
  | none =>
    rw [hk] at hl
    dsimp only at hl ⊢
    split
    · next e => rw [if_pos e] at hl; exact t_newAnon hV d hd hl
    · next e =>
      rw [if_neg e] at hl
      refine ⟨none, _, rfl, indexed_none ⟨hd.inv, hd.ext, hd.vec, fun _ => rfl⟩⟩

theorem t_isIri {L V : List Nat} {E : Prop} (a : Nat) :
    Triple (fun d => Ok K L V E d ∧ a ∈ d.ids) (isIri a) (Indexed K L V E) := fun d hd hl => by
  unfold isIri
  obtain ⟨c, hc⟩ := live_iff_cell.mp (hd.1.live_id hd.2)
  rw [hc]
  split
  · simp at *
  · exact ⟨_, _, rfl, hd.1.sub (fun _ => rfl) (fun _ h => h) (by simp), fun x e => by cases e; exact hd.2⟩
  · exact ⟨none, _, rfl, indexed_none ⟨hd.1.inv, hd.1.ext, hd.1.vec, fun _ => rfl⟩⟩

theorem t_getIdIri {L V : List Nat} {E : Prop} (hV : ∀ v ∈ V, v ∈ L) (k : Nat) :
    Triple (Ok K L V E) (getIdIri k) (Indexed K L V E) := by
  refine .bind (t_getId hV k) fun r => ?_
  cases r with
  | none => exact .pure fun d h => h
  | some a => exact (t_isIri a).weaken fun d h => ⟨h.1.sub (fun _ => rfl) (fun _ h => h) .inl, h.2 a rfl⟩

theorem t_retainOpt {L V : List Nat} {E : Prop} (r : Option Nat) :
    Triple (Indexed K L V E r) (retain r) fun r => Ok K (r.toList ++ L) V (E ∨ r = none) := by
  cases r with
  | none => exact .pure fun d h => h.1
  | some a =>
    refine (t_retain (K := K) (L := L) (V := V) (E := E) a).mono (fun d h => ⟨h.1.sub (fun _ => rfl) (fun _ h => h) .inl,
      h.1.live_id (h.2 a rfl)⟩) fun r d h => ?_
    obtain ⟨rfl, h⟩ := h
    exact h.sub (fun _ => rfl) (fun _ h => h) (by simp)

theorem d_getIri (k : Nat) : Decodes K false (getIri k) := fun L V E hV => .bind (t_getIdIri hV k) t_retainOpt

theorem d_getIriOrAnon (k : Nat) : Decodes K false (getIriOrAnon k) := fun L V E hV =>
  .bind (t_getId hV k) t_retainOpt

theorem t_entityOf {L V : List Nat} {E : Prop} (a : Nat) :
    Triple (fun d => Ok K L V E d ∧ a ∈ d.ids) (entityOf a) (Gives K L V E) :=
  .bind ((t_leaf .leaf [a]).mono (fun d h => ⟨h.1, fun x hx => by
    rw [List.mem_singleton] at hx; rw [hx]; exact h.1.live_id h.2⟩) fun r d h => h.1) t_nn

theorem d_getEnt (k : Nat) : Decodes K false (getEnt k) := fun L V E hV => by
  refine .bind (t_getIdIri hV k) fun r => ?_
  cases r with
  | none => exact .pure fun d h => h.1
  | some a => exact (t_entityOf a).weaken fun d h => ⟨h.1.sub (fun _ => rfl) (fun _ h => h) .inl, h.2 a rfl⟩

theorem t_isInd {L V : List Nat} {E : Prop} (a : Nat) :
    Triple (fun d => Ok K L V E d ∧ a ∈ d.ids) (isInd a) fun _ d => Ok K L V E d ∧ a ∈ d.ids := fun d hd hl => by
  unfold isInd
  obtain ⟨c, hc⟩ := live_iff_cell.mp (hd.1.live_id hd.2)
  rw [hc]
  split
  · simp at *
  · exact ⟨_, _, rfl, hd⟩
  · exact ⟨_, _, rfl, hd⟩

theorem d_getInd (k : Nat) : Decodes K false (getInd k) := fun L V E hV => by
  refine .bind (t_getId hV k) fun r => ?_
  cases r with
  | none => exact .pure fun d h => h.1
  | some a =>
    refine .bind ((t_isInd (K := K) (L := L) (V := V) (E := E) a).weaken fun d h =>
      ⟨h.1.sub (fun _ => rfl) (fun _ h => h) .inl, h.2 a rfl⟩) fun i => .ite (fun _ => ?_) fun _ => t_entityOf a
    refine (t_retainOpt (some a)).weaken fun d h => ⟨h.1.sub (fun _ => rfl) (fun _ h => h) (by simp), fun x e => by cases e; exact h.2⟩

theorem d_iri : Decodes K false decIri := d_withNum d_getIri
theorem d_iriOrAnon : Decodes K false decIriOrAnon := d_withNum d_getIriOrAnon
theorem d_ent : Decodes K false decEnt := d_withNum d_getEnt
theorem d_ind : Decodes K false decInd := d_withNum d_getInd

theorem d_invProp : Decodes K false invProp := fun L V E hV => by
  refine .bind (d_ent L V E hV) fun p => ?_
  cases p with
  | none => exact .pure fun d h => h
  | some a =>
    refine .bind (Q := fun r => Ok K (r.toList ++ (a :: L)) V E)
      ((t_construct (by decide) rfl (by simp) (by simp [ptrs]) (by simp)).weaken fun d h => h.sub (fun _ => rfl) (fun _ h => h) .inl)
      fun r => .bind (t_nn r) fun r => .bind (t_release1 (L := r.toList ++ L) (V := V) (some a) (fun b => ?_) (fun _ h => h)
        fun v hv => List.mem_append_right _ (hV v hv)) fun _ => .pure fun d h => h
    simp only [List.count_append, List.count_cons, Option.toList_some, List.count_nil]
    omega

theorem d_ope : Decodes K false ope := d_withNum fun _ => .ite d_invProp (d_getEnt _)

/-! ## Literals -/

theorem t_litOf' {L V : List Nat} {E : Prop} {value tag : Option Nat} (hv : ∀ a ∈ value, a ∈ L) (ht : ∀ a ∈ tag, a ∈ L) :
    Triple (Ok K L V E) (litOf value tag) (Gives K L V E) := t_litOf hv ht

theorem y_nums (n : Nat) : Keeps K (nums n) := by
  induction n with
  | zero => exact fun L V E _ => .pure fun d h => h
  | succ n ih =>
    intro L V E hV
    refine .bind (t_num .num) fun k => ?_
    cases k with
    | none => exact .pure fun d h => h.1.sub (fun _ => rfl) (fun _ h => h) .inl
    | some k => exact (ih L V E hV).weaken fun d h => h.1.sub (fun _ => rfl) (fun _ h => h) .inl

theorem y_leaf : Yields K false (leaf .leaf []) := fun L V E _ =>
  (t_leaf .leaf []).mono (fun d h => ⟨h, by simp⟩) fun r d h => h.1

theorem y_ofNums (n : Nat) : Yields K false (ofNums n) := fun L V E hV => by
  refine .bind (y_nums n L V E hV) fun b => .ite (fun _ => y_leaf L V E hV) fun _ => yields_null L V E hV

theorem y_litBool : Yields K false litBool := fun L V E hV =>
  t_withNum (fun d h => h.sub (fun _ => rfl) (fun _ h => h) fun _ => trivial) fun n => .ite (fun _ => y_leaf L V E hV)
    fun _ => yields_null L V E hV

theorem y_litValue (fmt : Nat) : Yields K false (litValue fmt) := by
  unfold litValue
  split
  · exact d_string.yields
  · exact y_litBool
  · exact y_ofNums 1
  · exact y_ofNums 1
  · exact y_ofNums 2
  · exact y_ofNums 3
  · exact yields_null

theorem t_litBy {L V : List Nat} {E : Prop} (hV : ∀ v ∈ V, v ∈ L) {type : Nat} (ht : type < 3) {value : Option Nat}
    (hv : ∀ a ∈ value, a ∈ L) : Triple (Ok K L V E) (litBy type value) (Gives K L V E) := by
  match type, ht with
  | 0, _ => exact t_litOf hv (by simp)
  | 1, _ =>
    refine .bind (d_string L V E hV) fun l => ?_
    cases l with
    | none => exact .pure fun d h => h
    | some l =>
      refine .bind (Q := Gives K (l :: L) V E) ((t_litOf (fun a h => List.mem_cons_of_mem _ (hv a h)) (by simp)).weaken
        fun d h => h.sub (fun _ => rfl) (fun _ h => h) .inl) fun r => .bind (t_release1 (L := r.toList ++ L) (V := V) (some l)
          (fun b => ?_) (fun _ h => h) fun v hv => List.mem_append_right _ (hV v hv)) fun _ => .pure fun d h => h
      simp only [List.count_append, List.count_cons, Option.toList_some, List.count_nil]
      omega
  | 2, _ =>
    refine .bind (d_iri L V E hV) fun i => ?_
    cases i with
    | none => exact .pure fun d h => h
    | some i =>
      refine .bind ((t_leaf (K := K) (L := i :: L) (V := V) (E := E) .datatype [i]).weaken fun d h =>
        ⟨h.sub (fun _ => rfl) (fun _ h => h) .inl, fun x hx => by
          rw [List.mem_singleton] at hx; subst hx; exact h.live (by simp)⟩) fun dt => ?_
      cases dt with
      | none => exact .given (φ := False) (fun d h => h.2 rfl rfl) False.elim
      | some dt =>
        refine .bind (Q := Gives K (dt :: i :: L) V E) ((t_litOf (value := value) (tag := some dt)
          (fun a h => List.mem_cons_of_mem _ (List.mem_cons_of_mem _ (hv a h))) (by simp)).weaken fun d h => h.1) fun r =>
          .bind (t_releaseAll (L := r.toList ++ L) (V := V) [some i, some dt] (fun b => ?_) (fun _ h => h)
            fun v hv => List.mem_append_right _ (hV v hv)) fun _ => .pure fun d h => h
        simp only [ptrs, List.flatMap_cons, List.flatMap_nil, List.count_append, List.count_cons, Option.toList_some, List.count_nil]
        omega

theorem d_literal : Decodes K false literal := fun L V E hV => by
  refine .bind (t_num .header) fun h => ?_
  cases h with
  | none => exact .pure fun d h => h.1
  | some h =>
    refine .given (φ := h % 4 < 3) (fun d hd => by have := hd.2 h rfl rfl; omega) fun hh => ?_
    refine .bind ((y_litValue (h % 64 / 4) L V E hV).weaken fun d h => h.1.sub (fun _ => rfl) (fun _ h => h) .inl) fun v =>
      .bind (t_nn v) fun v => .bind (Q := Gives K (v.toList ++ L) V E)
        ((t_litBy (fun v hv => List.mem_append_right _ (hV v hv)) hh fun a ha => List.mem_append_left _ (by simpa using ha)).weaken
          fun d h => h.sub (fun _ => rfl) (fun _ h => h) .inl) fun r =>
        .bind (t_release1 (L := r.toList ++ L) (V := V) v (fun b => ?_) (fun _ h => h)
          fun v hv => List.mem_append_right _ (hV v hv)) fun _ => .pure fun d h => h
    simp only [List.count_append]
    omega

theorem d_annotValue : Decodes K false annotValue := d_withNum fun _ => .ite d_literal (d_getIriOrAnon _)

/-! ## Vectors and annotations -/

theorem t_dropItems {b : Bool} {L V : List Nat} {E : Prop} (hV : ∀ v ∈ V, v ∈ L) (xs : List Nat) :
    Triple (Ok K (xs ++ L) V E) (dropItems xs) fun r => Ok K (r.toList ++ L) (vecs b r V) (E ∨ r = none) :=
  .bind (t_releaseAll (L := L) (V := V) _ (fun a => by rw [ptrs_map, List.count_append]) (fun _ h => h) hV) fun _ =>
    d_fail L V E hV

theorem t_finishVec {L V : List Nat} {E : Prop} (hV : ∀ v ∈ V, v ∈ L) (xs : List Nat) (c : Pick) :
    Triple (fun d => Ok K (xs ++ L) V E d ∧ Good ⟨d.st, d.others, .alloc, c⟩) (finishVec xs c)
      fun r => Ok K (r.toList ++ L) (vecs true r V) (E ∨ r = none) := by
  unfold finishVec
  split
  · next m _ hm =>
    refine .bind (Q := fun r d => r = some m ∧ Ok K (m :: (xs ++ L)) (m :: V) E d) (t_mem fun d h => ?_) fun r => ?_
    · obtain ⟨s, r, e1, e2, _, e4, _, e6⟩ := vector_spec (buf := true) (m := some m) (items := xs) h.1.inv
        (fun a e => h.2.1.blocks.1 _ (by simp) a (hm.trans e)) fun x hx => h.1.live (List.mem_append_left _ hx)
      have er := e4 (.inl rfl)
      subst er
      have ho := h.1.made e2
      refine ⟨s, _, e1, rfl, ho.inv, ho.ext, fun v hv => ?_, ho.err⟩
      rcases List.mem_cons.mp hv with rfl | hv
      · exact ⟨by simp, false, xs, e6 v rfl⟩
      · exact ho.vec v hv
    · refine .given (φ := r = some m) (fun d h => h.1) fun hr => ?_
      subst hr
      refine .bind ((t_releaseAll (L := m :: L) (V := m :: V) _ (fun a => ?_) (fun _ h => h) ?_).weaken fun d h => h.2) fun _ =>
        .pure fun d h => h.sub (fun _ => rfl) (fun _ h => h) (by simp)
      · rw [ptrs_map]; simp only [List.count_append, List.count_cons]; omega
      · intro v hv
        rcases List.mem_cons.mp hv with rfl | hv
        · exact List.mem_cons_self
        · exact List.mem_cons_of_mem _ (hV v hv)
  · exact (t_dropItems hV xs).weaken fun d h => h.1

theorem t_many {L V : List Nat} {E : Prop} (hV : ∀ v ∈ V, v ∈ L) {b : Bool} {item : Dec (Option Nat)} (hi : Decodes K b item) :
    ∀ (n : Nat) (xs : List Nat), Triple (Ok K (xs ++ L) V E) (many item n xs)
      fun r => Ok K (r.toList ++ L) (vecs true r V) (E ∨ r = none)
  | 0, xs => .bind (t_askOk _) fun c => t_finishVec hV xs c
  | n + 1, xs => by
    refine .bind (hi.weaken (xs ++ L) V E fun v hv => List.mem_append_right _ (hV v hv)) fun x => ?_
    cases x with
    | none => exact (t_dropItems hV xs).weaken fun d h => h.sub (fun _ => rfl) (fun _ h => h) .inl
    | some a =>
      refine .bind ((t_askOk _).weaken fun d h => h.sub (L' := (a :: xs) ++ L) (V' := V) (E' := E) (fun _ => rfl) (fun _ h => h) .inl)
        fun c => .ite (fun _ => (t_many hV hi n (a :: xs)).weaken fun d h => h.1)
          fun _ => (t_dropItems hV (a :: xs)).weaken fun d h => h.1

theorem d_vector {b : Bool} {item : Dec (Option Nat)} (hi : Decodes K b item) : Decodes K true (vector item) :=
  d_withNum fun n L V E hV => .bind (t_askOk _) fun c =>
    .ite (fun _ => (t_many hV hi n []).weaken fun d h => h.1) fun _ => (d_fail L V E hV).weaken fun d h => h.1

theorem t_annotEnd {L V : List Nat} {E : Prop} (hV : ∀ v ∈ V, v ∈ L) (l : List (Option Nat)) (r : Option Nat) {L₀ W : List Nat}
    (hL : ∀ a, L₀.count a = r.toList.count a + (ptrs l).count a + L.count a) (hW : ∀ v ∈ V, v ∈ W) :
    Triple (Ok K L₀ W E) (annotEnd l r) (Gives K L V E) :=
  .bind (t_releaseAll (L := r.toList ++ L) (V := V) l (fun a => by rw [hL, List.count_append]; omega) hW
    fun v hv => List.mem_append_right _ (hV v hv)) fun _ => t_nn r

theorem t_annotMake {L V : List Nat} {E : Prop} (hV : ∀ v ∈ V, v ∈ L) (i p v : Nat) (as : Option Nat) :
    Triple (Ok K (as.toList ++ (v :: p :: i :: L)) (vecs true as V) E) (annotMake (some i) (some p) (some v) as)
      (Gives K L V E) := by
  refine .bind (t_construct (by decide) rfl (by simp) (by simp [ptrs]) fun x hx => ?_) fun r =>
    t_annotEnd hV _ r (fun a => ?_) vecs_sub
  · have : x ∈ as.toList := by simpa using hx
    exact ⟨List.mem_append_left _ this, fun _ => List.mem_append_left _ this⟩
  · simp only [ptrs, List.flatMap_cons, List.flatMap_nil, List.count_append, List.count_cons, Option.toList_some, List.count_nil]
    omega

theorem d_annotation (n : Nat) : Decodes K false (annotation n) := by
  induction n with
  | zero => exact d_fail
  | succ n ih =>
    refine d_withNum fun h L V E hV => ?_
    refine .bind ((d_either d_iri (d_getIri _)) L V E hV) fun iri => ?_
    cases iri with
    | none =>
      exact (t_annotEnd hV [] none (L₀ := L) (W := V) (fun a => by simp [ptrs]) (fun _ h => h)).weaken
        fun d h => h.sub (fun _ => rfl) (fun _ h => h) .inl
    | some i =>
      refine .bind (Q := fun r => Ok K (r.toList ++ (i :: L)) V E) ((t_leaf .leaf [i]).mono (fun d h =>
        ⟨h.sub (fun _ => rfl) (fun _ h => h) .inl, fun x hx => by
          rw [List.mem_singleton] at hx; subst hx; exact h.live (by simp)⟩) fun r d h => h.1) fun prop => ?_
      cases prop with
      | none => exact t_annotEnd hV [some i] none (fun a => by simp [ptrs, List.count_cons]; omega) (fun _ h => h)
      | some p =>
        refine .bind (d_annotValue (p :: i :: L) V E fun v hv => by simp [hV v hv]) fun value => ?_
        cases value with
        | none =>
          exact (t_annotEnd hV [some p, some i] none (L₀ := p :: i :: L) (W := V) (fun a => by
            simp only [ptrs, List.flatMap_cons, List.flatMap_nil, List.count_append, List.count_cons, Option.toList_some,
              Option.toList_none, List.count_nil]
            omega) (fun _ h => h)).weaken fun d h => h.sub (fun _ => rfl) (fun _ h => h) .inl
        | some v =>
          unfold annotAnnots
          by_cases e : h = 0
          · rw [if_pos e]
            refine .bind (Q := fun as => Ok K (as.toList ++ (v :: p :: i :: L)) (vecs true as V) E)
              (((d_vector ih) (v :: p :: i :: L) V E fun v hv => by simp [hV v hv]).mono
                (fun d h => h.sub (fun _ => rfl) (fun _ h => h) .inl) fun r d h => h.sub (fun _ => rfl) (fun _ h => h) .inl) fun as => ?_
            cases as with
            | none =>
              exact t_annotEnd hV _ none (fun a => by
                simp only [ptrs, List.flatMap_cons, List.flatMap_nil, List.count_append, List.count_cons, Option.toList_some,
                  Option.toList_none, List.count_nil]
                omega) vecs_sub
            | some as => exact t_annotMake hV i p v (some as)
          · rw [if_neg e]
            exact (t_annotMake hV i p v none).weaken fun d h => h.sub (fun _ => rfl) (fun v hv => by simpa [vecs] using hv) .inl

/-! ## Constructs -/

theorem t_operands : ∀ (ps : List (Dec (Option Nat))), (∀ p ∈ ps, Decodes K false p) → ∀ (L V : List Nat) (E : Prop),
    (∀ v ∈ V, v ∈ L) → Triple (Ok K L V E) (operands ps) fun xs d =>
      Ok K (ptrs xs ++ L) V (E ∨ none ∈ xs) d ∧ xs.length = ps.length
  | [], _, L, V, E, hV => .pure fun d h => ⟨h.sub (fun _ => rfl) (fun _ h => h) (by simp), rfl⟩
  | p :: ps, hp, L, V, E, hV => by
    refine .bind (hp p List.mem_cons_self L V E hV) fun x => .bind (t_operands ps (fun q hq => hp q (List.mem_cons_of_mem _ hq))
      (x.toList ++ L) V _ fun v hv => List.mem_append_right _ (hV v hv)) fun xs => .pure fun d h => ⟨h.1.sub (fun a => ?_)
        (fun _ h => h) fun h => ?_, by simp [h.2]⟩
    · simp only [ptrs_cons, List.count_append]; omega
    · rcases h with h | h
      · exact .inl (.inl h)
      · rcases List.mem_cons.mp h with h | h
        · exact .inl (.inr h.symm)
        · exact .inr h

theorem t_unlessErr {L V : List Nat} {E : Prop} {p : Dec (Option Nat)}
    (h : ¬ E → Triple (Ok K L V E) p fun r => Ok K (r.toList ++ L) V E) :
    Triple (Ok K L V E) (unlessErr p) (Gives K L V E) := by
  refine .bind t_isErr fun e => .ite (fun he => .pure fun d h => ⟨h.1.inv, h.1.ext, h.1.vec, fun _ => ?_⟩) fun he => ?_
  · rw [← h.2]; exact he
  · refine .given (φ := ¬ E) (fun d h hE => he (by rw [h.2]; exact h.1.err hE)) fun hE =>
      .bind ((h hE).weaken fun d h => h.1) t_nn

theorem d_build {k : Ctor} {ps : List (Dec (Option Nat))} {last : Dec (Option Nat)} {u : Nat} (hk : k ∈ ctors)
    (hl : ps.length = k.n) (hp : ∀ p ∈ ps, Decodes K false p) (ha : Yields K (decide (k.form = .annot)) last) :
    Decodes K false (build k ps last u) := fun L V E hV => by
  refine .bind (t_operands ps hp L V E hV) fun xs => .given (φ := xs.length = ps.length) (fun d h => h.2) fun hlen =>
    .bind ((ha (ptrs xs ++ L) V _ fun v hv => List.mem_append_right _ (hV v hv)).weaken fun d h => h.1) fun a =>
    .bind (t_unlessErr fun hE => t_construct hk (hlen.trans hl) (fun hn => hE (.inr hn))
      (fun x hx => List.mem_append_right _ (List.mem_append_left _ hx)) fun x hx => ?_) fun r =>
    .bind (t_releaseAll (L := r.toList ++ L) (V := V) (a :: xs) (fun b => ?_) vecs_sub
      fun v hv => List.mem_append_right _ (hV v hv)) fun _ => .pure fun d h => h.sub (fun _ => rfl) (fun _ h => h) fun h => ?_
  · have hx' : x ∈ a.toList := by simpa using hx
    refine ⟨List.mem_append_left _ hx', fun hf => ?_⟩
    simp only [vecs, hf, decide_true, if_true]
    exact List.mem_append_left _ hx'
  · simp only [ptrs_cons, List.count_append]; omega
  · rcases h with h | h
    · exact .inl (.inl h)
    · exact .inr h

theorem d_buildPlain {t : OType} {n : Nat} {ps : List (Dec (Option Nat))} (hl : n = ps.length) (hk : (⟨t, n, .plain⟩ : Ctor) ∈ ctors)
    (hp : ∀ p ∈ ps, Decodes K false p) : Decodes K false (buildPlain t ps) :=
  d_build (hl ▸ hk) rfl hp yields_null

theorem d_facet : Decodes K false facet := fun L V E hV => by
  refine .bind (d_iri L V E hV) fun i => .bind (d_literal (i.toList ++ L) V _ fun v hv => List.mem_append_right _ (hV v hv))
    fun l => .bind (Q := fun r => Ok K (r.toList ++ (l.toList ++ (i.toList ++ L))) V (E ∨ r = none)) ?_ fun r =>
      .bind (t_releaseAll (L := r.toList ++ L) (V := V) [i, l] (fun b => ?_) (fun _ h => h)
        fun v hv => List.mem_append_right _ (hV v hv)) fun _ => .pure fun d h => h
  · unfold facetOf
    split
    · refine .bind ((t_construct (E := E) (by decide) rfl (by simp) (by simp [ptrs]) (by simp)).weaken fun d h =>
        h.sub (fun _ => rfl) (fun _ h => h) fun h => .inl (.inl h)) t_nn
    · next hne =>
      refine .pure fun d h => h.sub (fun _ => rfl) (fun _ h => h) fun _ => ?_
      cases i with
      | none => exact .inl (.inr rfl)
      | some i =>
        cases l with
        | none => exact .inr rfl
        | some l => exact absurd rfl (hne i l rfl)
  · simp only [ptrs_cons, ptrs_nil, List.count_append, List.count_nil]; omega

theorem d_all1 {p : Dec (Option Nat)} (h : Decodes K false p) : ∀ q ∈ [p], Decodes K false q := fun q hq => by
  rw [List.mem_singleton] at hq; rw [hq]; exact h

theorem d_all2 {p p' : Dec (Option Nat)} (h : Decodes K false p) (h' : Decodes K false p') :
    ∀ q ∈ [p, p'], Decodes K false q := fun q hq => by
  rcases List.mem_cons.mp hq with rfl | hq
  · exact h
  · exact d_all1 h' q hq

theorem d_dataRange (n : Nat) : Decodes K false (dataRange n) := by
  induction n with
  | zero => exact d_fail
  | succ n ih =>
    refine d_withNum fun t => .ite (d_getEnt _) ?_
    split
    · exact d_buildPlain (n := 2) rfl (by decide) (d_all2 d_ent (d_vector d_facet).weaken)
    · exact d_buildPlain (n := 1) rfl (by decide) (d_all1 (d_vector ih).weaken)
    · exact d_buildPlain (n := 1) rfl (by decide) (d_all1 (d_vector ih).weaken)
    · exact d_buildPlain (n := 1) rfl (by decide) (d_all1 ih)
    · exact d_buildPlain (n := 1) rfl (by decide) (d_all1 (d_vector d_literal).weaken)
    · exact d_fail

theorem yields_ite {b : Bool} {c : Prop} [Decidable c] {p q : Dec (Option Nat)} (h : Yields K b p) (h' : Yields K b q) :
    Yields K b (if c then p else q) := by split <;> assumption

theorem d_card {t : OType} {p f : Dec (Option Nat)} (hk : (⟨t, 1, .uint⟩ : Ctor) ∈ ctors) (hp : Decodes K false p)
    (hf : Decodes K false f) : Decodes K false (card t p f) :=
  d_withNum fun _ => d_build hk rfl (d_all1 hp) (yields_ite hf.yields yields_null)

theorem d_clsExp (n : Nat) : Decodes K false (clsExp n) := by
  induction n with
  | zero => exact d_fail
  | succ n ih =>
    refine d_withNum fun t => .ite (d_getEnt _) ?_
    split
    · exact d_build (by decide) rfl (d_all1 d_ope) ih.yields
    · exact d_build (by decide) rfl (d_all1 d_ope) ih.yields
    · exact d_card (by decide) d_ope ih
    · exact d_card (by decide) d_ope ih
    · exact d_card (by decide) d_ope ih
    · exact d_buildPlain (n := 2) rfl (by decide) (d_all2 d_ope d_ind)
    · exact d_buildPlain (n := 1) rfl (by decide) (d_all1 d_ope)
    · exact d_build (by decide) rfl (d_all1 d_ent) (d_dataRange n).yields
    · exact d_build (by decide) rfl (d_all1 d_ent) (d_dataRange n).yields
    · exact d_card (by decide) d_ent (d_dataRange n)
    · exact d_card (by decide) d_ent (d_dataRange n)
    · exact d_card (by decide) d_ent (d_dataRange n)
    · exact d_buildPlain (n := 2) rfl (by decide) (d_all2 d_ent d_literal)
    · exact d_buildPlain (n := 1) rfl (by decide) (d_all1 (d_vector ih).weaken)
    · exact d_buildPlain (n := 1) rfl (by decide) (d_all1 (d_vector ih).weaken)
    · exact d_buildPlain (n := 1) rfl (by decide) (d_all1 ih)
    · exact d_buildPlain (n := 1) rfl (by decide) (d_all1 (d_vector d_ind).weaken)
    · exact d_fail

/-! ## Axioms -/

theorem y_annots (n : Nat) (bit : Bool) : Yields K true (annots n bit) := by
  unfold annots
  split
  · exact (d_vector (d_annotation n)).yields
  · exact yields_null

theorem d_field (n : Nat) (k : FK) : Decodes K false (field n k) := by
  cases k with
  | ce => exact d_clsExp n
  | dr => exact d_dataRange n
  | ind => exact d_ind
  | ope => exact d_ope
  | iri => exact d_iri
  | iriOrAnon => exact d_iriOrAnon
  | lit => exact d_literal
  | aval => exact d_annotValue
  | ent _ => exact d_ent
  | vecCE => exact (d_vector (d_clsExp n)).weaken
  | vecInd => exact (d_vector d_ind).weaken
  | vecOpe => exact (d_vector d_ope).weaken
  | vecDpe => exact (d_vector d_ent).weaken

theorem d_hasKey (n : Nat) (bit : Bool) : Decodes K false (hasKey n bit) := fun L V E hV => by
  refine .bind (d_clsExp n L V E hV) fun x =>
    .bind ((d_vector d_ope).weaken (x.toList ++ L) V _ fun v hv => List.mem_append_right _ (hV v hv)) fun o =>
    .bind ((d_vector d_ent).weaken (o.toList ++ (x.toList ++ L)) V _ fun v hv => by simp [hV v hv]) fun p =>
    .bind (y_annots n bit (p.toList ++ (o.toList ++ (x.toList ++ L))) V _ fun v hv => by simp [hV v hv]) fun a =>
    .bind (t_unlessErr fun hE => ?_) fun r =>
    .bind (t_releaseAll (L := r.toList ++ L) (V := V) [a, p, o, x] (fun b => ?_) vecs_sub
      fun v hv => List.mem_append_right _ (hV v hv)) fun _ => .pure fun d h => h.sub (fun _ => rfl) (fun _ h => h) fun h => ?_
  · refine .bind (t_askOk _) fun c => t_mem fun d h => ?_
    obtain ⟨h1, h2, _⟩ := h
    cases x with
    | none => exact absurd (.inl (.inl (.inr rfl))) hE
    | some x =>
      cases o with
      | none => exact absurd (.inl (.inr rfl)) hE
      | some o =>
        cases p with
        | none => exact absurd (.inr rfl) hE
        | some p =>
          have hb : Blocks d.st [c.m₁, c.m₂, c.m₃] := ⟨fun m hm => h2.blocks.1 m (by
            simp only [List.mem_cons, List.not_mem_nil, or_false] at hm ⊢
            rcases hm with h | h | h <;> simp [h]), h2.blocks.2.sublist
              (.cons_cons _ (.cons_cons _ (.cons_cons _ (.cons _ (.cons _ (.cons _ (.refl _)))))))⟩
          obtain ⟨s, e1, e2, _⟩ := hasKey_spec (annot := a) (objs := some o) (datas := some p) (cls := x) h1.inv hb (h1.live (by simp))
            (fun y hy => by cases hy; exact h1.live (by simp)) (fun y hy => by cases hy; exact h1.live (by simp))
            (fun y hy => (h1.vec y (List.mem_append_left _ (by simpa using hy))).2) (by simp)
          exact ⟨s, _, e1, h1.done e2 (by simp)⟩
  · simp only [ptrs_cons, ptrs_nil, List.count_append, List.count_nil]; omega
  · rcases h with h | h
    · exact .inl (.inl (.inl (.inl h)))
    · exact .inr h

theorem chain_vec {s s' : St} (hi : Inv s []) {m : Option Nat} {sub super : Nat} {annot : Option Nat}
    (hm : ∀ a, m = some a → s.cell a = none) (hv : IsVec s sub) (hs : s.live super = true)
    (ha : ∀ x ∈ annot, IsVec s x) (he : s.chain m sub super annot = some (s', m)) : IsVec s' sub := by
  obtain ⟨b, items, hc⟩ := hv
  obtain ⟨s₁, g1, g2, g3, g4, g5, g6⟩ := setBit_spec hi hc rfl
  have h1 : ∀ x, s.live x = true → s₁.live x = true := fun x hx => by
    obtain ⟨c, hx⟩ := live_iff_cell.mp hx
    rw [live_iff_cell, g3]
    by_cases e : x = sub
    · exact ⟨_, by rw [if_pos e]⟩
    · exact ⟨c, by rw [if_neg e]; exact hx⟩
  have hsub : s₁.cell sub = some (.vec true items) := by rw [g3, if_pos rfl]; rfl
  have hm1 : ∀ a, m = some a → s₁.cell a = none := fun a e => by
    have : a ≠ sub := fun h => by have := hm a e; rw [h, hc] at this; simp at this
    rw [g3, if_neg this]; exact hm a e
  have ha1 : ∀ x ∈ annot, IsVec s₁ x := fun x hx => by
    by_cases e : x = sub
    · rw [e]; exact ⟨_, _, hsub⟩
    · obtain ⟨b, l, h⟩ := ha x hx
      exact ⟨b, l, by rw [g3, if_neg e]; exact h⟩
  have hls : s₁.live sub = true := live_iff_cell.mpr ⟨_, hsub⟩
  obtain ⟨s₂, e1, e2, _⟩ := makeAnnot_spec (fs := [sub, super]) (t := .aSubObjProp) g2 hm1 (by simp [h1 super hs, hls]) ha1
    (by simp) rfl
  unfold St.chain at he
  rw [g1] at he
  have he' : s₁.makeAnnot m .aSubObjProp ([sub, super].map some) annot = some (s', m) := he
  rw [e1] at he'
  obtain rfl := (Prod.mk.inj (Option.some.inj he')).1
  exact e2.vec ⟨_, _, hsub⟩

theorem d_subObjProp (n : Nat) (chain bit : Bool) : Decodes K false (subObjProp n chain bit) := fun L V E hV => by
  have hx : Triple (Ok K L V E) (either chain (vector ope) ope) fun r =>
      Ok K (r.toList ++ L) (vecs chain r V) (E ∨ r = none) := by
    cases chain with
    | true => exact d_vector d_ope L V E hV
    | false => exact d_ope L V E hV
  refine Triple.bind (R := Gives K L V E) hx fun x => .bind (d_ope (x.toList ++ L) _ _ (vecs_in hV)) fun y =>
    .bind (y_annots n bit (y.toList ++ (x.toList ++ L)) (vecs chain x V) _ fun v hv =>
      List.mem_append_right _ (vecs_in hV v hv)) fun a =>
    .bind (t_askOk _) fun c =>
    .bind (Q := fun r => Ok K (r.toList ++ (a.toList ++ (y.toList ++ (x.toList ++ L)))) V E) (t_mem fun d h => ?_) fun r =>
    .bind (t_nn r) fun r =>
    .bind (t_releaseAll (L := r.toList ++ L) (V := V) [a, y, x] (fun b => ?_) (fun _ h => h)
      fun v hv => List.mem_append_right _ (hV v hv)) fun _ => .pure fun d h => h
  · obtain ⟨h1, h2, h3⟩ := h
    have h1' := h1.sub (V' := V) (E' := E) (fun _ => rfl) (fun v hv => vecs_sub v (vecs_sub v hv)) fun h => .inl (.inl h)
    have h4 : none ∉ [x, y] ∨ chain = false ∧ c.m₁ = none := h3
    have hm : ∀ a, c.m₁ = some a → d.st.cell a = none := h2.blocks.1 _ (by simp)
    have ha : ∀ z ∈ a, IsVec d.st z := fun z hz => (h1.vec z (List.mem_append_left _ (by simpa using hz))).2
    have hal : ∀ z ∈ a, d.st.live z = true := fun z hz => h1.live (List.mem_append_left _ (by simpa using hz))
    by_cases hn : none ∈ [x, y]
    · rcases h4 with h4 | ⟨rfl, h4⟩
      · exact absurd hn h4
      · refine ⟨d.st, none, ?_, h1'⟩
        show makeRun d.st c.m₁ _ [x, y] a 0 = _
        rw [h4]
        have : notNull [x, y] = none := by
          cases x with
          | none => rfl
          | some x =>
            cases y with
            | none => rfl
            | some y => simp at hn
        unfold makeRun
        rw [this]; rfl
    · cases chain with
      | false =>
        obtain ⟨s, e1, e2⟩ := makeRun_ok (k := ⟨.aSubObjProp, 2, .annot⟩) (xs := [x, y]) (opt := a) (u := 0) h1.inv (by decide) rfl hn
          (fun z hz => h1.live (by
            simp only [ptrs_cons, ptrs_nil, List.append_nil, List.mem_append] at hz ⊢
            rcases hz with hz | hz
            · exact .inr (.inr (.inl hz))
            · exact .inr (.inl hz)))
          (fun z hz => ⟨hal z hz, fun _ => ha z hz⟩) hm
        exact ⟨s, _, e1, h1'.made e2⟩
      | true =>
        cases x with
        | none => simp at hn
        | some x =>
          cases y with
          | none => simp at hn
          | some y =>
            have hvx : IsVec d.st x := (h1.vec x (by simp [vecs])).2
            obtain ⟨s, e1, e2, _⟩ := chain_spec (super := y) (annot := a) h1.inv hm hvx (h1.live (by simp)) ha
            refine ⟨s, _, e1, h1'.done e2 fun v e => ?_⟩
            cases e
            exact chain_vec h1.inv hm hvx (h1.live (by simp)) ha e1
  · simp only [ptrs_cons, ptrs_nil, List.count_append, List.count_nil]; omega

theorem ctor_axiom : ∀ t ∈ axTypes, t ≠ .aHasKey → ∀ ks ∈ axFields t, (⟨t, ks.length, .annot⟩ : Ctor) ∈ ctors := by
  decide +kernel

theorem d_axiom (n h : Nat) : Decodes K false (decAxiom n h) := by
  unfold decAxiom
  dsimp only
  split
  · exact d_build (by decide) rfl (d_all1 d_ent) (y_annots n _)
  · split
    · exact d_subObjProp n _ _
    · exact d_hasKey n _
    · next t _ hk ht =>
      split
      · next ks hks =>
        refine d_build (ctor_axiom t (List.mem_of_getElem? ht) (fun e => hk (by rw [e])) ks hks) (by simp) (fun p hp => ?_) (y_annots n _)
        obtain ⟨k, _, rfl⟩ := List.mem_map.mp hp
        exact d_field n k
      · exact d_fail
    · exact d_fail

end
end Cowl.DOwn
