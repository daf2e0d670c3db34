import Verif.PrtOwnLemmas
/-!
# References held by the ProtocOWL reader: frames

The functions for frames leave things as they are, but for the index.
-/
namespace Cowl.DOwn
open Cowl.Own
open Cowl.YOwn (HOp hopsRun HopsFair hops_spec Shrink)

section
variable {K : List Nat}

theorem Keeps.bind {α β : Type} {p : Dec α} {f : α → Dec β} (h : Keeps K p) (h' : ∀ a, Keeps K (f a)) :
    Keeps K (p >>= f) := fun L V E hV => .bind (h L V E hV) fun a => h' a L V E hV

theorem Keeps.pure {α : Type} {a : α} : Keeps K (Pure.pure a : Dec α) := fun _ _ _ _ => .pure fun _ h => h

theorem Keeps.ite {α : Type} {c : Prop} [Decidable c] {p q : Dec α} (h : Keeps K p) (h' : Keeps K q) :
    Keeps K (if c then p else q) := by split <;> assumption

theorem Keeps.either {α : Type} {c : Bool} {p q : Dec α} (h : Keeps K p) (h' : Keeps K q) :
    Keeps K (either c p q) := by unfold DOwn.either; split <;> assumption

theorem k_isErr : Keeps K isErr := fun _ _ _ _ => t_isErr.post fun _ _ h => h.1

theorem k_ask (x : Site) : Keeps K (ask x) := fun _ _ _ _ => (t_askOk x).post fun _ _ h => h.1

theorem k_num (x : Site) : Keeps K (numAt x) := fun _ _ _ _ => (t_num x).post fun _ _ h =>
  h.1.sub (fun _ => rfl) (fun _ h => h) .inl

theorem k_failed : Keeps K failed := fun L V E _ => .bind t_fail fun _ => .pure fun _ h =>
  h.2.sub (fun _ => rfl) (fun _ h => h) fun _ => trivial

theorem t_handle {L V : List Nat} {E : Prop} {g : List Nat} (hg : ∀ a ∈ g, a ∈ L) :
    Triple (Ok K L V E) (handle g) fun _ => Ok K L V E := by
  refine .bind (t_askOk _) fun c d h _ => ?_
  obtain ⟨h1, h2, _⟩ := h
  have hT : ∀ a, d.st.ext a = d.others a + (K ++ d.ids ++ d.nss ++ L).count a := fun a => by
    rw [h1.ext]; simp only [List.count_append]
  obtain ⟨s, o, e1, e2, e3, e4, _⟩ := hops_spec (T := K ++ d.ids ++ d.nss ++ L) (fun x hx => List.mem_append_right _ (hg x hx))
    h1.inv hT (h2.hops g rfl)
  have hx : ∀ a, s.ext a = o a + (K.count a + d.ids.count a + d.nss.count a + L.count a) := fun a => by
    rw [e3]; simp only [List.count_append]
  refine ⟨(), { d with st := s, others := o, err := d.err || c.ret.isErr }, ?_, e2, hx, fun v hv => ?_, fun hE => ?_⟩
  · rw [if_pos (List.all_eq_true.mpr fun a ha => h1.live (hg a ha))]
    dsimp only at e1
    rw [e1]
  · obtain ⟨h5, b, items, h6⟩ := h1.vec v hv
    refine ⟨h5, b, items, ?_⟩
    have hlv : s.live v = true := live_of_ext e2 (by
      rw [hx]
      have := List.count_pos_iff.mpr h5
      omega)
    obtain ⟨c', hc'⟩ := live_iff_cell.mp hlv
    have := e4 v c' hc'
    rw [h6] at this
    show s.cell v = _
    rw [hc', ← this]
  · show (d.err || _) = true
    rw [h1.err hE]; rfl

theorem k_tell {p : Dec (Option Nat)} (h : Decodes K false p) : Keeps K (tell p) := fun L V E hV => by
  refine .bind (h L V E hV) fun r => ?_
  cases r with
  | none => exact .pure fun d h => h.sub (fun _ => rfl) (fun _ h => h) .inl
  | some a =>
    exact .bind (t_handle (g := [a]) (by simp)) fun _ => (t_release1 (L := L) (V := V) (some a)
      (fun b => by rw [List.count_append]) (fun _ h => h) hV).post fun _ d h => h.sub (fun _ => rfl) (fun _ h => h) .inl

theorem t_addNsIn {L V : List Nat} {E : Prop} {a : Nat} (ha : a ∈ L) : Triple (Ok K L V E) (addNs a) fun _ => Ok K L V E :=
  (t_addNs a).weaken fun _ h => ⟨h, h.live ha⟩

theorem t_addIdIn {L V : List Nat} {E : Prop} {a : Nat} (ha : a ∈ L) : Triple (Ok K L V E) (addId a) fun _ => Ok K L V E :=
  (t_addId a).mono (fun _ h => ⟨h, h.live ha⟩) fun _ _ h => h.1

theorem k_prefixDecl : Keeps K prefixDecl := fun L V E hV => by
  refine .bind (d_string L V E hV) fun p => .bind (d_string (p.toList ++ L) V _ fun v hv => List.mem_append_right _ (hV v hv))
    fun n => .bind (Q := fun _ => Ok K (n.toList ++ (p.toList ++ L)) V E) ?_ fun _ => t_releaseAll [p, n] (fun b => ?_)
      (fun _ h => h) hV
  · refine Triple.weaken (P := Ok K (n.toList ++ (p.toList ++ L)) V E) ?_ fun d h => h.sub (fun _ => rfl) (fun _ h => h)
      fun h => .inl (.inl h)
    have hV' : ∀ v ∈ V, v ∈ n.toList ++ (p.toList ++ L) := fun v hv => by simp [hV v hv]
    cases p with
    | none => exact .pure fun _ h => h
    | some p =>
      cases n with
      | none => exact .pure fun _ h => h
      | some n =>
        exact .bind (k_ask _ _ V E hV') fun c => .ite (fun _ => .bind (t_addNsIn (by simp)) fun _ => t_handle (by simp))
          fun _ => k_failed _ V E hV'
  · simp only [ptrs_cons, ptrs_nil, List.count_append, List.count_nil]; omega

theorem k_nsDecl : Keeps K nsDecl := fun L V E hV => by
  refine .bind (d_string L V E hV) fun n => ?_
  cases n with
  | none => exact .pure fun d h => h.sub (fun _ => rfl) (fun _ h => h) .inl
  | some a =>
    have hV' : ∀ v ∈ V, v ∈ a :: L := fun v hv => by simp [hV v hv]
    refine Triple.weaken (P := Ok K (a :: L) V E) ?_ fun d h => h.sub (fun _ => rfl) (fun _ h => h) .inl
    refine .bind (k_ask _ _ V E hV') fun c => .bind (Q := fun _ => Ok K (a :: L) V E) ?_ fun _ => t_release1 (some a)
      (fun b => by simp only [List.count_cons, Option.toList_some, List.count_nil]; omega) (fun _ h => h) hV
    unfold DOwn.either
    exact .ite (fun _ => t_addNsIn (by simp)) fun _ => k_failed _ V E hV'

theorem t_declare {L V : List Nat} {E : Prop} (hV : ∀ v ∈ V, v ∈ L) (t : Nat) (i : Option Nat) :
    Triple (Ok K (i.toList ++ (t :: L)) V E) (declare (some t) i) fun _ => Ok K L V E := by
  cases i with
  | none =>
    exact .bind (k_failed _ V E fun v hv => by simp [hV v hv]) fun _ => t_release1 (some t)
      (fun b => by simp only [List.count_cons, Option.toList_some, Option.toList_none, List.nil_append, List.count_nil]; omega)
        (fun _ h => h) hV
  | some a =>
    have hV' : ∀ v ∈ V, v ∈ a :: t :: L := fun v hv => by simp [hV v hv]
    refine .bind (k_ask _ _ V E hV') fun c => .bind (Q := fun _ => Ok K (a :: t :: L) V E) ?_ fun _ => t_releaseAll [some t, some a]
      (fun b => ?_) (fun _ h => h) hV
    · unfold DOwn.either
      exact .ite (fun _ => t_addIdIn (by simp)) fun _ => k_failed _ V E hV'
    · simp only [ptrs_cons, ptrs_nil, List.count_append, List.count_cons, Option.toList_some, List.count_nil]; omega

theorem t_getNs {L V : List Nat} {E : Prop} (k : Nat) :
    Triple (Ok K L V E) (getNs k) fun r d => Ok K L V E d ∧ ∀ a, r = some a → a ∈ d.nss := fun d h _ =>
  ⟨_, _, rfl, h, fun _ e => List.mem_of_getElem? e⟩

theorem k_iriDecl : Keeps K iriDecl := fun L V E hV => by
  refine .bind (k_num .num L V E hV) fun k => ?_
  cases k with
  | none => exact .pure fun _ h => h
  | some k =>
    refine .bind (d_string L V E hV) fun t => ?_
    cases t with
    | none => exact .pure fun d h => h.sub (fun _ => rfl) (fun _ h => h) .inl
    | some t =>
      refine .bind (t_getNs k) fun n => ?_
      cases n with
      | none => exact (t_declare hV t none).weaken fun d h => h.1.sub (fun _ => rfl) (fun _ h => h) .inl
      | some n =>
        refine .bind ((t_leaf .leaf [n, t]).mono (fun d h => ⟨h.1.sub (L' := t :: L) (V' := V) (E' := E) (fun _ => rfl)
          (fun _ h => h) .inl, fun x hx => ?_⟩) fun r d h => h.1) fun i => t_declare hV t i
        rcases List.mem_cons.mp hx with rfl | hx
        · exact h.1.live_ns (h.2 x rfl)
        · rw [List.mem_singleton] at hx; subst hx; exact h.1.live (by simp)

theorem k_anonDecl : Keeps K anonDecl := fun L V E hV => by
  refine .bind (d_string L V E hV) fun t => ?_
  cases t with
  | none => exact .pure fun d h => h.sub (fun _ => rfl) (fun _ h => h) .inl
  | some t =>
    refine .bind ((t_leaf .leaf [t]).mono (fun d h => ⟨h.sub (L' := t :: L) (V' := V) (E' := E) (fun _ => rfl)
      (fun _ h => h) .inl, fun x hx => ?_⟩) fun r d h => h.1) fun i => t_declare hV t i
    rw [List.mem_singleton] at hx; subst hx; exact h.live (by simp)

theorem k_loop {p : Dec Unit} (h : Keeps K p) (n : Nat) : Keeps K (loop p n) := by
  induction n with
  | zero => exact .pure
  | succ n ih => exact k_isErr.bind fun e => .ite .pure (h.bind fun _ => ih)

theorem k_counted {p : Dec Unit} (h : Keeps K p) : Keeps K (counted p) := by
  refine (k_num .num).bind fun n => ?_
  cases n with
  | none => exact .pure
  | some n => exact k_loop h n

theorem t_takeNs {L V : List Nat} {E : Prop} : Triple (Ok K L V E) takeNs fun l d => Ok K (l ++ L) V E d ∧ d.nss = [] :=
  fun d h _ => ⟨_, _, rfl, ⟨h.inv, fun a => by
    show d.st.ext a = d.others a + (K.count a + d.ids.count a + [].count a + (d.nss ++ L).count a)
    rw [h.ext, List.count_append, List.count_nil]; omega, fun v hv => ⟨List.mem_append_right _ (h.vec v hv).1, (h.vec v hv).2⟩, h.err⟩, rfl⟩

theorem t_takeIds {L V : List Nat} {E : Prop} {N : List Nat} : Triple (fun d => Ok K L V E d ∧ d.nss = N) takeIds
    fun l d => Ok K (l ++ L) V E d ∧ d.ids = [] ∧ d.nss = N :=
  fun d h _ => ⟨_, _, rfl, ⟨h.1.inv, fun a => by
    show d.st.ext a = d.others a + (K.count a + [].count a + d.nss.count a + (d.ids ++ L).count a)
    rw [h.1.ext, List.count_append, List.count_nil]; omega,
    fun v hv => ⟨List.mem_append_right _ (h.1.vec v hv).1, (h.1.vec v hv).2⟩, h.1.err⟩, rfl, h.2⟩

theorem t_clearNs {L V : List Nat} {E : Prop} (hV : ∀ v ∈ V, v ∈ L) :
    Triple (Ok K L V E) clearNs fun _ d => Ok K L V E d ∧ d.nss = [] := by
  refine .bind t_takeNs fun l d h hl => ?_
  obtain ⟨u, d', e1, e2⟩ := t_releaseAllAt (K := K) (L := L) (V := V) (E := E) (I := d.ids) (N := []) (L₀ := l ++ L) (W := V) (l.map some) (fun a => by rw [ptrs_map, List.count_append])
    (fun _ h => h) hV d ⟨h.1, rfl, h.2⟩ hl
  exact ⟨u, d', e1, e2.1, e2.2.2⟩

theorem t_clearIds {L V : List Nat} {E : Prop} {N : List Nat} (hV : ∀ v ∈ V, v ∈ L) :
    Triple (fun d => Ok K L V E d ∧ d.nss = N) clearIds fun _ d => Ok K L V E d ∧ d.ids = [] ∧ d.nss = N := by
  refine .bind t_takeIds fun l d h hl => ?_
  obtain ⟨u, d', e1, e2⟩ := t_releaseAllAt (K := K) (L := L) (V := V) (E := E) (I := []) (N := N) (L₀ := l ++ L) (W := V) (l.map some) (fun a => by rw [ptrs_map, List.count_append])
    (fun _ h => h) hV d ⟨h.1, h.2⟩ hl
  exact ⟨u, d', e1, e2⟩

theorem k_clearNs : Keeps K clearNs := fun _ _ _ hV => (t_clearNs hV).post fun _ _ h => h.1

theorem k_clearIds : Keeps K clearIds := fun L V E hV d h hl => by
  obtain ⟨u, d', e1, e2⟩ := t_clearIds (K := K) (E := E) (N := d.nss) hV d ⟨h, rfl⟩ hl
  exact ⟨u, d', e1, e2.1⟩

theorem k_addStd {l : List Nat} (h : ∀ a ∈ l, a ∈ K) : Keeps K (addStd l) := by
  induction l with
  | nil => exact .pure
  | cons a l ih =>
    refine (k_ask _).bind fun c => .ite (Keeps.bind (fun L V E _ => (t_addNs a).weaken fun _ h' =>
      ⟨h', h'.live_std (h a (by simp))⟩) fun _ => ih fun x hx => h x (List.mem_cons_of_mem _ hx)) .pure

theorem k_initNs {l : List Nat} (h : ∀ a ∈ l, a ∈ K) : Keeps K (initNs l) :=
  (k_addStd h).bind fun _ => .ite .pure (k_clearNs.bind fun _ => k_failed)

theorem k_reset {l : List Nat} (h : ∀ a ∈ l, a ∈ K) (ns ids : Bool) : Keeps K (reset l ns ids) :=
  (Keeps.either (k_clearNs.bind fun _ => k_initNs h) .pure).bind fun _ => k_isErr.bind fun _ => .either k_clearIds .pure

theorem k_iriVersion (v : Bool) : Keeps K (iriVersion v) :=
  (k_tell d_iri).bind fun _ => .either (k_tell d_iri) .pure

theorem k_frameOf {l : List Nat} (h : ∀ a ∈ l, a ∈ K) (n x : Nat) : Keeps K (frameOf l n x) := by
  unfold frameOf
  split
  · exact .pure
  · exact .pure
  · exact (k_reset h _ _).bind fun _ => .pure
  · exact .pure
  · exact (k_counted (.ite k_prefixDecl k_nsDecl)).bind fun _ => .pure
  · exact (k_counted (.ite k_iriDecl k_anonDecl)).bind fun _ => .pure
  · exact (k_iriVersion _).bind fun _ => .pure
  · exact (k_counted (k_tell d_iri)).bind fun _ => .pure
  · exact (k_counted (k_tell (d_annotation n))).bind fun _ => .pure
  · exact (k_tell (d_axiom n x)).bind fun _ => .pure

theorem k_frame {l : List Nat} (h : ∀ a ∈ l, a ∈ K) (n : Nat) : Keeps K (frame l n) :=
  (k_ask .num).bind fun c => by
    split
    · exact .pure
    · exact k_frameOf h n _

theorem k_frames {l : List Nat} (h : ∀ a ∈ l, a ∈ K) (n k : Nat) : Keeps K (frames l n k) := by
  induction k with
  | zero => exact .pure
  | succ k ih => exact k_isErr.bind fun _ => .ite .pure ((k_frame h n).bind fun _ => .ite ih .pure)

theorem k_header : Keeps K header :=
  (k_num .num).bind fun v => by
    split
    · exact .pure
    · exact k_failed

theorem t_read {l : List Nat} (h : ∀ a ∈ l, a ∈ K) (n k : Nat) :
    Triple (Ok K [] [] False) (read l n k) fun _ d => Ok K [] [] False d ∧ d.ids = [] ∧ d.nss = [] := by
  have hV : ∀ v ∈ ([] : List Nat), v ∈ ([] : List Nat) := fun _ h => h
  exact .bind (k_initNs h [] [] False hV) fun _ => .bind (k_isErr [] [] False hV) fun e =>
    .bind (Keeps.either .pure (k_header.bind fun _ => k_frames h n k) [] [] False hV) fun _ =>
    .bind (t_clearNs hV) fun _ => t_clearIds hV

end
end Cowl.DOwn
