import Verif.OntoLemmas
/-! # The invariant relating an ontology to its contents -/
namespace Cowl
open ObjSpec IterSpec OntoSpec

/-- What the index of a primitive holds: each axiom once per mention. -/
def refsTo (p : Prim) (held : List Ref) : List Ref :=
  held.flatMap fun a => List.replicate (times p a.obj) a

/-- The indices describe the contents. -/
structure Inv (o : Onto) (s : Abs) : Prop where
  enabled : o.disabled = false
  axioms : ∀ a ∈ s.axioms, IsAxiom a.obj
  fits : ∀ a ∈ s.axioms, Fits s.axioms a
  type : ∀ t, ((o.tindex t).getD []).Perm (s.axioms.filter fun a => axType a.obj = t)
  prim : ∀ p, (ix o.idx p).Perm (refsTo p s.axioms)
  nodup : (o.idx.map Prod.fst).Nodup
  keys : ∀ p x, x ∈ s.axioms ∨ x ∈ s.annots → 0 < times p x.obj → p ∈ o.idx.map Prod.fst
  annot : o.annot.getD [] = s.annots
  imports : o.imports.getD [] = s.imports

theorem inv_empty : Inv Onto.empty Abs.empty := by
  refine ⟨rfl, ?_, ?_, ?_, ?_, ?_, ?_, rfl, rfl⟩ <;> simp [Onto.empty, Abs.empty, Onto.tindex, refsTo, ix]

theorem pindex_getD (o : Onto) (p : Prim) : (o.pindex p).getD [] = ix o.idx p := rfl

theorem mem_refsTo {p : Prim} {held : List Ref} {a : Ref} :
    a ∈ refsTo p held ↔ a ∈ held ∧ 0 < times p a.obj := by
  simp only [refsTo, List.mem_flatMap, List.mem_replicate]
  constructor
  · rintro ⟨b, hb, h1, rfl⟩; exact ⟨hb, by omega⟩
  · rintro ⟨h1, h2⟩; exact ⟨a, h1, by omega, rfl⟩

theorem isAxiom_axType {x : Obj} (h : IsAxiom x) :
    axType x < 37 ∧ ∀ t, x.otype.code = OType.aDecl.code + t ↔ axType x = t := by
  have h2 : x.otype.isAxiom = true := by
    obtain ⟨_, h⟩ := h
    cases x <;> simp at h
    exact h
  unfold axType
  simp only [OType.isAxiom, Bool.and_eq_true, decide_eq_true_eq] at h2
  have e : OType.aAnnotPropRange.code = OType.aDecl.code + 36 := by decide
  exact ⟨by omega, fun t => by omega⟩

theorem refsTo_perm {p : Prim} {xs ys : List Ref} (h : xs.Perm ys) :
    (refsTo p xs).Perm (refsTo p ys) := h.flatMap_right _

theorem inv_perm {o : Onto} {s s' : Abs} (h : Inv o s) (h1 : s.axioms.Perm s'.axioms)
    (h2 : s.annots = s'.annots) (h3 : s.imports = s'.imports) : Inv o s' where
  enabled := h.enabled
  axioms a ha := h.axioms a (h1.mem_iff.2 ha)
  fits a ha b hb := h.fits a (h1.mem_iff.2 ha) b (h1.mem_iff.2 hb)
  type t := (h.type t).trans (h1.filter _)
  prim p := (h.prim p).trans (refsTo_perm h1)
  nodup := h.nodup
  keys p x hx := h.keys p x (by rw [h1.mem_iff, h2]; exact hx)
  annot := h.annot.trans h2
  imports := h.imports.trans h3

/-! ## Adding -/

theorem inv_addAxiom {o : Onto} {s : Abs} {a : Ref} (h : Inv o s) (ha : IsAxiom a.obj)
    (hf : Fits s.axioms a) : Inv (o.addAxiom a) { s with axioms := s.axioms ++ [a] } := by
  have hidx : (o.addAxiom a).idx = (occ a.obj).foldl (putAxiom a) o.idx := by
    simp only [Onto.addAxiom, h.enabled]
    exact iterPrims_fold _ _ _
  constructor
  · exact h.enabled
  · intro b hb
    rcases List.mem_append.1 hb with hb | hb
    · exact h.axioms b hb
    · simp at hb; subst hb; exact ha
  · intro b hb c hc hbc
    rcases List.mem_append.1 hb with hb' | hb' <;> rcases List.mem_append.1 hc with hc' | hc'
    · exact h.fits b hb' c hc' hbc
    · simp at hc'; subst hc'; exact (hf b hb' hbc.symm).symm
    · simp at hb'; subst hb'; exact hf c hc' hbc
    · simp at hb' hc'; rw [hb', hc']
  · intro t
    simp only [Onto.addAxiom, Onto.tindex, setType]
    rw [List.filter_append]
    by_cases ht : t = axType a.obj
    · subst ht
      rw [if_pos rfl]
      simpa [vecPtrAdd, Onto.tindex] using (h.type _).append_right [a]
    · have ht' : ¬ axType a.obj = t := fun h => ht h.symm
      rw [if_neg ht]
      simpa [ht', Onto.tindex] using h.type t
  · intro p
    rw [hidx, ix_putAll, count_occ p _ ha.1]
    simp only [refsTo, List.flatMap_append, List.flatMap_cons, List.flatMap_nil, List.append_nil]
    exact (h.prim p).append_right _
  · rw [hidx]; exact nodup_putAll a _ _ h.nodup
  · intro p x hx hp
    rw [hidx, keys_putAll]
    rcases hx with hx | hx
    · rcases List.mem_append.1 hx with hx | hx
      · exact .inl (h.keys p x (.inl hx) hp)
      · simp at hx; subst hx
        right
        rw [mem_occ_iff _ _ ha.1, ← times_pos]
        exact hp
    · exact .inl (h.keys p x (.inr hx) hp)
  · exact h.annot
  · exact h.imports

theorem inv_addAnnot {o : Onto} {s : Abs} {x : Ref} (h : Inv o s) (hx : WellFormed x.obj) :
    Inv (o.addAnnot x) { s with annots := s.annots ++ [x] } := by
  have hidx : (o.addAnnot x).idx = (occ x.obj).foldl putKey o.idx := by
    simp only [Onto.addAnnot]
    exact iterPrims_fold _ _ _
  obtain ⟨h1, h2, h3⟩ := putKeys_spec (occ x.obj) o.idx
  constructor
  · exact h.enabled
  · exact h.axioms
  · exact h.fits
  · exact h.type
  · intro p; rw [hidx, h1]; exact h.prim p
  · rw [hidx]; exact h3 h.nodup
  · intro p y hy hp
    rw [hidx, h2]
    rcases hy with hy | hy
    · exact .inl (h.keys p y (.inl hy) hp)
    · rcases List.mem_append.1 hy with hy | hy
      · exact .inl (h.keys p y (.inr hy) hp)
      · simp at hy; subst hy
        right
        rw [mem_occ_iff _ _ hx, ← times_pos]
        exact hp
  · simp [Onto.addAnnot, vecPtrAdd, h.annot]
  · exact h.imports

/-! ## Vectors of annotations and imports -/

theorem eraseP_eq_eraseIdx {α : Type} (q : α → Bool) : ∀ (xs : List α),
    xs.eraseP q = match xs.findIdx? q with | none => xs | some i => xs.eraseIdx i
  | [] => by simp
  | x :: xs => by
    rw [List.eraseP_cons, List.findIdx?_cons]
    by_cases h : q x = true
    · simp [h]
    · have := eraseP_eq_eraseIdx q xs
      rw [this]
      cases xs.findIdx? q <;> simp [h]

theorem vecPtrRemove_spec (v : Option (List Ref)) (x : Ref) :
    (vecPtrRemove v x).1.getD [] = (v.getD []).eraseP (fun y => y.obj.equals x.obj) ∧
    (vecPtrRemove v x).2 = (v.getD []).any fun y => y.obj.equals x.obj := by
  unfold vecPtrRemove
  cases v with
  | none => simp
  | some xs =>
    simp only [Option.getD_some]
    rw [eraseP_eq_eraseIdx]
    cases hx : xs.findIdx? (fun y => y.obj.equals x.obj) with
    | none =>
      rw [List.findIdx?_eq_none_iff] at hx
      simp only [Option.getD_some, true_and]
      symm
      rw [List.any_eq_false]
      intro y hy
      simpa using hx y hy
    | some i =>
      rw [List.findIdx?_eq_some_iff_getElem] at hx
      obtain ⟨hi, h1, _⟩ := hx
      refine ⟨?_, ?_⟩
      · dsimp only
        split
        · rename_i h0
          exact (List.length_eq_zero_iff.1 h0).symm
        · rfl
      · symm
        rw [List.any_eq_true]
        exact ⟨_, List.getElem_mem hi, h1⟩

theorem inv_removeAnnot {o : Onto} {s : Abs} (x : Ref) (h : Inv o s) :
    Inv (o.removeAnnot x).1 { s with annots := s.annots.eraseP fun y => y.obj.equals x.obj } := by
  refine ⟨h.enabled, h.axioms, h.fits, h.type, h.prim, h.nodup, ?_, ?_, h.imports⟩
  · intro p y hy
    refine h.keys p y (hy.imp id ?_)
    intro h; exact List.mem_of_mem_eraseP h
  · simp only [Onto.removeAnnot]
    rw [(vecPtrRemove_spec _ _).1, h.annot]

theorem inv_addImport {o : Onto} {s : Abs} (x : Ref) (h : Inv o s) :
    Inv (o.addImport x) { s with imports := s.imports ++ [x] } := by
  refine ⟨h.enabled, h.axioms, h.fits, h.type, h.prim, h.nodup, h.keys, h.annot, ?_⟩
  simp [Onto.addImport, vecPtrAdd, h.imports]

theorem inv_removeImport {o : Onto} {s : Abs} (x : Ref) (h : Inv o s) :
    Inv (o.removeImport x).1 { s with imports := s.imports.eraseP fun y => y.obj.equals x.obj } := by
  refine ⟨h.enabled, h.axioms, h.fits, h.type, h.prim, h.nodup, h.keys, h.annot, ?_⟩
  simp only [Onto.removeImport]
  rw [(vecPtrRemove_spec _ _).1, h.imports]

/-! ## Removing an axiom -/

theorem eraseP_addr_perm {xs : List Ref} {a : Ref} (hf : Fits xs a) (ha : a ∈ xs) :
    xs.Perm (a :: xs.eraseP fun b => b.addr = a.addr) := by
  rw [eraseP_eq_eraseIdx]
  cases hx : xs.findIdx? (fun b => decide (b.addr = a.addr)) with
  | none =>
    rw [List.findIdx?_eq_none_iff] at hx
    exact absurd (hx a ha) (by simp)
  | some i =>
    rw [List.findIdx?_eq_some_iff_getElem] at hx
    obtain ⟨hi, h1, _⟩ := hx
    have := hf _ (List.getElem_mem hi) (by simpa using h1)
    have hp := perm_getElem_eraseIdx xs i hi
    rw [this] at hp
    exact hp

theorem eraseP_addr_absent {xs : List Ref} {a : Ref} (h : ∀ b ∈ xs, b.addr ≠ a.addr) :
    (xs.eraseP fun b => b.addr = a.addr) = xs :=
  List.eraseP_of_forall_not (fun b hb => by simpa using h b hb)

theorem addr_absent {xs : List Ref} {a : Ref} (hf : Fits xs a) (ha : a ∉ xs) :
    ∀ b ∈ xs, b.addr ≠ a.addr := fun b hb h => ha (hf b hb h ▸ hb)

theorem tindex_some {o : Onto} {s : Abs} {a : Ref} (h : Inv o s) (ha : a ∈ s.axioms) :
    ∃ v, o.tindex (axType a.obj) = some v := by
  cases hv : o.tindex (axType a.obj) with
  | some v => exact ⟨v, rfl⟩
  | none =>
    have h1 := (h.type (axType a.obj)).mem_iff (a := a)
    rw [hv] at h1
    simp [ha] at h1

/-- Unindexing by address takes out exactly the address, if present. -/
theorem inv_removeAndUnindex {o : Onto} {s : Abs} {a : Ref} (h : Inv o s) (haa : IsAxiom a.obj)
    (hf : Fits s.axioms a) (hv : ∃ v, o.tindex (axType a.obj) = some v) :
    ∃ o', o.removeAndUnindex a = some o' ∧ o'.refs = bump o.refs a.addr (-1) ∧
      (∀ p, ix o'.idx p = dropN a (times p a.obj) (ix o.idx p)) ∧
      (∀ t, (o'.tindex t).getD [] = if t = axType a.obj then dropLastAt a ((o.tindex t).getD [])
        else (o.tindex t).getD []) ∧
      (o'.idx.map Prod.fst = o.idx.map Prod.fst) ∧
      Inv o' { s with axioms := s.axioms.eraseP fun b => b.addr = a.addr } := by
  obtain ⟨v, hv⟩ := hv
  refine ⟨_, by simp only [Onto.removeAndUnindex, hv]; rfl, ?_⟩
  have hidx : (iterPrims Masks.pfAll (fun m p => (takeAxiom a m p, Ret.ok)) a.obj o.idx).1 =
      (occ a.obj).foldl (takeAxiom a) o.idx := iterPrims_fold _ _ _
  have hix : ∀ p, ix ((occ a.obj).foldl (takeAxiom a) o.idx) p =
      dropN a (times p a.obj) (ix o.idx p) := fun p => by rw [ix_takeAll, count_occ p _ haa.1]
  have hty : ∀ t, ((setType o.byType (axType a.obj) (some (dropLastAt a v))) t).getD [] =
      if t = axType a.obj then dropLastAt a ((o.tindex t).getD []) else (o.tindex t).getD [] := by
    intro t
    simp only [setType]
    split
    · rename_i h1; subst h1; rw [hv]; rfl
    · rfl
  refine ⟨rfl, ?_, hty, ?_, ?_⟩
  · intro p; simp only [hidx]; exact hix p
  · simp only [hidx]; exact keys_takeAll a _ _
  have hsub : ∀ b, b ∈ (s.axioms.eraseP fun b => b.addr = a.addr) → b ∈ s.axioms :=
    fun b hb => List.mem_of_mem_eraseP hb
  have fits_of : ∀ {xs : List Ref}, (∀ b ∈ xs, b ∈ s.axioms) → Fits xs a :=
    fun hx b hb => hf b (hx b hb)
  constructor
  · exact h.enabled
  · exact fun b hb => h.axioms b (hsub b hb)
  · exact fun b hb c hc => h.fits b (hsub b hb) c (hsub c hc)
  · intro t
    show (setType o.byType (axType a.obj) (some (dropLastAt a v)) t).getD [] |>.Perm _
    rw [hty]
    have hm : ∀ b ∈ (o.tindex t).getD [], b ∈ s.axioms := fun b hb =>
      (List.mem_filter.1 ((h.type t).mem_iff.1 hb)).1
    by_cases ha : a ∈ s.axioms
    · have hp := eraseP_addr_perm hf ha
      have h1 := (h.type t).trans (hp.filter _)
      by_cases ht : t = axType a.obj
      · rw [if_pos ht]
        subst ht
        rw [List.filter_cons_of_pos (by simp)] at h1
        have h2 := dropLastAt_perm (fits_of hm) (h1.mem_iff.2 (List.mem_cons_self ..))
        exact List.Perm.cons_inv (h2.symm.trans h1)
      · rw [if_neg ht]
        rwa [List.filter_cons_of_neg (by simpa using fun h => ht h.symm)] at h1
    · have hab := addr_absent hf ha
      rw [eraseP_addr_absent hab]
      split
      · rw [dropLastAt_absent (fun b hb => hab b (hm b hb))]; exact h.type t
      · exact h.type t
  · intro p
    simp only [hidx, hix]
    have hm : ∀ b ∈ ix o.idx p, b ∈ s.axioms := fun b hb =>
      (mem_refsTo.1 ((h.prim p).mem_iff.1 hb)).1
    by_cases ha : a ∈ s.axioms
    · have hp := eraseP_addr_perm hf ha
      have h1 := (h.prim p).trans (refsTo_perm hp)
      simp only [refsTo, List.flatMap_cons] at h1
      exact dropN_perm (fits_of hm) h1
    · have hab := addr_absent hf ha
      rw [eraseP_addr_absent hab, dropN_absent (fun b hb => hab b (hm b hb))]
      exact h.prim p
  · simp only [hidx, keys_takeAll]; exact h.nodup
  · intro p x hx hp
    simp only [hidx, keys_takeAll]
    exact h.keys p x (hx.imp (hsub x) id) hp
  · exact h.annot
  · exact h.imports

/-! ## Finding the best index -/

theorem bestFold (o : Onto) : ∀ (L : List Prim) (b : Best),
    (∀ p v, b = some (p, v) → v = o.pindex p) →
    (∀ p v, (L.foldl (fun b p => (bestCb o b p).1) b) = some (p, v) →
      v = o.pindex p ∧ (p ∈ L ∨ b = some (p, v))) ∧
    ((L ≠ [] ∨ b ≠ none) → (L.foldl (fun b p => (bestCb o b p).1) b) ≠ none)
  | [], b, hb => by simp; exact fun p v h => ⟨hb p v h, h⟩
  | q :: L, b, hb => by
    have hstep : (bestCb o b q).1 = some (q, o.pindex q) ∨ ((bestCb o b q).1 = b ∧ b ≠ none) := by
      unfold bestCb
      cases b with
      | none => exact .inl rfl
      | some b =>
        dsimp only
        split
        · exact .inl rfl
        · exact .inr ⟨rfl, by simp⟩
    have hb' : ∀ p v, (bestCb o b q).1 = some (p, v) → v = o.pindex p := by
      intro p v h
      rcases hstep with h1 | h1
      · rw [h1] at h; cases h; rfl
      · rw [h1.1] at h; exact hb p v h
    obtain ⟨h1, h2⟩ := bestFold o L _ hb'
    refine ⟨fun p v h => ?_, fun _ => ?_⟩
    · obtain ⟨h3, h4⟩ := h1 p v h
      refine ⟨h3, ?_⟩
      rcases h4 with h4 | h4
      · exact .inl (List.mem_cons_of_mem _ h4)
      · rcases hstep with h5 | h5
        · rw [h5] at h4; cases h4; exact .inl (List.mem_cons_self ..)
        · rw [h5.1] at h4; exact .inr h4
    · apply h2
      right
      rcases hstep with h5 | h5
      · rw [h5]; simp
      · rw [h5.1]; exact h5.2

theorem bestCb_ok (o : Onto) : bestCb o = fun b p => ((bestCb o b p).1, Ret.ok) := by
  funext b p
  unfold bestCb
  cases b with
  | none => rfl
  | some b => dsimp only; split <;> rfl

theorem bestPindex_eq (o : Onto) (x : Obj) :
    o.bestPindex x = (occ x).foldl (fun b p => (bestCb o b p).1) none := by
  unfold Onto.bestPindex
  rw [bestCb_ok]
  exact iterPrims_fold _ _ _

theorem bestPindex_spec (o : Onto) (x : Obj) :
    (∀ p v, o.bestPindex x = some (p, v) → v = o.pindex p ∧ p ∈ occ x) ∧
    (o.bestPindex x = none → occ x = []) := by
  rw [bestPindex_eq]
  obtain ⟨h1, h2⟩ := bestFold o (occ x) none (by simp)
  refine ⟨fun p v h => ?_, fun h => ?_⟩
  · obtain ⟨h3, h4⟩ := h1 p v h
    exact ⟨h3, by simpa using h4⟩
  · by_cases hx : occ x = []
    · exact hx
    · exact absurd h (h2 (.inl hx))

/-- The index scanned for an axiom is the type vector or the index of one of its
primitives; there is none only if the type vector is null. -/
theorem bestIndex_cases (o : Onto) (x : Obj) (t : Nat) :
    (o.bestIndex x t = none ∧ o.tindex t = none) ∨
    (∃ v, o.tindex t = some v ∧ o.bestIndex x t = some v) ∨
    (∃ v w p, o.tindex t = some v ∧ p ∈ occ x ∧ o.pindex p = some w ∧ o.bestIndex x t = some w) := by
  unfold Onto.bestIndex
  cases ht : o.tindex t with
  | none => exact .inl ⟨rfl, rfl⟩
  | some v =>
    right
    dsimp only
    have hb := (bestPindex_spec o x).1
    cases hbp : o.bestPindex x with
    | none => exact .inl ⟨v, rfl, rfl⟩
    | some pw =>
      obtain ⟨p, w⟩ := pw
      obtain ⟨h1, h2⟩ := hb p w hbp
      cases w with
      | none => exact .inl ⟨v, rfl, rfl⟩
      | some w =>
        simp only [Option.bind_some, bestBetween]
        split
        · exact .inr ⟨v, w, p, rfl, h2, h1.symm, rfl⟩
        · exact .inl ⟨v, rfl, rfl⟩

/-- Membership through the scanned index. -/
theorem bestIndex_mem {o : Onto} {s : Abs} (h : Inv o s) {x : Obj} (b : Ref) :
    (∀ v, o.bestIndex x (axType x) = some v → b ∈ v → b ∈ s.axioms) ∧
    (b ∈ s.axioms → axType b.obj = axType x → (∀ p, p ∈ occ x → 0 < times p b.obj) →
      ∃ v, o.bestIndex x (axType x) = some v ∧ b ∈ v) := by
  have ht := (h.type (axType x)).mem_iff (a := b)
  rcases bestIndex_cases o x (axType x) with ⟨h1, h2⟩ | ⟨v, h1, h2⟩ | ⟨v, w, p, h1, h2, h3, h4⟩
  · rw [h1]
    refine ⟨by simp, fun hb hty _ => ?_⟩
    rw [h2] at ht
    simp [hb, hty] at ht
  · rw [h2]
    rw [h1] at ht
    simp only [Option.getD_some, List.mem_filter, decide_eq_true_eq] at ht
    refine ⟨fun u hu hb => ?_, fun hb hty _ => ⟨v, rfl, ht.2 ⟨hb, hty⟩⟩⟩
    cases hu
    exact (ht.1 hb).1
  · have hp := (h.prim p).mem_iff (a := b)
    rw [← pindex_getD, h3, mem_refsTo] at hp
    simp only [Option.getD_some] at hp
    rw [h4]
    refine ⟨fun u hu hb => ?_, fun hb _ ho => ⟨w, rfl, hp.2 ⟨hb, ho p h2⟩⟩⟩
    cases hu
    exact (hp.1 hb).1

theorem mem_occ_times {x : Obj} (hx : WellFormed x) {p : Prim} : p ∈ occ x ↔ 0 < times p x := by
  rw [mem_occ_iff x p hx, times_pos]

/-- Removal of a held axiom finds it. -/
theorem removeAxiom_held {o : Onto} {s : Abs} {a : Ref} (h : Inv o s) (ha : a ∈ s.axioms) :
    o.removeAxiom a = (o.removeAndUnindex a).map (·, true) := by
  have haa := h.axioms a ha
  obtain ⟨v, hv, hb⟩ := (bestIndex_mem h a).2 ha rfl (fun p hp => (mem_occ_times haa.1).1 hp)
  unfold Onto.removeAxiom
  rw [hv]
  dsimp only
  rw [if_pos]
  rw [List.any_eq_true]
  exact ⟨a, List.mem_reverse.2 hb, eqv_refl a.obj false haa.1⟩

theorem inv_removeAxiom {o : Onto} {s : Abs} {a : Ref} (h : Inv o s) (haa : IsAxiom a.obj)
    (hf : Fits s.axioms a) :
    ∃ o' r, o.removeAxiom a = some (o', r) ∧
      Inv o' { s with axioms := s.axioms.eraseP fun b => b.addr = a.addr } := by
  by_cases ha : a ∈ s.axioms
  · rw [removeAxiom_held h ha]
    obtain ⟨o', h1, _, _, _, _, h2⟩ := inv_removeAndUnindex h haa hf (tindex_some h ha)
    exact ⟨o', true, by rw [h1]; rfl, h2⟩
  · have hab := eraseP_addr_absent (addr_absent hf ha)
    have hsame : ({ s with axioms := s.axioms.eraseP fun b => b.addr = a.addr } : Abs) = s := by
      rw [hab]
    rw [hsame]
    unfold Onto.removeAxiom
    rcases bestIndex_cases o a.obj (axType a.obj) with ⟨h1, h2⟩ | ⟨v, h1, h2⟩ | ⟨v, w, p, h1, h2, h3, h4⟩
    · rw [h1]; exact ⟨o, false, rfl, h⟩
    · rw [h2]
      dsimp only
      split
      · obtain ⟨o', h3, _, _, _, _, h4⟩ := inv_removeAndUnindex h haa hf ⟨v, h1⟩
        rw [hsame] at h4
        exact ⟨o', true, by rw [h3]; rfl, h4⟩
      · exact ⟨o, false, rfl, h⟩
    · rw [h4]
      dsimp only
      split
      · obtain ⟨o', h5, _, _, _, _, h6⟩ := inv_removeAndUnindex h haa hf ⟨v, h1⟩
        rw [hsame] at h6
        exact ⟨o', true, by rw [h5]; rfl, h6⟩
      · exact ⟨o, false, rfl, h⟩

end Cowl
