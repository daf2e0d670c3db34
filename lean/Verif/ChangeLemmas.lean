import Verif.ChangeSpec
import Verif.OntoInv
import Verif.OntoProps
import Verif.PrefixMapLemmas
/-! # Lemmas about changes -/
namespace Cowl.Change
open Prefix OntoSpec

theorem iterList_append {σ α : Type} (k : Callback σ α) : ∀ (a b : List α) (s : σ),
    iterList k (a ++ b) s =
      if (iterList k a s).2.shouldStop then iterList k a s else iterList k b (iterList k a s).1
  | [], b, s => rfl
  | x :: a, b, s => by
    simp only [List.cons_append, iterList]
    by_cases h : (k s x).2.shouldStop = true
    · simp [h]
    · simp only [h]
      exact iterList_append k a b _

theorem iterList_map {σ α β : Type} (k : Callback σ β) (f : α → β) : ∀ (a : List α) (s : σ),
    iterList k (a.map f) s = iterList (fun s x => k s (f x)) a s
  | [], _ => rfl
  | x :: a, s => by
    simp only [List.map_cons, iterList]
    rw [iterList_map k f a]

theorem iterTypes_eq {σ : Type} (o : Onto) (k : Callback σ Ref) : ∀ (ts : List Nat) (s : σ),
    iterTypes o k ts s = iterList k (ts.flatMap fun t => (o.byType t).getD []) s
  | [], _ => rfl
  | t :: ts, s => by
    rw [List.flatMap_cons, iterList_append, iterTypes, iterTypes_eq o k ts]
    rfl

theorem handleOpt_eq {σ : Type} (h : Callback σ Part) (s : σ) (p : Option Part) :
    handleOpt h s p = iterList h p.toList s := by
  cases p with
  | none => rfl
  | some p =>
    simp only [handleOpt, Option.toList, iterList]
    cases hr : (h s p).2 <;> simp [Ret.shouldStop] <;> rw [← hr]

theorem replay_eq {σ : Type} (h : Callback σ Part) (o : OntoSt) (s : σ) :
    handleOntology h o s = iterList h (parts o) s := by
  simp only [parts, iterList_append, ← handleOpt_eq]
  simp only [iterList_map, axiomsOf, ← iterTypes_eq]
  simp only [handleOntology, Onto.iterAnnot, Onto.iterImports, Onto.iterAxioms, iterVec, iterList_map]
  repeat' split
  all_goals first | rfl | contradiction | (simp_all; done) | skip

/-- All parts are accepted by the handler of an ontology. -/
theorem addPart_ok (o : OntoSt) (p : Part) : (addPart o p).2 = .ok := by
  cases p with
  | prefixDecl p n =>
    simp only [addPart, PMap.add]
    split <;> simp
  | _ => rfl

theorem iterList_add (ps : List Part) (o : OntoSt) :
    iterList addPart ps o = (ps.foldl (fun o p => (addPart o p).1) o, .ok) := by
  induction ps generalizing o with
  | nil => rfl
  | cons p ps ih =>
    rw [iterList, addPart_ok]
    exact ih _

/-! ## Rebuilding -/

/-- Adding parts one after the other. -/
abbrev addAll (o : OntoSt) (ps : List Part) : OntoSt := ps.foldl (fun o p => (addPart o p).1) o

theorem mergeLoop_fst (ow : Bool) : ∀ (f : Fwd) (m : PMap) (r : Ret),
    (mergeLoop ow f m r).1 = f.foldl (fun m e => (m.add e.1 e.2 ow).1) m
  | [], _, _ => rfl
  | e :: f, m, r => by rw [mergeLoop, mergeLoop_fst ow f, List.foldl_cons]

theorem addAll_prefixes (f : Fwd) (o : OntoSt) :
    addAll o (f.map fun e => Part.prefixDecl e.1 e.2) = { o with pm := (o.pm.merge f true).1 } := by
  rw [PMap.merge, mergeLoop_fst, addAll, List.foldl_map]
  induction f generalizing o with
  | nil => rfl
  | cons e f ih => rw [List.foldl_cons, List.foldl_cons, ih]; rfl

theorem addAll_annots (xs : List Ref) (o : OntoSt) :
    addAll o (xs.map .annot) = { o with onto := xs.foldl Onto.addAnnot o.onto } := by
  rw [addAll, List.foldl_map]
  induction xs generalizing o with
  | nil => rfl
  | cons e f ih => rw [List.foldl_cons, List.foldl_cons, ih]; rfl

theorem addAll_imports (xs : List Ref) (o : OntoSt) :
    addAll o (xs.map .import) = { o with onto := xs.foldl Onto.addImport o.onto } := by
  rw [addAll, List.foldl_map]
  induction xs generalizing o with
  | nil => rfl
  | cons e f ih => rw [List.foldl_cons, List.foldl_cons, ih]; rfl

theorem addAll_axioms (xs : List Ref) (o : OntoSt) :
    addAll o (xs.map .ax) = { o with onto := xs.foldl Onto.addAxiom o.onto } := by
  rw [addAll, List.foldl_map]
  induction xs generalizing o with
  | nil => rfl
  | cons e f ih => rw [List.foldl_cons, List.foldl_cons, ih]; rfl

/-- An ontology built from annotations, imports and axioms. -/
def built (annots imports axioms : List Ref) : Onto :=
  axioms.foldl Onto.addAxiom (imports.foldl Onto.addImport (annots.foldl Onto.addAnnot Onto.empty))

theorem addAll_parts (o n : OntoSt) (hn : n.onto = Onto.empty) (hi : n.iri = none) (hv : n.version = none) :
    addAll n (parts o) =
      ⟨(n.pm.merge o.pm.fwd true).1, o.iri, o.version,
        built (o.onto.annot.getD []) (o.onto.imports.getD []) (axiomsOf o.onto)⟩ := by
  unfold addAll parts
  simp only [List.foldl_append]
  rw [show (fun o p => (addPart o p).1) = fun o p => (addPart o p).1 from rfl]
  have h1 := addAll_prefixes o.pm.fwd n
  unfold addAll at h1
  rw [h1]
  have h2 := addAll_annots (o.onto.annot.getD [])
  have h3 := addAll_imports (o.onto.imports.getD [])
  have h4 := addAll_axioms (axiomsOf o.onto)
  unfold addAll at h2 h3 h4
  rw [h2, h3, h4, built, ← hn]
  obtain ⟨pm, iri, ver, on⟩ := o
  obtain ⟨npm, niri, nver, non⟩ := n
  subst hi hv
  cases iri <;> cases ver <;> rfl

/-- The history of `built`. -/
def builtOps (annots imports axioms : List Ref) : List Op :=
  annots.map .addAnnot ++ imports.map .addImport ++ axioms.map .addAxiom

theorem run_append' : ∀ (a b : List Op) (o : Onto), o.run (a ++ b) = (o.run a).bind fun o => o.run b
  | [], _, _ => rfl
  | p :: a, b, o => by
    simp only [List.cons_append, Onto.run]
    cases o.step p with
    | none => rfl
    | some o1 => exact run_append' a b o1

theorem run_map {f : Ref → Op} {g : Onto → Ref → Onto} (h : ∀ o x, o.step (f x) = some (g o x)) :
    ∀ (xs : List Ref) (o : Onto), o.run (xs.map f) = some (xs.foldl g o)
  | [], _ => rfl
  | x :: xs, o => by
    rw [List.map_cons, Onto.run, h, Option.bind_some, run_map h xs, List.foldl_cons]

theorem built_run (a i x : List Ref) : Onto.empty.run (builtOps a i x) = some (built a i x) := by
  rw [builtOps, run_append', run_append', run_map (g := Onto.addAnnot) (fun _ _ => rfl), Option.bind_some,
    run_map (g := Onto.addImport) (fun _ _ => rfl), Option.bind_some,
    run_map (g := Onto.addAxiom) (fun _ _ => rfl)]
  rfl

theorem absRun_append' : ∀ (a b : List Op) (s : Abs), s.run (a ++ b) = (s.run a).run b
  | [], _, _ => rfl
  | p :: a, b, s => by
    simp only [List.cons_append, Abs.run]
    exact absRun_append' a b _

theorem absRun_annots : ∀ (xs : List Ref) (s : Abs),
    s.run (xs.map .addAnnot) = { s with annots := s.annots ++ xs }
  | [], s => by simp [Abs.run]
  | x :: xs, s => by rw [List.map_cons, Abs.run, absRun_annots xs]; simp [Abs.step]

theorem absRun_imports : ∀ (xs : List Ref) (s : Abs),
    s.run (xs.map .addImport) = { s with imports := s.imports ++ xs }
  | [], s => by simp [Abs.run]
  | x :: xs, s => by rw [List.map_cons, Abs.run, absRun_imports xs]; simp [Abs.step]

theorem absRun_axioms : ∀ (xs : List Ref) (s : Abs),
    s.run (xs.map .addAxiom) = { s with axioms := s.axioms ++ xs }
  | [], s => by simp [Abs.run]
  | x :: xs, s => by rw [List.map_cons, Abs.run, absRun_axioms xs]; simp [Abs.step]

theorem built_abs (a i x : List Ref) : Abs.empty.run (builtOps a i x) = ⟨x, a, i⟩ := by
  rw [builtOps, absRun_append', absRun_append', absRun_annots, absRun_imports, absRun_axioms]
  rfl

theorem legal_append : ∀ (a b : List Op) (s : Abs), LegalRun s a → LegalRun (s.run a) b → LegalRun s (a ++ b)
  | [], _, _, _, h => h
  | _ :: a, b, _, h, h' => ⟨h.1, legal_append a b _ h.2 h'⟩

theorem legal_map {f : Ref → Op} (h : ∀ s x, Legal s (f x)) : ∀ (xs : List Ref) (s : Abs), LegalRun s (xs.map f)
  | [], _ => trivial
  | x :: xs, s => ⟨h s x, legal_map h xs _⟩

theorem legal_annots : ∀ (xs : List Ref) (s : Abs), (∀ x ∈ xs, ObjSpec.WellFormed x.obj) →
    LegalRun s (xs.map .addAnnot)
  | [], _, _ => trivial
  | x :: xs, s, h => ⟨h x (by simp), legal_annots xs _ fun y hy => h y (by simp [hy])⟩

theorem legal_axioms : ∀ (xs : List Ref) (s : Abs), (∀ x ∈ xs, IsAxiom x.obj) →
    (∀ x ∈ s.axioms ++ xs, ∀ y ∈ xs, x.addr = y.addr → x = y) → LegalRun s (xs.map .addAxiom)
  | [], _, _, _ => trivial
  | x :: xs, s, h, hf =>
    ⟨⟨h x (by simp), fun b hb e => hf b (by simp [hb]) x (by simp) e⟩,
      legal_axioms xs _ (fun y hy => h y (by simp [hy])) fun y hy z hz e =>
        hf y (by
          simp only [Abs.step, List.append_assoc, List.singleton_append] at hy
          exact hy) z (by simp [hz]) e⟩

/-- Objects that fit together make a legal ontology. -/
theorem built_reaches {a i x : List Ref} (ha : ∀ y ∈ a, ObjSpec.WellFormed y.obj)
    (hx : ∀ y ∈ x, IsAxiom y.obj) (hf : ∀ y ∈ x, ∀ z ∈ x, y.addr = z.addr → y = z) :
    OntoSpec.Reaches (built a i x) ⟨x, a, i⟩ := by
  refine ⟨builtOps a i x, ?_, built_run a i x, (built_abs a i x).symm⟩
  unfold builtOps
  refine legal_append _ _ _ (legal_append _ _ _ (legal_annots _ _ ha) (legal_map (f := .addImport) (fun _ _ => trivial) _ _)) ?_
  refine legal_axioms _ _ hx ?_
  rw [absRun_append', absRun_annots, absRun_imports]
  simpa [Abs.empty] using hf

theorem annots_wf_run : ∀ (ops : List Op) (s : Abs), LegalRun s ops →
    (∀ x ∈ s.annots, ObjSpec.WellFormed x.obj) → ∀ x ∈ (s.run ops).annots, ObjSpec.WellFormed x.obj
  | [], _, _, h => h
  | op :: ops, s, hl, h => by
    refine annots_wf_run ops _ hl.2 ?_
    have hl := hl.1
    cases op with
    | addAnnot x =>
      intro y hy
      simp only [Abs.step, List.mem_append, List.mem_singleton] at hy
      rcases hy with hy | hy
      · exact h y hy
      · rw [hy]; exact hl
    | removeAnnot x => exact fun y hy => h y (List.mem_of_mem_eraseP hy)
    | _ => exact h

theorem annots_wf {o : Onto} {s : Abs} (h : OntoSpec.Reaches o s) :
    ∀ x ∈ s.annots, ObjSpec.WellFormed x.obj := by
  obtain ⟨ops, h1, _, rfl⟩ := h
  exact annots_wf_run ops _ h1 (fun _ h => nomatch h)

/-! ## Order of axioms -/

theorem addAxiom_byType (o : Onto) (a : Ref) (t : Nat) :
    ((o.addAxiom a).byType t).getD [] =
      (o.byType t).getD [] ++ if axType a.obj = t then [a] else [] := by
  simp only [Onto.addAxiom, setType, Onto.tindex, vecPtrAdd]
  by_cases h : t = axType a.obj
  · subst h; simp
  · have h' : ¬ axType a.obj = t := fun e => h e.symm
    simp [h, h']

theorem foldAxiom_byType (t : Nat) : ∀ (xs : List Ref) (o : Onto),
    ((xs.foldl Onto.addAxiom o).byType t).getD [] =
      (o.byType t).getD [] ++ xs.filter fun a => axType a.obj = t
  | [], o => by simp
  | a :: xs, o => by
    rw [List.foldl_cons, foldAxiom_byType t xs, addAxiom_byType, List.filter_cons, List.append_assoc]
    split <;> simp_all

theorem foldAnnot_byType (t : Nat) : ∀ (xs : List Ref) (o : Onto),
    (xs.foldl Onto.addAnnot o).byType t = o.byType t
  | [], _ => rfl
  | a :: xs, o => by rw [List.foldl_cons, foldAnnot_byType t xs]; rfl

theorem foldImport_byType (t : Nat) : ∀ (xs : List Ref) (o : Onto),
    (xs.foldl Onto.addImport o).byType t = o.byType t
  | [], _ => rfl
  | a :: xs, o => by rw [List.foldl_cons, foldImport_byType t xs]; rfl

theorem built_byType (a i x : List Ref) (t : Nat) :
    ((built a i x).byType t).getD [] = x.filter fun a => axType a.obj = t := by
  rw [built, foldAxiom_byType, foldImport_byType, foldAnnot_byType]; rfl

theorem filter_flatMap {f : Nat → List Ref} (hf : ∀ t, ∀ a ∈ f t, axType a.obj = t) (t : Nat) :
    ∀ (ts : List Nat), ts.Nodup →
      (ts.flatMap f).filter (fun a => axType a.obj = t) = if t ∈ ts then f t else []
  | [], _ => rfl
  | u :: ts, hn => by
    rw [List.nodup_cons] at hn
    rw [List.flatMap_cons, List.filter_append, filter_flatMap hf t ts hn.2]
    by_cases h : u = t
    · subst h
      rw [if_neg hn.1, if_pos (by simp), List.append_nil]
      exact List.filter_eq_self.2 fun a ha => by simp [hf u a ha]
    · have : (f u).filter (fun a => axType a.obj = t) = [] :=
        List.filter_eq_nil_iff.2 fun a ha => by simp [hf u a ha, h]
      rw [this, List.nil_append]
      have h' : ¬ t = u := fun e => h e.symm
      simp [h']

theorem byType_typed {o : Onto} {s : Abs} (h : Inv o s) (t : Nat) (a : Ref) (ha : a ∈ (o.byType t).getD []) :
    axType a.obj = t ∧ a ∈ s.axioms := by
  have := ((h.type t).mem_iff (a := a)).1 ha
  rw [List.mem_filter, decide_eq_true_eq] at this
  exact ⟨this.2, this.1⟩

theorem axiomsOf_perm {o : Onto} {s : Abs} (h : Inv o s) : (axiomsOf o).Perm s.axioms := allTypes_perm h

/-- Rebuilding keeps the order of axioms of each type. -/
theorem rebuilt_byType {o : Onto} {s : Abs} (h : Inv o s) (a i : List Ref) (t : Nat) :
    ((built a i (axiomsOf o)).byType t).getD [] = (o.byType t).getD [] := by
  rw [built_byType, axiomsOf, filter_flatMap (fun t a ha => (byType_typed h t a ha).1) t _ List.nodup_range]
  split
  · rfl
  · rename_i ht
    symm
    rw [List.eq_nil_iff_forall_not_mem]
    intro a ha
    have := byType_typed h t a ha
    have h37 := (isAxiom_axType (h.axioms a this.2)).1
    rw [this.1] at h37
    exact ht (List.mem_range.2 h37)

theorem rebuilt_axioms {o : Onto} {s : Abs} (h : Inv o s) (a i : List Ref) :
    axiomsOf (built a i (axiomsOf o)) = axiomsOf o := by
  conv => lhs; unfold axiomsOf
  conv => rhs; unfold axiomsOf
  congr 1
  funext t
  exact rebuilt_byType h a i t

end Cowl.Change
