import Verif.ChangeProps
import Verif.PrtMeanProps
/-! # Properties: one ontology added to another, and taken out of it

`cowl_change_handler_handle_ontology` with the handler of an ontology that is not empty. The meaning is that of `SemSpec.lean`. -/
namespace Cowl
open Prefix PrefixSpec OntoSpec IterSpec Change Sem

/-- `change_ontology` for removals, `cowl_change_handler.c:54-63`; `none` is undefined behaviour, with which the run is over. -/
def takePart (o : Option OntoSt) (p : Part) : Option OntoSt × Ret :=
  match o.bind (removePart · p) with
  | some r => (some r.1, r.2)
  | none => (none, .err)

/-- The contents of the other ontology are added to those of this one. -/
def joinOnto (o : Onto) (t : Onto) : Onto :=
  (axiomsOf o).foldl Onto.addAxiom ((o.imports.getD []).foldl Onto.addImport ((o.annot.getD []).foldl Onto.addAnnot t))

theorem addAll_into (o t : OntoSt) : addAll t (parts o) =
    ⟨(t.pm.merge o.pm.fwd true).1, o.iri.or t.iri, o.version.or t.version, joinOnto o.onto t.onto⟩ := by
  unfold addAll parts
  simp only [List.foldl_append]
  have h1 := addAll_prefixes o.pm.fwd t
  unfold addAll at h1
  rw [h1]
  have h2 := addAll_annots (o.onto.annot.getD [])
  have h3 := addAll_imports (o.onto.imports.getD [])
  have h4 := addAll_axioms (axiomsOf o.onto)
  unfold addAll at h2 h3 h4
  rw [h2, h3, h4, joinOnto]
  obtain ⟨pm, iri, ver, on⟩ := o
  obtain ⟨npm, niri, nver, non⟩ := t
  cases iri <;> cases ver <;> rfl

theorem join_reaches {o t : Onto} {s u : OntoSpec.Abs} (ho : OntoSpec.Reaches o s) (ht : OntoSpec.Reaches t u)
    (hf : ∀ x ∈ s.axioms, ∀ y ∈ u.axioms, y.addr = x.addr → y = x) :
    OntoSpec.Reaches (joinOnto o t) ⟨u.axioms ++ axiomsOf o, u.annots ++ s.annots, u.imports ++ s.imports⟩ := by
  have hi := reaches_inv ho
  have hp := axiomsOf_perm hi
  obtain ⟨ops, k1, k2, k3⟩ := ht
  refine ⟨ops ++ builtOps (o.annot.getD []) (o.imports.getD []) (axiomsOf o), ?_, ?_, ?_⟩
  · refine legal_append _ _ _ k1 ?_
    unfold builtOps
    refine legal_append _ _ _ (legal_append _ _ _ (legal_annots _ _ ?_)
      (legal_map (f := .addImport) (fun _ _ => trivial) _ _)) (legal_axioms _ _ ?_ ?_)
    · rw [hi.annot]; exact annots_wf ho
    · exact fun y hy => hi.axioms y (hp.mem_iff.1 hy)
    · rw [absRun_append', absRun_annots, absRun_imports, ← k3]
      intro x hx y hy e
      rcases List.mem_append.1 hx with hx | hx
      · exact hf y (hp.mem_iff.1 hy) x hx e
      · exact hi.fits y (hp.mem_iff.1 hy) x (hp.mem_iff.1 hx) e
  · rw [run_append', k2, Option.bind_some, builtOps, run_append', run_append',
      run_map (g := Onto.addAnnot) (fun _ _ => rfl), Option.bind_some,
      run_map (g := Onto.addImport) (fun _ _ => rfl), Option.bind_some, run_map (g := Onto.addAxiom) (fun _ _ => rfl)]
    rfl
  · rw [absRun_append', ← k3, builtOps, absRun_append', absRun_append', absRun_annots, absRun_imports, absRun_axioms, hi.annot,
      hi.imports]

/-- C121, adding: if an ontology is added to another one through its change handler, this succeeds. The other one then has its own axioms,
annotations and imports, and behind them those of the first; the IRI, the version and the prefixes of the first, and its own where the
first has none. It holds in an interpretation exactly if both held. Objects of the two at one address must be the same. -/
theorem C121_partial {o t : OntoSt} {s u : OntoSpec.Abs} {a b : PrefixSpec.Abs} (ho : OntoSpec.Reaches o.onto s)
    (ht : OntoSpec.Reaches t.onto u) (hp : PrefixSpec.Reaches False o.pm a) (hq : PrefixSpec.Reaches False t.pm b)
    (hf : ∀ x ∈ s.axioms, ∀ y ∈ u.axioms, y.addr = x.addr → y = x) :
    ∃ (t' : OntoSt) (u' : OntoSpec.Abs), handleOntology addPart o t = (t', .ok) ∧ OntoSpec.Reaches t'.onto u' ∧
      u'.axioms.Perm (u.axioms ++ s.axioms) ∧ u'.annots = u.annots ++ s.annots ∧ u'.imports = u.imports ++ s.imports ∧
      t'.iri = o.iri.or t.iri ∧ t'.version = o.version.or t.version ∧
      (∃ c, PrefixSpec.Reaches False t'.pm c) ∧ (∀ p, t'.pm.getNs p = (o.pm.getNs p).or (t.pm.getNs p)) ∧
      ∀ I : Interp, HoldsIn I (u'.axioms.map Ref.obj) ↔
        HoldsIn I (u.axioms.map Ref.obj) ∧ HoldsIn I (s.axioms.map Ref.obj) := by
  have hperm := (axiomsOf_perm (reaches_inv ho)).append_left u.axioms
  have hm : PrefixSpec.Reaches False (t.pm.merge o.pm.fwd true).1 _ :=
    .merge o.pm.fwd true hq (inv_reaches hp).distinct (fun f => f.elim)
  refine ⟨_, _, (replay_eq _ _ _).trans ((iterList_add _ _).trans (congrArg (·, Ret.ok) (addAll_into o t))), join_reaches ho ht hf, hperm,
    rfl, rfl, rfl, rfl, ⟨_, hm⟩, fun p => ?_, fun I => ?_⟩
  · refine (C22_get_ns hm p).trans ?_
    unfold PrefixSpec.Abs.merge
    rw [← getNs_meaning, C22_get_ns hq p]
    cases h : o.pm.getNs p with
    | none => rfl
    | some n => simp [std_registered hp h]
  · have hmem : ∀ x, x ∈ (u.axioms ++ axiomsOf o.onto).map Ref.obj ↔ x ∈ u.axioms.map Ref.obj ∨ x ∈ s.axioms.map Ref.obj := by
      intro x
      rw [(hperm.map Ref.obj).mem_iff, List.map_append, List.mem_append]
    constructor
    · exact fun k => ⟨fun x hx => k x ((hmem x).2 (.inl hx)), fun x hx => k x ((hmem x).2 (.inr hx))⟩
    · exact fun k x hx => ((hmem x).1 hx).elim (k.1 x) (k.2 x)

/-! ## Removal, part by part -/

/-- A client that takes out one part after another, whatever the codes are. -/
def takeEach : List Part → OntoSt → Option OntoSt
  | [], t => some t
  | p :: ps, t => (removePart t p).bind fun r => takeEach ps r.1

theorem takeEach_append : ∀ (ps qs : List Part) (t : OntoSt), takeEach (ps ++ qs) t = (takeEach ps t).bind (takeEach qs)
  | [], _, _ => rfl
  | p :: ps, qs, t => by
    simp only [List.cons_append, takeEach]
    cases removePart t p with
    | none => rfl
    | some r => exact takeEach_append ps qs r.1

/-- Parts that are not axioms, annotations or imports. -/
def Part.Heads : Part → Prop
  | .prefixDecl _ _ | .iri _ | .version _ => True
  | _ => False

theorem takeEach_heads : ∀ (ps : List Part) (t : OntoSt), (∀ p ∈ ps, Part.Heads p) → ∃ t', takeEach ps t = some t' ∧ t'.onto = t.onto
  | [], t, _ => ⟨t, rfl, rfl⟩
  | p :: ps, t, h => by
    have k : ∃ t1 r, removePart t p = some (t1, r) ∧ t1.onto = t.onto := by
      have := h p List.mem_cons_self
      cases p <;> first | exact this.elim | exact ⟨_, _, rfl, rfl⟩
    obtain ⟨t1, r, e, k1⟩ := k
    obtain ⟨t2, e2, k2⟩ := takeEach_heads ps t1 fun p hp => h p (List.mem_cons_of_mem _ hp)
    exact ⟨t2, by rw [takeEach, e]; exact e2, k2.trans k1⟩

/-- The first of the items that follow is found, if it equals itself and none before it. -/
theorem eraseP_next {xs ys : List Ref} {x : Ref} (hx : x.obj.equals x.obj = true) (h : ∀ y ∈ xs, y.obj.equals x.obj = false) :
    (xs ++ x :: ys).eraseP (fun y => y.obj.equals x.obj) = xs ++ ys := by
  rw [List.eraseP_append_right _ fun y hy => by rw [h y hy]; exact Bool.false_ne_true]
  rw [List.eraseP_cons_of_pos (p := fun y : Ref => y.obj.equals x.obj) hx]

theorem takeEach_annots {as : List Ref} : ∀ (xs : List Ref) (t : OntoSt) (u : OntoSpec.Abs), OntoSpec.Reaches t.onto u →
    u.annots = as ++ xs → (∀ x ∈ xs, x.obj.equals x.obj = true ∧ ∀ y ∈ as, y.obj.equals x.obj = false) →
    ∃ t', takeEach (xs.map .annot) t = some t' ∧ OntoSpec.Reaches t'.onto { u with annots := as }
  | [], t, u, ht, e, _ => ⟨t, rfl, by rw [List.append_nil] at e; rw [← e]; exact ht⟩
  | x :: xs, t, u, ht, e, h => by
    have h1 := h x List.mem_cons_self
    have hs : OntoSpec.Reaches (t.onto.removeAnnot x).1 (u.step (.removeAnnot x)) := reaches_step ht trivial rfl
    have e1 : (u.step (.removeAnnot x)) = { u with annots := as ++ xs } := by
      simp only [OntoSpec.Abs.step]
      rw [e, eraseP_next h1.1 h1.2]
    rw [e1] at hs
    obtain ⟨t', k1, k2⟩ := takeEach_annots xs { t with onto := (t.onto.removeAnnot x).1 } _ hs rfl fun y hy => h y (List.mem_cons_of_mem _ hy)
    exact ⟨t', k1, k2⟩

theorem takeEach_imports {as : List Ref} : ∀ (xs : List Ref) (t : OntoSt) (u : OntoSpec.Abs), OntoSpec.Reaches t.onto u →
    u.imports = as ++ xs → (∀ x ∈ xs, x.obj.equals x.obj = true ∧ ∀ y ∈ as, y.obj.equals x.obj = false) →
    ∃ t', takeEach (xs.map .import) t = some t' ∧ OntoSpec.Reaches t'.onto { u with imports := as }
  | [], t, u, ht, e, _ => ⟨t, rfl, by rw [List.append_nil] at e; rw [← e]; exact ht⟩
  | x :: xs, t, u, ht, e, h => by
    have h1 := h x List.mem_cons_self
    have hs : OntoSpec.Reaches (t.onto.removeImport x).1 (u.step (.removeImport x)) := reaches_step ht trivial rfl
    have e1 : (u.step (.removeImport x)) = { u with imports := as ++ xs } := by
      simp only [OntoSpec.Abs.step]
      rw [e, eraseP_next h1.1 h1.2]
    rw [e1] at hs
    obtain ⟨t', k1, k2⟩ := takeEach_imports xs { t with onto := (t.onto.removeImport x).1 } _ hs rfl fun y hy => h y (List.mem_cons_of_mem _ hy)
    exact ⟨t', k1, k2⟩

theorem takeEach_axioms {as : List Ref} : ∀ (xs : List Ref) (t : OntoSt) (u : OntoSpec.Abs), OntoSpec.Reaches t.onto u →
    u.axioms.Perm (as ++ xs) →
    ∃ t' u', takeEach (xs.map .ax) t = some t' ∧ OntoSpec.Reaches t'.onto u' ∧ u'.axioms.Perm as ∧ u'.annots = u.annots ∧
      u'.imports = u.imports
  | [], t, u, ht, e => ⟨t, u, rfl, ht, by rw [List.append_nil] at e; exact e, rfl, rfl⟩
  | x :: xs, t, u, ht, e => by
    have hx : x ∈ u.axioms := e.mem_iff.2 (List.mem_append_right _ List.mem_cons_self)
    obtain ⟨o', s', k1, k2, k3, k4, k5⟩ := (C53_axioms ht x).1 hx
    have e' : s'.axioms.Perm (as ++ xs) := List.Perm.cons_inv (k3.symm.trans (e.trans List.perm_middle))
    obtain ⟨t', u', j1, j2, j3, j4, j5⟩ := takeEach_axioms xs { t with onto := o' } s' k2 e'
    exact ⟨t', u', by rw [List.map_cons, takeEach, k1]; exact j1, j2, j3, j4.trans k4, j5.trans k5⟩

/-- C121, removal by a client that looks at no code: if an ontology was added to another one, and then each of its parts is removed, the
other one has the axioms it had before, and the annotations and imports, if the two have none in common. -/
theorem C121_each {o t : OntoSt} {s u : OntoSpec.Abs} (ho : OntoSpec.Reaches o.onto s) (ht : OntoSpec.Reaches t.onto u)
    (hf : ∀ x ∈ s.axioms, ∀ y ∈ u.axioms, y.addr = x.addr → y = x) (hi : ∀ x ∈ s.imports, ObjSpec.WellFormed x.obj)
    (ha : ∀ x ∈ s.annots, ∀ y ∈ u.annots, y.obj.equals x.obj = false)
    (hj : ∀ x ∈ s.imports, ∀ y ∈ u.imports, y.obj.equals x.obj = false) :
    ∃ (t' : OntoSt) (u' : OntoSpec.Abs), takeEach (parts o) (handleOntology addPart o t).1 = some t' ∧ OntoSpec.Reaches t'.onto u' ∧
      u'.axioms.Perm u.axioms ∧ u'.annots = u.annots ∧ u'.imports = u.imports := by
  have e : (handleOntology addPart o t).1 = addAll t (parts o) := by rw [replay_eq, iterList_add]
  rw [e, addAll_into]
  have hr := join_reaches ho ht hf
  have hinv := reaches_inv ho
  unfold parts
  rw [takeEach_append, takeEach_append, takeEach_append]
  obtain ⟨t1, k1, k2⟩ := takeEach_heads ((o.pm.fwd.map fun e => Part.prefixDecl e.1 e.2) ++ (o.iri.map Part.iri).toList ++
    (o.version.map Part.version).toList) ⟨(t.pm.merge o.pm.fwd true).1, o.iri.or t.iri, o.version.or t.version, joinOnto o.onto t.onto⟩ (by
      intro p hp
      rcases List.mem_append.1 hp with hp | hp
      · rcases List.mem_append.1 hp with hp | hp
        · obtain ⟨e, _, rfl⟩ := List.mem_map.1 hp; trivial
        · cases h : o.iri with
          | none => rw [h] at hp; cases hp
          | some i => rw [h] at hp; cases List.mem_singleton.1 hp; trivial
      · cases h : o.version with
        | none => rw [h] at hp; cases hp
        | some i => rw [h] at hp; cases List.mem_singleton.1 hp; trivial)
  rw [k1, Option.bind_some]
  have k3 : t1.onto = joinOnto o.onto t.onto := k2
  rw [← k3] at hr
  rw [hinv.annot, hinv.imports]
  obtain ⟨t2, j1, j2⟩ := takeEach_annots (as := u.annots) s.annots t1 _ hr rfl fun x hx =>
    ⟨C05_refl _ (annots_wf ho x hx), ha x hx⟩
  rw [j1, Option.bind_some]
  obtain ⟨t3, l1, l2⟩ := takeEach_imports (as := u.imports) s.imports t2 _ j2 rfl fun x hx => ⟨C05_refl _ (hi x hx), hj x hx⟩
  rw [l1, Option.bind_some]
  obtain ⟨t4, u4, m1, m2, m3, m4, m5⟩ := takeEach_axioms (as := u.axioms) (axiomsOf o.onto) t3 _ l2 (List.Perm.refl _)
  exact ⟨t4, u4, m1, m2, m3, m4, m5⟩

/-! ## Removal through the handler -/

/-- Whatever gives OK has left the contents alone. -/
theorem removePart_ok {t t' : OntoSt} {p : Part} (h : removePart t p = some (t', .ok)) : t'.onto = t.onto := by
  cases p with
  | prefixDecl p n => exact (congrArg (fun x : OntoSt × Ret => x.1.onto) (Option.some.inj h)).symm
  | iri i => cases h; rfl
  | version i => cases h; rfl
  | «import» x =>
    simp only [removePart, Onto.removeImport, Option.some.injEq, _root_.Prod.mk.injEq] at h
    obtain ⟨rfl, h2⟩ := h
    revert h2
    cases hv : vecPtrRemove t.onto.imports x with
    | mk v b =>
      cases b with
      | true => exact fun e => by cases e
      | false =>
        intro _
        have : v = t.onto.imports := by
          revert hv
          unfold vecPtrRemove
          cases t.onto.imports with
          | none => intro e; exact (congrArg _root_.Prod.fst e).symm
          | some xs =>
            dsimp only
            cases xs.findIdx? fun y => y.obj.equals x.obj with
            | none => intro e; exact (congrArg _root_.Prod.fst e).symm
            | some i => intro e; exact Bool.noConfusion (congrArg _root_.Prod.snd e : true = false)
        subst this
        rfl
  | annot x =>
    simp only [removePart, Onto.removeAnnot, Option.some.injEq, _root_.Prod.mk.injEq] at h
    obtain ⟨rfl, h2⟩ := h
    revert h2
    cases hv : vecPtrRemove t.onto.annot x with
    | mk v b =>
      cases b with
      | true => exact fun e => by cases e
      | false =>
        intro _
        have : v = t.onto.annot := by
          revert hv
          unfold vecPtrRemove
          cases t.onto.annot with
          | none => intro e; exact (congrArg _root_.Prod.fst e).symm
          | some xs =>
            dsimp only
            cases xs.findIdx? fun y => y.obj.equals x.obj with
            | none => intro e; exact (congrArg _root_.Prod.fst e).symm
            | some i => intro e; exact Bool.noConfusion (congrArg _root_.Prod.snd e : true = false)
        subst this
        rfl
  | ax x =>
    simp only [removePart, Onto.removeAxiom] at h
    cases hb : t.onto.bestIndex x.obj (axType x.obj) with
    | none => rw [hb] at h; cases h; rfl
    | some v =>
      rw [hb] at h
      dsimp only at h
      split at h
      · cases hu : t.onto.removeAndUnindex x with
        | none => rw [hu] at h; cases h
        | some o' => rw [hu] at h; exact Ret.noConfusion (Option.some.inj (congrArg (Option.map _root_.Prod.snd) h : some Ret.no = some .ok))
      · cases h; rfl

/-- C121, removal through the handler does not do it: at most one part of the contents goes. The run is over with the first part that was
there, because its code is not OK (`C53_inverted`). -/
theorem C121_one {ps : List Part} : ∀ {t t' : OntoSt} {r : Ret}, iterList takePart ps (some t) = (some t', r) →
    t'.onto = t.onto ∨ ∃ t1 p, t1.onto = t.onto ∧ p ∈ ps ∧ removePart t1 p = some (t', r) ∧ r ≠ .ok := by
  induction ps with
  | nil => intro t t' r h; cases h; exact .inl rfl
  | cons p ps ih =>
    intro t t' r h
    rw [iterList] at h
    cases hp : removePart t p with
    | none =>
      have e : takePart (some t) p = (none, .err) := by simp only [takePart, Option.bind_some, hp]
      rw [e] at h
      cases h
    | some x =>
      obtain ⟨t1, r1⟩ := x
      have e : takePart (some t) p = (some t1, r1) := by simp only [takePart, Option.bind_some, hp]
      rw [e] at h
      cases r1 with
      | ok =>
        have k := removePart_ok hp
        rcases ih h with h1 | ⟨t2, q, h1, h2, h3⟩
        · exact .inl (h1.trans k)
        · exact .inr ⟨t2, q, h1.trans k, List.mem_cons_of_mem _ h2, h3⟩
      | _ => cases h; exact .inr ⟨t, p, rfl, List.mem_cons_self, hp, by decide⟩

/-! ## Examples -/

/-- `Annotation(p "v")`. -/
def mergeNote : Obj := getImpl .annotation [.prim (.ent .annotProp (sampleIri "p")), .lit (ascii "v") (.dt xsdString)] none

/-- An ontology with a prefix, an IRI, an annotation, an import and two axioms. -/
def mergeSource : OntoSt :=
  ⟨(freshMap.add (pfx 10 "a") exNs1 false).1, some ⟨exNs1, ascii "o"⟩, none,
    built [⟨22, mergeNote⟩] [⟨23, .prim (.iri ⟨exNs1, ascii "i"⟩)⟩] [⟨21, declAx "A"⟩, ⟨24, subAx "A" "B"⟩]⟩

/-- An ontology with a version and one axiom. -/
def mergeTarget : OntoSt := ⟨freshMap, none, some ⟨exNs1, ascii "v"⟩, built [] [] [⟨31, declAx "B"⟩]⟩

theorem mergeSource_reaches : OntoSpec.Reaches mergeSource.onto
    ⟨[⟨21, declAx "A"⟩, ⟨24, subAx "A" "B"⟩], [⟨22, mergeNote⟩], [⟨23, .prim (.iri ⟨exNs1, ascii "i"⟩)⟩]⟩ := by
  refine built_reaches ?_ ?_ ?_
  · intro y hy
    cases List.mem_singleton.1 hy
    simp [mergeNote, getImpl, ObjSpec.WellFormed, ObjSpec.WellFormedAll, nFields, OType.fieldCount, OType.flags]
  · intro y hy
    rcases List.mem_cons.1 hy with rfl | hy
    · exact declAx_isAxiom _
    · cases List.mem_singleton.1 hy; exact subAx_isAxiom _ _
  · intro y hy z hz e
    rcases List.mem_cons.1 hy with rfl | hy <;> rcases List.mem_cons.1 hz with rfl | hz
    · rfl
    · cases List.mem_singleton.1 hz; cases e
    · cases List.mem_singleton.1 hy; cases e
    · rw [List.mem_singleton.1 hy, List.mem_singleton.1 hz]

theorem mergeTarget_reaches : OntoSpec.Reaches mergeTarget.onto ⟨[⟨31, declAx "B"⟩], [], []⟩ := by
  refine built_reaches (fun _ h => nomatch h) ?_ ?_
  · intro y hy; cases List.mem_singleton.1 hy; exact declAx_isAxiom _
  · intro y hy z hz _; rw [List.mem_singleton.1 hy, List.mem_singleton.1 hz]

theorem merge_fits : ∀ x ∈ [(⟨21, declAx "A"⟩ : Ref), ⟨24, subAx "A" "B"⟩], ∀ y ∈ [(⟨31, declAx "B"⟩ : Ref)],
    y.addr = x.addr → y = x := by
  intro x hx y hy e
  cases List.mem_singleton.1 hy
  rcases List.mem_cons.1 hx with rfl | hx
  · cases e
  · cases List.mem_singleton.1 hx; cases e

/-- The two meet the conditions of `C121_partial` and `C121_each`. -/
example : ∃ s u a b, OntoSpec.Reaches mergeSource.onto s ∧ OntoSpec.Reaches mergeTarget.onto u ∧
    PrefixSpec.Reaches False mergeSource.pm a ∧ PrefixSpec.Reaches False mergeTarget.pm b ∧
    (∀ x ∈ s.axioms, ∀ y ∈ u.axioms, y.addr = x.addr → y = x) ∧ (∀ x ∈ s.imports, ObjSpec.WellFormed x.obj) ∧
    (∀ x ∈ s.annots, ∀ y ∈ u.annots, y.obj.equals x.obj = false) ∧ (∀ x ∈ s.imports, ∀ y ∈ u.imports, y.obj.equals x.obj = false) :=
  ⟨_, _, _, _, mergeSource_reaches, mergeTarget_reaches, .add _ _ _ (fresh_reaches _) (fun f => f.elim), fresh_reaches _, merge_fits,
    fun x hx => by cases List.mem_singleton.1 hx; trivial, nofun, nofun⟩

/-- C121 is false as stated: the contents of an ontology are not taken out again. The run is over with the first prefix; everything else
that was added is still there, and the code does not tell an error. -/
theorem C121_fails :
    let t := (handleOntology addPart mergeSource mergeTarget).1
    let r := handleOntology takePart mergeSource (some t)
    (axiomsOf t.onto).map Ref.addr = [31, 21, 24] ∧ r.2 = .no ∧ r.2.isErr = false ∧
    r.1.map (fun t => ((axiomsOf t.onto).map Ref.addr, (t.onto.annot.getD []).map Ref.addr, (t.onto.imports.getD []).map Ref.addr, t.iri)) =
      some ([31, 21, 24], [22], [23], some ⟨exNs1, ascii "o"⟩) := by
  refine ⟨?_, ?_, ?_, ?_⟩ <;> decide +kernel

end Cowl
