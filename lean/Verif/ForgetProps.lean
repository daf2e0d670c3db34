import Verif.SenseProps
import Verif.SpokenProps
import Verif.JoinProps
/-!
# Properties: a primitive can be taken out of an ontology

A program takes a primitive out by removing the axioms that mention it, either with a filter, or by collecting the axioms for the
primitive and removing each of them.
-/
namespace Cowl
open Says Func FuncSpec FuncTell Ast Change Prefix PrefixSpec Sem IterSpec Rewrite
open OntoSpec (times)

/-- A program that calls `cowl_ontology_remove_axiom` (`cowl_ontology.c:585-597`) for each of a list of axioms. -/
def removeEach : Onto → List Ref → Option Onto
  | o, [] => some o
  | o, a :: as => (o.removeAxiom a).bind fun r => removeEach r.1 as

/-- A program that collects the axioms for a primitive (`cowl_ontology_iterate_axioms_for_primitive`, `cowl_ontology.c:283-301`). -/
def axiomsFor (o : Onto) (p : Prim) : List Ref := (o.iterAxiomsForPrimitive p (fun (l : List Ref) a => (l ++ [a], .ok)) []).1

/-- The filter for axioms of every type with the primitive. -/
def withPrim (p : Prim) : Filter := ⟨Masks.afAll, [p], none⟩

theorem run_push {α : Type} {xs : List α} {s s' : List α} {r : Ret} (h : Run (fun (l : List α) a => (l ++ [a], Ret.ok)) xs s s' r) :
    s' = s ++ xs := by
  induction h with
  | done => rw [List.append_nil]
  | stop h hr => exact absurd (congrArg _root_.Prod.snd h).symm hr
  | go h _ ih => rw [ih, ← (_root_.Prod.mk.inj h).1, List.append_assoc]; rfl

theorem removeEach_run : ∀ (as : List Ref) (o : Onto), removeEach o as = o.run (as.map OntoSpec.Op.removeAxiom)
  | [], _ => rfl
  | a :: as, o => by
    rw [removeEach, List.map_cons, Onto.run, Onto.step]
    cases o.removeAxiom a with
    | none => rfl
    | some r => exact removeEach_run as r.1

theorem abs_removeEach : ∀ (as : List Ref) (s : OntoSpec.Abs), s.run (as.map OntoSpec.Op.removeAxiom) =
    { s with axioms := as.foldl (fun xs a => xs.eraseP fun b => b.addr = a.addr) s.axioms }
  | [], _ => rfl
  | a :: as, s => abs_removeEach as (s.step (.removeAxiom a))

theorem legal_removeEach {held : List Ref} (hf : ∀ a ∈ held, OntoSpec.IsAxiom a.obj ∧ OntoSpec.Fits held a) :
    ∀ (as : List Ref) (s : OntoSpec.Abs), (∀ a ∈ as, a ∈ held) → (∀ a ∈ s.axioms, a ∈ held) →
      OntoSpec.LegalRun s (as.map OntoSpec.Op.removeAxiom)
  | [], _, _, _ => trivial
  | a :: as, _, ha, hs =>
    ⟨⟨(hf a (ha a (.head _))).1, fun b hb e => (hf a (ha a (.head _))).2 b (hs b hb) e⟩,
      legal_removeEach hf as _ (fun b hb => ha b (.tail _ hb)) fun _ hb => hs _ (List.mem_of_mem_eraseP hb)⟩

/-- Taking out, for each of a list, one item with its address, if that takes out items with a property only and often enough. -/
theorem eraseEach {P : Ref → Bool} : ∀ (as xs : List Ref), (∀ a ∈ as, ∀ b ∈ xs, b.addr = a.addr → P b = true) →
    (∀ n, (xs.countP fun b => P b && decide (b.addr = n)) ≤ as.countP fun a => decide (a.addr = n)) →
    as.foldl (fun xs a => xs.eraseP fun b => b.addr = a.addr) xs = xs.filter fun b => !P b
  | [], xs, _, h => by
    refine (List.filter_eq_self.2 fun b hb => ?_).symm
    cases hp : P b with
    | false => rfl
    | true =>
      have := List.countP_eq_zero.1 (Nat.le_zero.1 (h b.addr)) b hb
      simp [hp] at this
  | a :: as, xs, h1, h2 => by
    rw [List.foldl_cons]
    by_cases hx : ∃ b ∈ xs, b.addr = a.addr
    · obtain ⟨b, hb, e⟩ := hx
      obtain ⟨c, l1, l2, -, hc, rfl, he⟩ := List.exists_of_eraseP (p := fun b : Ref => decide (b.addr = a.addr)) hb (by simpa using e)
      have ec : c.addr = a.addr := by simpa using hc
      have hp : P c = true := h1 a (.head _) c (by simp) ec
      rw [he, eraseEach as _ (fun a' ha' b' hb' => h1 a' (.tail _ ha') b' (by
        rcases List.mem_append.1 hb' with h | h
        · exact List.mem_append_left _ h
        · exact List.mem_append_right _ (.tail _ h)))]
      · simp [hp]
      · intro n
        have := h2 n
        rw [List.countP_append, List.countP_cons, List.countP_cons] at this
        rw [List.countP_append]
        by_cases hn : a.addr = n
        · simp [hp, ec, hn] at this; omega
        · simp [hp, ec, hn] at this; omega
    · have he : (xs.eraseP fun b => decide (b.addr = a.addr)) = xs :=
        List.eraseP_of_forall_not fun b hb e => hx ⟨b, hb, by simpa using e⟩
      rw [he]
      refine eraseEach as xs (fun a' ha' => h1 a' (.tail _ ha')) fun n => ?_
      by_cases hn : a.addr = n
      · refine Nat.le_trans (Nat.le_of_eq (List.countP_eq_zero.2 fun b hb e => hx ⟨b, hb, ?_⟩)) (Nat.zero_le _)
        simp at e; omega
      · have := h2 n
        rw [List.countP_cons] at this
        simpa [hn] using this

/-- Axioms that no reading of the primitive makes a difference to. -/
theorem free_reading {p : Prim} {objs : List Obj} (hp : ∀ x ∈ objs, ¬ Occurs p x) (I : Interp) (w : Reading I) (h : ∀ q, q ≠ p → w.Agrees q) :
    HoldsIn (I.read w) objs ↔ HoldsIn I objs := by
  have key : ∀ x ∈ objs, ∀ a : Axiom, x = a.toObj → sat (I.read w) a.ax = sat I a.ax := by
    intro x hx a e
    exact sat_fields (on_fields fun q hq => h q fun eq => hp x hx (by rw [e, ← eq]; exact hq))
  exact ⟨fun k x hx a e => (key x hx a e) ▸ k x hx a e, fun k x hx a e => (key x hx a e).symm ▸ k x hx a e⟩

theorem matches_withPrim {p : Prim} {a : Ref} (ha : OntoSpec.IsAxiom a.obj) : OntoSpec.Matches (withPrim p) a ↔ 0 < times p a.obj := by
  constructor
  · intro h; exact h.2.1 p (.head _)
  · intro h
    obtain ⟨h1, h2⟩ := isAxiom_axType ha
    refine ⟨⟨axType a.obj, h1, (h2 _).2 rfl, ?_⟩, fun q hq => by cases List.mem_singleton.1 hq; exact h, ?_⟩
    · have : ∀ t < 37, Masks.afAll.getLsbD t = true := by decide
      exact this _ h1
    · trivial

/-- What is said about the ontology that is left (`s'`), with respect to the one before (`s`) and the primitive. -/
structure Forgot (p : Prim) (s s' : OntoSpec.Abs) : Prop where
  free : ∀ a ∈ s'.axioms, ¬ Occurs p a.obj
  annots : s'.annots = s.annots
  imports : s'.imports = s.imports
  /-- What is left was there before. -/
  sound : ∀ I, HoldsIn I (s.axioms.map Ref.obj) → HoldsIn I (s'.axioms.map Ref.obj)
  /-- What is left does not depend on the primitive. -/
  indifferent : ∀ (I : Interp) (w : Reading I), (∀ q, q ≠ p → w.Agrees q) →
    (HoldsIn (I.read w) (s'.axioms.map Ref.obj) ↔ HoldsIn I (s'.axioms.map Ref.obj))

theorem forgot {p : Prim} {s s' : OntoSpec.Abs} {f : Ref → Bool} (hs : s'.axioms = s.axioms.filter f)
    (hf : ∀ a ∈ s.axioms, f a = true → ¬ Occurs p a.obj) (h1 : s'.annots = s.annots) (h2 : s'.imports = s.imports) : Forgot p s s' := by
  have free : ∀ a ∈ s'.axioms, ¬ Occurs p a.obj := by
    intro a ha
    rw [hs, List.mem_filter] at ha
    exact hf a ha.1 ha.2
  refine ⟨free, h1, h2, fun I h x hx a e => ?_, fun I w h => free_reading ?_ I w h⟩
  · obtain ⟨r, hr, rfl⟩ := List.mem_map.1 hx
    rw [hs, List.mem_filter] at hr
    exact h _ (List.mem_map_of_mem hr.1) a e
  · intro x hx
    obtain ⟨r, hr, rfl⟩ := List.mem_map.1 hx
    exact free r hr

/-- C122, with a filter, if no axiom mentions the primitive twice: exactly the axioms that mention it are gone, and counted. -/
theorem C122_partial (o : Onto) (s : OntoSpec.Abs) (h : OntoSpec.Reaches o s) (p : Prim) (h1 : ∀ a ∈ s.axioms, times p a.obj ≤ 1) :
    ∃ o' s', o.removeAxiomsMatching (withPrim p) =
        some (o', BitVec.ofNat 32 (s.axioms.filter fun a => 0 < times p a.obj).length) ∧
      OntoSpec.Reaches o' s' ∧ s'.axioms = s.axioms.filter (fun a => times p a.obj = 0) ∧ Forgot p s s' := by
  have hi := reaches_inv h
  obtain ⟨o', s', e1, e2, e3, e4, e5⟩ := C16_partial o s h (withPrim p) (.inr ⟨nofun, fun q hq => by
    cases List.mem_singleton.1 hq; exact h1⟩)
  have g1 : (s.axioms.filter fun a => OntoSpec.Matches (withPrim p) a) = s.axioms.filter fun a => 0 < times p a.obj :=
    List.filter_congr fun a ha => decide_eq_decide.2 (matches_withPrim (hi.axioms a ha))
  have g2 : (s.axioms.filter fun a => ¬ OntoSpec.Matches (withPrim p) a) = s.axioms.filter fun a => times p a.obj = 0 :=
    List.filter_congr fun a ha => decide_eq_decide.2 (by rw [matches_withPrim (hi.axioms a ha)]; omega)
  rw [g1] at e1
  rw [g2] at e3
  refine ⟨o', s', e1, e2, e3, forgot e3 (fun a _ hf ho => ?_) e4 e5⟩
  have := (times_pos p _).2 ho
  have : times p a.obj = 0 := by simpa using hf
  omega

/-- C122, one by one, however often axioms mention the primitive: of the axioms that are collected and removed, exactly those that mention it
(or its IRI, if it is an entity) are gone. -/
theorem C122_each (o : Onto) (s : OntoSpec.Abs) (h : OntoSpec.Reaches o s) (p : Prim) :
    ∃ o' s', removeEach o (axiomsFor o p) = some o' ∧ OntoSpec.Reaches o' s' ∧
      s'.axioms = s.axioms.filter (fun a => OntoSpec.mentions p a.obj = 0) ∧ Forgot p s s' := by
  have hi := reaches_inv h
  obtain ⟨v, hv, -, hrun⟩ := C13_mentions o s h p
  have e0 : axiomsFor o p = v := by
    have := run_push (hrun _ _ ([] : List Ref))
    rwa [List.nil_append] at this
  have mem : ∀ r, r ∈ v ↔ r ∈ s.axioms ∧ 0 < OntoSpec.mentions p r.obj := by
    intro r
    rw [hv.mem_iff, List.mem_flatMap]
    constructor
    · rintro ⟨a, ha, hr⟩
      obtain ⟨h1, rfl⟩ := List.mem_replicate.1 hr
      exact ⟨ha, Nat.pos_of_ne_zero h1⟩
    · exact fun ⟨ha, h1⟩ => ⟨r, ha, List.mem_replicate.2 ⟨Nat.ne_of_gt h1, rfl⟩⟩
  have hl := legal_removeEach (fun a ha => ⟨hi.axioms a ha, hi.fits a ha⟩) v s (fun a ha => ((mem a).1 ha).1) fun _ h => h
  obtain ⟨ops, k1, k2, k3⟩ := h
  obtain ⟨o', k4, -⟩ := inv_run _ _ _ hi hl
  have k5 : OntoSpec.Reaches o' (s.run (v.map OntoSpec.Op.removeAxiom)) := by
    clear hv hrun e0 mem
    subst k3
    refine ⟨ops ++ v.map OntoSpec.Op.removeAxiom, legal_append _ _ _ k1 hl, ?_, (absRun_append' _ _ _).symm⟩
    rw [run_append', k2]; exact k4
  rw [abs_removeEach] at k5
  have e3 : v.foldl (fun xs a => xs.eraseP fun b => b.addr = a.addr) s.axioms = s.axioms.filter fun a => OntoSpec.mentions p a.obj = 0 := by
    rw [eraseEach (P := fun a => decide (0 < OntoSpec.mentions p a.obj)) v s.axioms]
    · exact List.filter_congr fun a _ => by rw [Bool.eq_iff_iff]; simp
    · intro a ha b hb e
      have := hi.fits a ((mem a).1 ha).1 b hb e
      rw [this]; simpa using ((mem a).1 ha).2
    · intro n
      rw [hv.countP_eq]
      clear hv hrun e0 mem hl k4 k5
      induction s.axioms with
      | nil => exact Nat.le_refl _
      | cons a as ih =>
        rw [List.flatMap_cons, List.countP_append, List.countP_cons, List.countP_replicate]
        by_cases hm : 0 < OntoSpec.mentions p a.obj
        · by_cases hn : a.addr = n
          · simp only [hm, hn, decide_true, Bool.and_self, if_true]; omega
          · simp only [hn, decide_false, Bool.and_false]; simp; omega
        · simp only [hm, decide_false, Bool.false_and]; simp; omega
  rw [e3] at k5
  refine ⟨o', _, by rw [e0, removeEach_run]; exact k4, k5, rfl, forgot rfl (fun a _ hf ho => ?_) rfl rfl⟩
  have := (C13_mentions_occurs p a.obj).2 (.inl ho)
  have : OntoSpec.mentions p a.obj = 0 := by simpa using hf
  omega

/-! ## Writing and reading again -/

/-- What an ontology finds that was only added to: the primitives that the axioms and annotations it holds mention, and the entities whose
IRIs they do. -/
theorem adds_found {o : Onto} {ops : List OntoSpec.Op} (h : OntoSpec.LegalRun OntoSpec.Abs.empty ops) (ha : ∀ op ∈ ops, op.Adds)
    (e : Onto.empty.run ops = some o) (p : Prim) :
    o.hasPrimitive p = true ↔ OntoSpec.OrIri (OntoSpec.Mentioned (OntoSpec.Abs.empty.run ops)) p := by
  obtain ⟨o', h1, h2⟩ := C17_partial ops h ha p
  cases h1.symm.trans e
  exact h2

/-- The ontology was only added to. -/
def OnlyAdded (x : OntoSt × Nat) : Prop :=
  ∃ ops, OntoSpec.LegalRun OntoSpec.Abs.empty ops ∧ (∀ op ∈ ops, op.Adds) ∧ Onto.empty.run ops = some x.1.onto ∧
    ∀ a ∈ (OntoSpec.Abs.empty.run ops).axioms, a.addr < x.2

theorem onlyAdded_op {o o' : Onto} {n : Nat} {ops : List OntoSpec.Op} {op : OntoSpec.Op} {st' : OntoSt} (e' : st'.onto = o')
    (h : OntoSpec.LegalRun OntoSpec.Abs.empty ops) (ha : ∀ op ∈ ops, op.Adds)
    (hr : Onto.empty.run ops = some o) (hop : op.Adds) (hl : OntoSpec.Legal (OntoSpec.Abs.empty.run ops) op) (hs : o.step op = some o')
    (hn : ∀ a ∈ ((OntoSpec.Abs.empty.run ops).step op).axioms, a.addr < n + 1) : OnlyAdded (st', n + 1) := by
  refine ⟨ops ++ [op], legal_append _ _ _ h ⟨hl, trivial⟩, ?_, ?_, ?_⟩
  · intro x hx
    rcases List.mem_append.1 hx with hx | hx
    · exact ha x hx
    · cases List.mem_singleton.1 hx; exact hop
  · rw [run_append', hr]
    show (o.step op).bind _ = some st'.onto
    rw [hs, e']; rfl
  · rw [absRun_append']; exact hn

theorem onlyAdded_step (x : OntoSt × Nat) (i : Item) (hx : OnlyAdded x) (hi : ItemOk owl2 i) : OnlyAdded (ontoHandler x i).1 := by
  obtain ⟨o, n⟩ := x
  obtain ⟨ops, h1, h2, h3, h4⟩ := hx
  have up : ∀ a ∈ (OntoSpec.Abs.empty.run ops).axioms, a.addr < n + 1 := fun a ha => Nat.lt_succ_of_lt (h4 a ha)
  cases i with
  | prefixDecl p ns => exact ⟨ops, h1, h2, h3, up⟩
  | iri i => exact ⟨ops, h1, h2, h3, up⟩
  | version i => exact ⟨ops, h1, h2, h3, up⟩
  | «import» i => exact onlyAdded_op (op := .addImport ⟨n, .prim (.iri i)⟩) rfl h1 h2 h3 trivial trivial rfl up
  | annot ob =>
    obtain ⟨an, rfl, -⟩ := hi
    exact onlyAdded_op (op := .addAnnot ⟨n, an.toObj⟩) rfl h1 h2 h3 trivial (wf_annot an) rfl up
  | ax ob =>
    obtain ⟨ax, rfl, -⟩ := hi
    refine onlyAdded_op (op := .addAxiom ⟨n, ax.toObj⟩) rfl h1 h2 h3 trivial ⟨isAxiom_toObj ax, ?_⟩ rfl ?_
    · intro b hb e
      exact absurd e (Nat.ne_of_lt (h4 b hb))
    · intro b hb
      rcases List.mem_append.1 hb with hb | hb
      · exact up b hb
      · cases List.mem_singleton.1 hb; exact Nat.lt_succ_self n

/-- C122, loading: whatever text is read into a new ontology, whether it is accepted or not, the ontology then finds exactly the primitives
that the axioms and annotations it holds mention, and the entities whose IRIs they do. -/
theorem C122_load (ks : List Nat) (dflt : Fwd) (m : PMap) (addr n : Nat) (text : Str) :
    ∃ s, OntoSpec.Reaches (funcRead ontoHandler m addr text (OntoSt.new ks dflt, n)).1.1.onto s ∧
      ∀ p, (funcRead ontoHandler m addr text (OntoSt.new ks dflt, n)).1.1.onto.hasPrimitive p = true ↔ OntoSpec.OrIri (OntoSpec.Mentioned s) p := by
  obtain ⟨ops, h1, h2, h3, -⟩ := funcRead_typed (P := OnlyAdded) (h := ontoHandler) onlyAdded_step m addr text (s := (OntoSt.new ks dflt, n))
    ⟨[], trivial, nofun, rfl, nofun⟩
  exact ⟨_, ⟨ops, h1, h3, rfl⟩, adds_found h1 h2 h3⟩

/-- An ontology whose axioms were removed in part can be written if it could before. -/
theorem docOk_left {o : OntoSt} {o' : Onto} {s s' : OntoSpec.Abs} (ho : DocOk o) (hs : OntoSpec.Reaches o.onto s) (hs' : OntoSpec.Reaches o' s')
    (h1 : ∀ a ∈ s'.axioms, a ∈ s.axioms) (h2 : s'.annots = s.annots) (h3 : s'.imports = s.imports) : DocOk { o with onto := o' } where
  history := ho.history
  sound := ho.sound
  plain := ho.plain
  chars := ho.chars
  iri := ho.iri
  version := ho.version
  imports := by
    show ∀ x ∈ o'.imports.getD [], _
    rw [(reaches_inv hs').imports, h3, ← (reaches_inv hs).imports]; exact ho.imports
  annots := by
    show ∀ x ∈ o'.annot.getD [], _
    rw [(reaches_inv hs').annot, h2, ← (reaches_inv hs).annot]; exact ho.annots
  axioms x hx := ho.axioms x ((axiomsOf_perm (reaches_inv hs)).mem_iff.2 (h1 x ((axiomsOf_perm (reaches_inv hs')).mem_iff.1 hx)))

/-- C122, writing, for ontologies that documents can express (C45): the text that is written after the axioms have been removed says no axiom
that mentions the primitive, and the ontology that is read from it does not find the primitive, unless annotations of the ontology
mention it or, if it is an entity, its IRI is mentioned. -/
theorem C122_written {o : OntoSt} {s s' : OntoSpec.Abs} {o' : Onto} {p : Prim} (hs : OntoSpec.Reaches o.onto s) (ho : DocOk o)
    (hs' : OntoSpec.Reaches o' s') (h1 : ∀ a ∈ s'.axioms, a ∈ s.axioms) (hf : Forgot p s s') {ks : List Nat} (hk : ks.length = 4) {dflt : Fwd}
    (hd : Distinct dflt) (hc : Compatible o.pm dflt) (addr n : Nat) :
    ∃ (txt : Str) (d : Doc) (q : OntoSt) (m : Nat), writeDoc { o with onto := o' } = some txt ∧ Says.Says lax (initial dflt) txt d ∧
      (∀ a ∈ d.axioms, ¬ Occurs p a.toObj) ∧
      funcRead ontoHandler (create ks dflt) addr txt (OntoSt.new ks dflt, n) = ((q, m), .ok) ∧
      ((∀ a ∈ s.annots, OntoSpec.mentions p a.obj = 0) → (∀ a ∈ s'.axioms, OntoSpec.mentions p a.obj = 0) → q.onto.hasPrimitive p = false) := by
  have ho' := docOk_left ho hs hs' h1 hf.annots hf.imports
  obtain ⟨txt, w1, d, w2, w3⟩ := C114_partial (o := { o with onto := o' }) hs' ho' hd hc
  obtain ⟨txt', q, m, g1, g2, -, -, -, g6, -, -, s2, g9, g10⟩ := C45_partial (o := { o with onto := o' }) hs' ho' hk hk hd hc addr n
  cases g1.symm.trans w1
  obtain ⟨s3, k1, k2⟩ := C122_load ks dflt (create ks dflt) addr n txt
  rw [g2] at k1 k2
  refine ⟨txt, d, q, m, w1, w2, fun a ha hocc => ?_, g2, fun a1 a2 => ?_⟩
  · obtain ⟨r, hr, e⟩ := List.mem_map.1 (w3.axioms.mem_iff.1 (List.mem_map_of_mem (f := Axiom.toObj) ha))
    exact hf.free r hr (by rw [e]; exact hocc)
  · have none : ∀ x ∈ s3.axioms ++ s3.annots, OntoSpec.mentions p x.obj = 0 := by
      intro x hx
      rcases List.mem_append.1 hx with hx | hx
      · have p1 := (((axiomsOf_perm (reaches_inv k1)).symm.trans (axiomsOf_perm (reaches_inv g9))).map Ref.obj).trans g10
        obtain ⟨r, hr, e⟩ := List.mem_map.1 (p1.mem_iff.1 (List.mem_map_of_mem (f := Ref.obj) hx))
        rw [← e]; exact a2 r hr
      · rw [← (reaches_inv k1).annot] at hx
        have := List.mem_map_of_mem (f := Ref.obj) hx
        rw [g6, hf.annots] at this
        obtain ⟨r, hr, e⟩ := List.mem_map.1 this
        rw [← e]; exact a1 r hr
    cases hq : q.onto.hasPrimitive p with
    | false => rfl
    | true =>
      exfalso
      have bad : ∀ q', OntoSpec.Mentioned s3 q' → (∀ x, 0 < times q' x → 0 < OntoSpec.mentions p x) → False := by
        rintro q' ⟨x, hx, ht⟩ hm
        have := none x (List.mem_append.2 hx)
        have := hm _ ht
        omega
      have := (k2 p).1 hq
      cases p with
      | ent k i =>
        rcases this with h | h
        · exact bad _ h fun x hx => (C13_mentions_occurs _ x).2 (.inl ((times_pos _ x).1 hx))
        · exact bad _ h fun x hx => (C13_mentions_occurs _ x).2 (.inr ⟨k, i, rfl, (times_pos _ x).1 hx⟩)
      | iri i => exact bad _ this fun x hx => (C13_mentions_occurs _ x).2 (.inl ((times_pos _ x).1 hx))
      | anon i => exact bad _ this fun x hx => (C13_mentions_occurs _ x).2 (.inl ((times_pos _ x).1 hx))

/-! ### Examples -/

/-- Three axioms: one mentions `A` twice, one once, one not at all. -/
def forgetOps : List OntoSpec.Op := [.addAxiom ⟨1, subAx "A" "A"⟩, .addAxiom ⟨2, subAx "A" "B"⟩, .addAxiom ⟨3, subAx "B" "C"⟩]

/-- One by one, `A` can be taken out of the three axioms. -/
example : ∃ o s, OntoSpec.Reaches o s ∧ s.axioms.length = 3 ∧
    (axiomsFor o (clsPrim "A")).map Ref.addr = [1, 1, 2] ∧
    ((removeEach o (axiomsFor o (clsPrim "A"))).map fun o => (o.axiomCount, o.hasPrimitive (clsPrim "A"))) = some (1#32, true) := by
  obtain ⟨o, h1, h2⟩ := C11_total forgetOps ⟨⟨subAx_isAxiom .., by simp [OntoSpec.Fits, OntoSpec.Abs.empty]⟩,
    ⟨subAx_isAxiom .., by simp [OntoSpec.Fits, OntoSpec.Abs.step, OntoSpec.Abs.empty]⟩,
    ⟨subAx_isAxiom .., by simp [OntoSpec.Fits, OntoSpec.Abs.step, OntoSpec.Abs.empty]⟩, trivial⟩
  refine ⟨o, _, h2, rfl, ?_⟩
  have : (Onto.empty.run forgetOps).map (fun o => ((axiomsFor o (clsPrim "A")).map Ref.addr,
      ((removeEach o (axiomsFor o (clsPrim "A"))).map fun o => (o.axiomCount, o.hasPrimitive (clsPrim "A"))))) =
      some ([1, 1, 2], some (1#32, true)) := by decide +kernel
  rw [h1] at this
  exact _root_.Prod.mk.inj (Option.some.inj this)

/-- The hypothesis of `C122_partial` is met for `C`, which one of the three axioms mentions. -/
example : (∀ a ∈ (OntoSpec.Abs.empty.run forgetOps).axioms, times (clsPrim "C") a.obj ≤ 1) ∧
    ((OntoSpec.Abs.empty.run forgetOps).axioms.filter fun a => 0 < times (clsPrim "C") a.obj).map Ref.addr = [3] := by decide +kernel

/-- C122 is false as stated. With a filter, taking out a class that an axiom mentions twice is undefined. One by one, an annotation assertion about the
IRI of a class goes with the class, though it does not mention the class. And whichever way, the ontology still finds the class. -/
theorem C122_fails :
    (((Onto.empty.addAxiom ⟨1, subAx "A" "A"⟩).removeAxiomsMatching (withPrim (clsPrim "A"))).isNone = true) ∧
    ((removeEach (Onto.empty.addAxiom ⟨1, noteAx "A"⟩) (axiomsFor (Onto.empty.addAxiom ⟨1, noteAx "A"⟩) (clsPrim "A"))).map (·.axiomCount)
        = some 0#32 ∧ times (clsPrim "A") (noteAx "A") = 0) ∧
    (((Onto.empty.addAxiom ⟨1, declAx "A"⟩).removeAxiomsMatching (withPrim (clsPrim "A"))).map
        (fun r => (r.1.axiomCount, r.2, r.1.hasPrimitive (clsPrim "A"))) = some (0#32, 1#32, true) ∧
      (removeEach (Onto.empty.addAxiom ⟨1, declAx "A"⟩) (axiomsFor (Onto.empty.addAxiom ⟨1, declAx "A"⟩) (clsPrim "A"))).map
        (fun o => (o.axiomCount, o.hasPrimitive (clsPrim "A"))) = some (0#32, true)) := by
  decide +kernel

end Cowl
