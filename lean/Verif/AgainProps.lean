import Verif.SpokenProps
import Verif.PrtFromFuncProps
/-! # Properties: a document that is read and written says the same

What comes in and what goes out are judged by the syntax and the meaning of the standard (`SaysSpec.lean`, `SemSpec.lean`), which
mention no part of the program. -/
namespace Cowl
open Says Func FuncSpec FuncTell Ast Change Prefix PrefixSpec Sem OntoSpec Rewrite Prt

theorem told_loose (d : Loose) : toldAnnots d.items = d.doc.annots.map Annot.toObj ∧
    toldImports d.items = d.doc.imports.map fun i => .prim (.iri i) := by
  have e1 : ∀ ps : List (Str × Str), toldAnnots (ps.map fun e => .prefixDecl e.1 e.2) = [] ∧
      toldImports (ps.map fun e => .prefixDecl e.1 e.2) = [] := by
    intro ps; induction ps with
    | nil => exact ⟨rfl, rfl⟩
    | cons e ps ih => exact ih
  have e2 : ∀ l : List (Iri ⊕ Annot),
      toldAnnots (l.map partItem) = (l.filterMap fun x => match x with | .inl _ => none | .inr a => some a).map Annot.toObj ∧
      toldImports (l.map partItem) = (l.filterMap fun x => match x with | .inl i => some i | .inr _ => none).map fun i => .prim (.iri i) := by
    intro l; induction l with
    | nil => exact ⟨rfl, rfl⟩
    | cons e l ih => cases e with
      | inl i => exact ⟨ih.1, congrArg _ ih.2⟩
      | inr a => exact ⟨congrArg _ ih.1, ih.2⟩
  have e3 : ∀ as : List Axiom, toldAnnots (as.map fun a => .ax a.toObj) = [] ∧ toldImports (as.map fun a => .ax a.toObj) = [] := by
    intro as; induction as with
    | nil => exact ⟨rfl, rfl⟩
    | cons e as ih => exact ih
  have e4 : toldAnnots (Says.idItems d.id) = [] ∧ toldImports (Says.idItems d.id) = [] := by
    unfold Says.idItems
    split <;> exact ⟨rfl, rfl⟩
  unfold Loose.items
  simp only [told_append, e1, e3, e4, List.nil_append, List.append_nil]
  exact e2 d.header

theorem give_loose (d : Loose) (s : OntoSt × Nat) (h1 : s.1.iri = none) (h2 : s.1.version = none) :
    (give ontoHandler s d.items).1.iri = d.id.map _root_.Prod.fst ∧ (give ontoHandler s d.items).1.version = d.id.bind _root_.Prod.snd := by
  unfold Loose.items
  rw [give_append, give_append]
  have k0 := give_id (d.prefixes.map fun e => Item.prefixDecl e.1 e.2) s (by
    intro i hi
    obtain ⟨e, _, rfl⟩ := List.mem_map.1 hi
    exact ⟨nofun, nofun⟩)
  rw [h1, h2] at k0
  have k1 := fun s => give_id (d.header.map partItem ++ d.axioms.map fun a => .ax a.toObj) s (by
    intro i hi
    rcases List.mem_append.1 hi with hi | hi
    · obtain ⟨e, _, rfl⟩ := List.mem_map.1 hi
      cases e <;> exact ⟨nofun, nofun⟩
    · obtain ⟨e, _, rfl⟩ := List.mem_map.1 hi
      exact ⟨nofun, nofun⟩)
  rw [(k1 _).1, (k1 _).2]
  cases d.id with
  | none => exact k0
  | some x =>
    obtain ⟨i, v⟩ := x
    cases v with
    | none => exact ⟨rfl, k0.2⟩
    | some v => exact ⟨rfl, rfl⟩

/-- What a text says that is accepted, and what the ontology holds that is read from it. -/
theorem heard_onto {ks : List Nat} (hk : ks.length = 4) {dflt : Fwd} (hd : Distinct dflt) {addr n n' : Nat} {text : Str} {o : OntoSt}
    (e : funcRead ontoHandler (create ks dflt) addr text (OntoSt.new ks dflt, n) = ((o, n'), .ok)) :
    ∃ (d : Loose) (s : OntoSpec.Abs), d.Ok ∧ Hears (initial dflt) text d ∧ OntoSpec.Reaches o.onto s ∧
      o.iri = d.id.map _root_.Prod.fst ∧ o.version = d.id.bind _root_.Prod.snd ∧
      s.axioms.map Ref.obj = d.axioms.map Axiom.toObj ∧ s.annots.map Ref.obj = d.doc.annots.map Annot.toObj ∧
      s.imports.map Ref.obj = (d.doc.imports.map fun i => .prim (.iri i)) ∧ ∀ i ∈ d.items, ItemOk owl2 i := by
  obtain ⟨r1, r2⟩ := funcRead_record ontoHandler (create ks dflt) addr text (OntoSt.new ks dflt, n)
  rw [e] at r1 r2
  obtain ⟨d, h1, h2, h3⟩ := read_heard (h := taking ontoHandler) hk hd (s := ((OntoSt.new ks dflt, n), [])) (addr := addr) (text := text)
    (_root_.Prod.ext rfl r2)
  obtain ⟨told, s, a', e1, ht, e3, -, e5, e6, e7⟩ := C91_load_partial (o := OntoSt.new ks dflt) (s := ⟨[], [], []⟩)
    (a := _) ⟨[], trivial, rfl, rfl⟩ (.create ks dflt hk hd) n nofun (create ks dflt) addr text
  have e2 : told = d.items := by
    refine e1.trans ((congrArg _root_.Prod.snd h3).trans ?_)
    rw [Examples.give_taking, List.nil_append]
  have e4 : (o, n') = give ontoHandler (OntoSt.new ks dflt, n) d.items := by
    refine r1.symm.trans ((congrArg _root_.Prod.fst h3).trans ?_)
    rw [Examples.give_taking]
  subst e2
  rw [e] at e3
  rw [toldAxioms_loose] at e5
  rw [(told_loose d).1] at e6
  rw [(told_loose d).2] at e7
  have hid := give_loose d (OntoSt.new ks dflt, n) rfl rfl
  rw [← e4] at hid
  exact ⟨d, s, h1, h2, e3, hid.1, hid.2, e5, e6, e7, ht⟩

theorem in_axioms (as : List Axiom) (x : Obj) : x ∈ as.map Axiom.toObj ↔ ∃ a ∈ as, x = a.toObj := by
  simp only [List.mem_map]
  exact ⟨fun ⟨a, ha, k⟩ => ⟨a, ha, k.symm⟩, fun ⟨a, ha, k⟩ => ⟨a, ha, k.symm⟩⟩

/-- C116, but for what C93 excepts: if a text is accepted and the ontology that was read from it is written, the text that is
written says a document with the same IRI, version, imports, annotations and axioms as the one that the first text says. The axioms may
come in another order. -/
theorem C116_partial {ks : List Nat} (hk : ks.length = 4) {dflt : Fwd} (hd : Distinct dflt) (hg : GoodDefaults dflt)
    {addr n n' : Nat} {text : Str} {o : OntoSt}
    (e : funcRead ontoHandler (create ks dflt) addr text (OntoSt.new ks dflt, n) = ((o, n'), .ok)) (hw : Rewritable o)
    (hc : Compatible o.pm dflt) :
    ∃ (d : Loose) (text' : Str) (d' : Doc), d.Ok ∧ Hears (initial dflt) text d ∧
      writeDoc o = some text' ∧ Says.Says lax (initial dflt) text' d' ∧
      d'.id = d.id ∧ d'.imports = d.doc.imports ∧ d'.annots.map Annot.toObj = d.doc.annots.map Annot.toObj ∧
      (d'.axioms.map Axiom.toObj).Perm (d.axioms.map Axiom.toObj) ∧
      ∀ I : Interp, (∀ a ∈ d'.axioms, sat I a.ax) ↔ ∀ a ∈ d.axioms, sat I a.ax := by
  obtain ⟨d, s, h1, h2, e3, hiri, hver, e5, e6, e7, -⟩ := heard_onto hk hd e
  have hdoc := (doc_of_read hk hk hd hg addr n text).2.2
  rw [e] at hdoc
  obtain ⟨txt, w1, d', w2, w3⟩ := C114_partial e3 (hdoc hw) hd hc
  have hp : (d'.axioms.map Axiom.toObj).Perm (d.axioms.map Axiom.toObj) := by rw [← e5]; exact w3.axioms
  refine ⟨d, txt, d', h1, h2, w1, w2, ?_, ?_, w3.annots.trans e6, hp, fun I => ?_⟩
  · have a := w3.iri.trans hiri
    have b := w3.version.trans hver
    revert a b
    generalize d'.id = x
    generalize d.id = y
    intro a b
    cases x with
    | none => cases y with
      | none => rfl
      | some y => cases a
    | some x => cases y with
      | none => cases a
      | some y => exact congrArg some (_root_.Prod.ext (Option.some.inj a) b)
  · have := w3.imports.trans e7
    have inj : ∀ l l' : List Iri, l.map (fun i => Obj.prim (.iri i)) = l'.map (fun i => Obj.prim (.iri i)) → l = l' := by
      intro l
      induction l with
      | nil => intro l' k; cases l' with
        | nil => rfl
        | cons _ _ => cases k
      | cons i l ih => intro l' k; cases l' with
        | nil => cases k
        | cons j l' =>
          rw [List.map_cons, List.map_cons] at k
          obtain ⟨k1, k2⟩ := List.cons.inj k
          rw [ih _ k2, Prim.iri.inj (Obj.prim.inj k1)]
    exact inj _ _ this
  · rw [← holds_map (in_axioms d'.axioms), ← holds_map (in_axioms d.axioms)]
    exact ⟨fun k x hx => k x (hp.mem_iff.2 hx), fun k x hx => k x (hp.mem_iff.1 hx)⟩

theorem rewriteText_read : (readNew rewriteDflt rewriteText).2 = .ok := by decide +kernel

/-- The conditions of `C116_partial` hold for a text with prefix, IRI, version, import, annotation and axioms. -/
example : (readNew rewriteDflt rewriteText).2 = .ok ∧ Distinct rewriteDflt ∧ GoodDefaults rewriteDflt ∧
    Rewritable (readNew rewriteDflt rewriteText).1 ∧ Compatible (readNew rewriteDflt rewriteText).1.pm rewriteDflt :=
  ⟨rewriteText_read, rewriteDflt_distinct, rewriteDflt_good, rewriteText_ok, rewriteText_compatible⟩

/-- C116 for ProtocOWL, but for what C97 and C110 except: if a text is accepted and the ontology that was read from it is written in
ProtocOWL, what is written is read as an ontology that holds in an interpretation, numbers being numbers, exactly if the axioms do that the
text says. -/
theorem C116_protocowl (E : Env) (hu : E.u.Lawful) (hr : E.u.Reads) {ks : List Nat} (hk : ks.length = 4) {dflt : Fwd} (hd : Distinct dflt)
    {addr n n' : Nat} {text : Str} {o : OntoSt}
    (e : funcRead ontoHandler (create ks dflt) addr text (OntoSt.new ks dflt, n) = ((o, n'), .ok))
    {names : List Prt.Id} (hn : NamesFit names o) (hz : SizesFit o)
    (hl : ∀ x ∈ axiomsOf o.onto, ∀ a : Axiom, x.obj = a.toObj → a.ax.Meets (onlyLits (MeansKept E.u)))
    {order : List Prim → List Prim} (hord : ∀ ps, (order ps).Perm ps) (ks' : List Nat) (dflt' : Fwd) (m : Nat) :
    ∃ (d : Loose) (b : Str) (o' : OntoSt) (m' : Nat) (s' : OntoSpec.Abs), d.Ok ∧ Hears (initial dflt) text d ∧
      (∀ cap, b.length ≤ cap → writeOntology E.u true order o cap = (b, .ok)) ∧
      prtRead E changeHandler b (some (OntoSt.new ks' dflt', m)) = (some (o', m'), .done) ∧ OntoSpec.Reaches o'.onto s' ∧
      s'.axioms.length = d.axioms.length ∧
      ∀ I : Interp, I.Numeric → (HoldsIn I (s'.axioms.map Ref.obj) ↔ ∀ a ∈ d.axioms, sat I a.ax) := by
  obtain ⟨d, s, h1, h2, e3, -, -, e5, e6, e7, ht⟩ := heard_onto hk hd e
  have hi := reaches_inv e3
  have hfit : PrtDocFits prtSizes names o := by
    refine writable_fits e3 ⟨?_, ?_, ?_⟩ hn
    · intro x hx
      have hm : x.obj ∈ toldAxioms d.items := by
        rw [toldAxioms_loose, ← e5]; exact List.mem_map_of_mem hx
      obtain ⟨a, k1, k2⟩ := ht _ (mem_toldAxioms hm)
      exact ⟨a, k1, axiom_suits suits_sizes k2 (hz.axioms x ((axiomsOf_perm hi).mem_iff.2 hx) a k1) (leafs_noReq _)⟩
    · intro x hx
      have hm : x.obj ∈ toldAnnots d.items := by
        rw [(told_loose d).1, ← e6]; exact List.mem_map_of_mem hx
      obtain ⟨a, k1, k2⟩ := ht _ (mem_toldAnnots hm)
      exact ⟨a, k1, annot_suits suits_sizes a k2 (hz.annots x (by rw [hi.annot]; exact hx) a k1) (leafs_noReq _)⟩
    · intro x hx
      have hm : x.obj ∈ toldImports d.items := by
        rw [(told_loose d).2, ← e7]; exact List.mem_map_of_mem hx
      obtain ⟨i, k1, -⟩ := mem_toldImports hm
      exact ⟨i, k1⟩
  obtain ⟨b, o', m', s', w1, w2, w3, -, w4, w5⟩ := C110_partial E hu hr e3 hfit
    (fun x hx a k => hl x ((axiomsOf_perm hi).mem_iff.2 hx) a k) hord ks' dflt' m
  refine ⟨d, b, o', m', s', h1, h2, w1, w2, w3, ?_, fun I hI => ?_⟩
  · rw [w4]; simpa using congrArg List.length e5
  · rw [w5 I hI, e5]; exact holds_map (in_axioms d.axioms)

/-- The conditions of `C116_protocowl` that are about the text hold for one with prefix, IRI, version, import and axioms. -/
example (E : Env) : (readNew [] fromFuncText).2 = .ok ∧ NamesFit fromFuncNames (readNew [] fromFuncText).1 ∧
    SizesFit (readNew [] fromFuncText).1 ∧
    ∀ x ∈ axiomsOf (readNew [] fromFuncText).1.onto, ∀ a : Axiom, x.obj = a.toObj → a.ax.Meets (onlyLits (MeansKept E.u)) := by
  have hx : (axiomsOf (readNew [] fromFuncText).1.onto).all (fun x => objCheck x.obj) = true := by decide +kernel
  have hn : (readNew [] fromFuncText).1.onto.annot.getD [] = [] := List.isEmpty_iff.1 (by decide +kernel)
  refine ⟨by decide +kernel, namesCheck_fit (by decide +kernel), ⟨?_, ?_⟩, ?_⟩
  · intro x h; rw [hn] at h; cases h
  · intro x h a e; exact small_of_check (List.all_eq_true.1 hx x h) e
  · intro x h a e
    have h := List.all_eq_true.1 hx x h
    rw [e] at h
    obtain ⟨ax, as⟩ := a
    unfold Axiom.toObj at h
    cases as with
    | cons y as => rw [Annot.toObjs, annotated, check_annotated] at h; cases h
    | nil =>
      rw [Annot.toObjs, annotated] at h
      cases ax with
      | decl k i => trivial
      | subClass c d =>
        rw [Ax.type, Ax.fields] at h
        cases c <;> cases d <;> first
          | exact ⟨trivial, trivial⟩
          | (simp only [CE.toObj] at h; first | cases h | (split at h <;> cases h))
      | objPropChar k p => cases k <;> cases h
      | _ => cases h

theorem run_readNew {dflt : Fwd} {text : Str} (h : (readNew dflt text).2 = .ok) :
    ∃ n', funcRead ontoHandler (create [0, 1, 2, 3] dflt) 20 text (OntoSt.new [0, 1, 2, 3] dflt, 100) =
      (((readNew dflt text).1, n'), .ok) := by
  unfold readNew at h ⊢
  exact ⟨_, _root_.Prod.ext rfl h⟩

theorem of_again {text : Str} (h : again text = (.ok, none)) : (readNew [] text).2 = .ok ∧ writeDoc (readNew [] text).1 = none := by
  unfold again at h
  exact ⟨congrArg _root_.Prod.fst h, Option.map_eq_none_iff.1 (congrArg _root_.Prod.snd h)⟩

/-- C116 is false as stated: there is a text that is accepted, so that it says a document, and to write the ontology that was read from
it is undefined. Its axiom has an inverse property below another property. -/
theorem C116_fails : ∃ (text : Str) (d : Loose) (o : OntoSt) (n' : Nat), d.Ok ∧ Hears (initial []) text d ∧ d.axioms.length = 1 ∧
    funcRead ontoHandler (create [0, 1, 2, 3] []) 20 text (OntoSt.new [0, 1, 2, 3] [], 100) = ((o, n'), .ok) ∧ writeDoc o = none := by
  have h : again inverseDoc = (.ok, none) := by decide +kernel
  have hl : (axiomsOf (readNew [] inverseDoc).1.onto).length = 1 := by decide +kernel
  obtain ⟨n', e⟩ := run_readNew (of_again h).1
  obtain ⟨d, s, h1, h2, h3, -, -, h4, -⟩ := heard_onto (ks := [0, 1, 2, 3]) rfl .nil e
  refine ⟨inverseDoc, d, _, _, h1, h2, ?_, e, ?_⟩
  · have := congrArg List.length h4
    rw [List.length_map, List.length_map] at this
    rw [← this, ← (axiomsOf_perm (reaches_inv h3)).length_eq, hl]
  · exact (of_again h).2

end Cowl
