import Verif.ApartLemmas
import Verif.AgainProps
import Verif.PrtNormProps
/-!
# C117: what differs is told apart
-/
namespace Cowl
open Says Func FuncSpec FuncTell Ast Change Prefix PrefixSpec Sem OntoSpec Rewrite Prt

/-- C117, constructs: constructs that differ are objects that differ. -/
theorem C117_constructs (a b : Axiom) (c d : Annot) : (a.toObj = b.toObj ↔ a = b) ∧ (c.toObj = d.toObj ↔ c = d) :=
  ⟨⟨Axiom.inj, fun e => e ▸ rfl⟩, Annot.inj, fun e => e ▸ rfl⟩

theorem idItems_inj {a b : Option (Iri × Option Iri)} (e : Says.idItems a = Says.idItems b) : a = b := by
  unfold Says.idItems at e
  split at e <;> split at e <;> first | rfl | (cases e; done) | (cases e; rfl)

theorem part_inj {a b : Iri ⊕ Annot} (e : partItem a = partItem b) : a = b := by
  cases a <;> cases b
  · rw [Item.import.inj e]
  · cases e
  · cases e
  · rw [Annot.inj (Item.annot.inj e)]

theorem loose_inj {d d' : Loose} (e : d.items = d'.items) : d = d' := by
  obtain ⟨f1, f2, f3, f4⟩ := loose_parts d
  obtain ⟨g1, g2, g3, g4⟩ := loose_parts d'
  rw [e] at f1 f2 f3 f4
  obtain ⟨ps, i, h, as⟩ := d
  obtain ⟨ps', i', h', as'⟩ := d'
  have e1 : ps = ps' := f1.symm.trans g1
  have e2 : i = i' := idItems_inj (f2.symm.trans g2)
  have e3 : h = h' := map_inj part_inj (f3.symm.trans g3)
  have e4 : as = as' := map_inj Axiom.inj (f4.symm.trans g4)
  rw [e1, e2, e3, e4]

/-- The document with its header in order. -/
def Says.Doc.loose (d : Doc) : Loose := ⟨d.prefixes, d.id, d.imports.map .inl ++ d.annots.map .inr, d.axioms⟩

theorem loose_items (d : Doc) : d.loose.items = d.items := by
  unfold Loose.items Doc.items Doc.loose
  rw [List.map_append, List.map_map, List.map_map, List.append_assoc]
  rfl

theorem loose_doc (d : Doc) : d.loose.doc = d := by
  have e1 : d.loose.doc.imports = d.imports := by
    show (d.imports.map Sum.inl ++ d.annots.map Sum.inr).filterMap _ = _
    rw [List.filterMap_append, filterMap_map_some (g := Sum.inl) (k := fun x => x) (fun _ => rfl),
      filterMap_map_none (g := Sum.inr) (fun _ => rfl)]
    simp
  have e2 : d.loose.doc.annots = d.annots := by
    show (d.imports.map Sum.inl ++ d.annots.map Sum.inr).filterMap _ = _
    rw [List.filterMap_append, filterMap_map_some (g := Sum.inr) (k := fun x => x) (fun _ => rfl),
      filterMap_map_none (g := Sum.inl) (fun _ => rfl)]
    simp
  exact (show d.loose.doc = ⟨d.prefixes, d.id, d.loose.doc.imports, d.loose.doc.annots, d.axioms⟩ from rfl).trans (by rw [e1, e2])

theorem doc_inj {d d' : Doc} (e : d.items = d'.items) : d = d' := by
  rw [← loose_items, ← loose_items] at e
  rw [← loose_doc d, ← loose_doc d', loose_inj e]

/-- What a handler that accepts everything is told of a text. -/
def toldBy (dflt : Fwd) (text : Str) : List Item × Outcome :=
  let r := funcRead (taking fun s _ => (s, .ok)) (create [1, 2, 3, 4] dflt) 5 text ((), [])
  (r.1.2, r.2)

theorem toldBy_says {d : Doc} (hd : d.Ok) {dflt : Fwd} (hf : Distinct dflt) (ha : d.Agrees (initial dflt)) {text : Str}
    (ht : Says.Says usual (initial dflt) text d) : toldBy dflt text = (d.items, .ok) := by
  unfold toldBy
  rw [C112_partial (h := taking fun (s : Unit) _ => (s, .ok)) (fun _ _ => rfl) hd (ks := [1, 2, 3, 4]) rfl hf ha 5 ((), []) ht,
    Examples.give_taking]
  rfl

theorem toldBy_heard {dflt : Fwd} (hf : Distinct dflt) {text : Str} {l : List Item} (e : toldBy dflt text = (l, .ok)) :
    ∃ d : Loose, d.Ok ∧ Hears (initial dflt) text d ∧ l = d.items := by
  unfold toldBy at e
  obtain ⟨e1, e2⟩ := _root_.Prod.mk.inj e
  obtain ⟨d, h1, h2, h3⟩ := C113_partial (h := taking fun (s : Unit) _ => (s, .ok)) (ks := [1, 2, 3, 4]) rfl hf (addr := 5) (text := text)
    (s := ((), [])) (s' := (funcRead (taking fun (s : Unit) _ => (s, .ok)) (create [1, 2, 3, 4] dflt) 5 text ((), [])).1)
    (_root_.Prod.ext rfl e2)
  refine ⟨d, h1, h2, ?_⟩
  rw [← e1, h3, Examples.give_taking, List.nil_append]

/-- C117, reading, but for the spellings that `usual` leaves out and for documents that declare a default prefix again to stand for
something else: of texts that say different documents a handler is told different things. -/
theorem C117_partial {d d' : Doc} (hd : d.Ok) (hd' : d'.Ok) {dflt : Fwd} (hf : Distinct dflt) (ha : d.Agrees (initial dflt))
    (ha' : d'.Agrees (initial dflt)) {text text' : Str} (ht : Says.Says usual (initial dflt) text d)
    (ht' : Says.Says usual (initial dflt) text' d') : toldBy dflt text = toldBy dflt text' ↔ d = d' := by
  rw [toldBy_says hd hf ha ht, toldBy_says hd' hf ha' ht']
  constructor
  · intro e; exact doc_inj (_root_.Prod.mk.inj e).1
  · rintro rfl; rfl

/-- C117, texts, under the same conditions: a text says one document. -/
theorem C117_one {d d' : Doc} (hd : d.Ok) (hd' : d'.Ok) {dflt : Fwd} (hf : Distinct dflt) (ha : d.Agrees (initial dflt))
    (ha' : d'.Agrees (initial dflt)) {text : Str} (ht : Says.Says usual (initial dflt) text d)
    (ht' : Says.Says usual (initial dflt) text d') : d = d' := (C117_partial hd hd' hf ha ha' ht ht').1 rfl

/-- C117, loading, under the same conditions: if the ontologies read from two texts have the same IRI, version, imports, annotations and
axioms, so have the documents that the texts say. -/
theorem C117_load {d d' : Doc} (hd : d.Ok) (hd' : d'.Ok) {ks ks' : List Nat} (hk : ks.length = 4) (hk' : ks'.length = 4)
    {dflt : Fwd} (hf : Distinct dflt) (ha : d.Agrees (initial dflt)) (ha' : d'.Agrees (initial dflt)) {addr addr' n n' m m' : Nat}
    {text text' : Str} (ht : Says.Says usual (initial dflt) text d) (ht' : Says.Says usual (initial dflt) text' d') {o o' : OntoSt}
    (e : funcRead ontoHandler (create ks dflt) addr text (OntoSt.new ks dflt, n) = ((o, m), .ok))
    (e' : funcRead ontoHandler (create ks' dflt) addr' text' (OntoSt.new ks' dflt, n') = ((o', m'), .ok)) :
    ∃ s s', OntoSpec.Reaches o.onto s ∧ OntoSpec.Reaches o'.onto s' ∧
      (o.iri = o'.iri ∧ o.version = o'.version ∧ s.imports.map Ref.obj = s'.imports.map Ref.obj ∧
        s.annots.map Ref.obj = s'.annots.map Ref.obj ∧ s.axioms.map Ref.obj = s'.axioms.map Ref.obj ↔
      d.id = d'.id ∧ d.imports = d'.imports ∧ d.annots = d'.annots ∧ d.axioms = d'.axioms) := by
  obtain ⟨p, _, s, h1, h2, h3, h4, h5, h6, h7⟩ := C112_load hd hk hf ha addr n ht
  obtain ⟨p', _, s', h1', h2', h3', h4', h5', h6', h7'⟩ := C112_load hd' hk' hf ha' addr' n' ht'
  obtain rfl : p = o := (_root_.Prod.mk.inj (_root_.Prod.mk.inj (h1.symm.trans e)).1).1
  obtain rfl : p' = o' := (_root_.Prod.mk.inj (_root_.Prod.mk.inj (h1'.symm.trans e')).1).1
  refine ⟨s, s', h4, h4', ?_⟩
  rw [h2, h3, h5, h6, h7, h2', h3', h5', h6', h7']
  constructor
  · rintro ⟨k1, k2, k3, k4, k5⟩
    refine ⟨?_, map_inj (fun h => Prim.iri.inj (Obj.prim.inj h)) k3, map_inj Annot.inj k4, map_inj Axiom.inj k5⟩
    cases hi : d.id with
    | none =>
      cases hi' : d'.id with
      | none => rfl
      | some y => rw [hi, hi'] at k1; cases k1
    | some x =>
      cases hi' : d'.id with
      | none => rw [hi, hi'] at k1; cases k1
      | some y =>
        rw [hi, hi'] at k1 k2
        exact congrArg some (_root_.Prod.ext (Option.some.inj k1) k2)
  · rintro ⟨k1, k2, k3, k4⟩
    rw [k1, k2, k3, k4]
    exact ⟨rfl, rfl, rfl, rfl, rfl⟩

/-- C117, acceptance: of a text that is accepted there is one document, in the wider sense of C113, that is what the handler was told, and
it is the document that the text says if it says one. -/
theorem C117_accepted {dflt : Fwd} (hf : Distinct dflt) {text : Str} {l : List Item} (e : toldBy dflt text = (l, .ok)) :
    ∃ d : Loose, d.Ok ∧ Hears (initial dflt) text d ∧ (∀ d' : Loose, d'.items = l → d' = d) ∧
      ∀ d' : Doc, d'.Ok → d'.Agrees (initial dflt) → Says.Says usual (initial dflt) text d' → d'.loose = d := by
  obtain ⟨d, h1, h2, rfl⟩ := toldBy_heard hf e
  refine ⟨d, h1, h2, fun d' => loose_inj, fun d' k1 k2 k3 => ?_⟩
  rw [toldBy_says k1 hf k2 k3] at e
  exact loose_inj ((loose_items d').trans (_root_.Prod.mk.inj e).1)

/-! ## Writing -/

theorem initial_standard {p n : Str} (h : initial [] p = some n) : Standard p := by
  unfold initial at h
  split at h
  · assumption
  · cases h

/-- C117, writing, but for ontologies that documents cannot express (C45): ontologies that are written as the same text have the same IRI,
version, imports, annotations, axioms of each type in the same order, and prefixes besides the standard ones. -/
theorem C117_written {o o' : OntoSt} {s s' : OntoSpec.Abs} (hs : OntoSpec.Reaches o.onto s) (hs' : OntoSpec.Reaches o'.onto s') (ho : DocOk o) (ho' : DocOk o')
    (e : writeDoc o = writeDoc o') :
    o.iri = o'.iri ∧ o.version = o'.version ∧ s.imports.map Ref.obj = s'.imports.map Ref.obj ∧
    s.annots.map Ref.obj = s'.annots.map Ref.obj ∧
    (∀ t, ((o.onto.byType t).getD []).map Ref.obj = ((o'.onto.byType t).getD []).map Ref.obj) ∧
    (s.axioms.map Ref.obj).Perm (s'.axioms.map Ref.obj) ∧ ∀ p, ¬ Standard p → o.pm.getNs p = o'.pm.getNs p := by
  obtain ⟨txt, q, m, h1, h2, h3, h4, h5, h6, h7, h8, r, h9, h10⟩ :=
    C45_partial hs ho (ks := [1, 2, 3, 4]) (ks' := [1, 2, 3, 4]) rfl rfl .nil (dflt := []) (fun _ _ _ _ h => nomatch h) 5 6
  obtain ⟨txt', q', m', g1, g2, g3, g4, g5, g6, g7, g8, r', g9, g10⟩ :=
    C45_partial hs' ho' (ks := [1, 2, 3, 4]) (ks' := [1, 2, 3, 4]) rfl rfl .nil (dflt := []) (fun _ _ _ _ h => nomatch h) 5 6
  obtain rfl : txt = txt' := Option.some.inj (h1.symm.trans (e.trans g1))
  obtain rfl : q = q' := (_root_.Prod.mk.inj (_root_.Prod.mk.inj (h2.symm.trans g2)).1).1
  refine ⟨h3.symm.trans g3, h4.symm.trans g4, h5.symm.trans g5, h6.symm.trans g6, fun t => (h7 t).symm.trans (g7 t), ?_, ?_⟩
  · have p1 := ((axiomsOf_perm (reaches_inv h9)).map Ref.obj).symm
    have p2 := ((axiomsOf_perm (reaches_inv g9)).map Ref.obj)
    exact h10.symm.trans ((p1.trans p2).trans g10)
  · intro p hp
    have := (h8 p).symm.trans (g8 p)
    cases k1 : o.pm.getNs p with
    | none =>
      cases k2 : o'.pm.getNs p with
      | none => rfl
      | some n => rw [k1, k2] at this; exact absurd (initial_standard this) hp
    | some n =>
      cases k2 : o'.pm.getNs p with
      | none => rw [k1, k2] at this; exact absurd (initial_standard this.symm) hp
      | some n' => rw [k1, k2] at this; exact this

/-- C117, ProtocOWL, but for ontologies that do not fit: ontologies that are written as the same bytes, whatever the order of the tables, have
the same IRI, version and imports, and the same annotations and axioms up to the normal form of literals of C94. -/
theorem C117_protocowl (E : Env) (hu : E.u.Lawful) : ∃ norm, IsNorm E.u norm ∧
    ∀ (names names' : List Prt.Id) (o o' : OntoSt) (s s' : OntoSpec.Abs), OntoSpec.Reaches o.onto s → OntoSpec.Reaches o'.onto s' →
      PrtDocFits prtSizes names o → PrtDocFits prtSizes names' o' →
      ∀ (order order' : List Prim → List Prim), (∀ ps, (order ps).Perm ps) → (∀ ps, (order' ps).Perm ps) →
      ∀ (cap cap' : Nat) (b : Str), writeOntology E.u true order o cap = (b, .ok) → writeOntology E.u true order' o' cap' = (b, .ok) →
      o.iri = o'.iri ∧ o.version = o'.version ∧ s.imports.map Ref.obj = s'.imports.map Ref.obj ∧
      (s.annots.map fun x => mapLit norm x.obj) = (s'.annots.map fun x => mapLit norm x.obj) ∧
      (∀ t, (((o.onto.byType t).getD []).map fun x => mapLit norm x.obj) = ((o'.onto.byType t).getD []).map fun x => mapLit norm x.obj) ∧
      (s.axioms.map fun x => mapLit norm x.obj).Perm (s'.axioms.map fun x => mapLit norm x.obj) := by
  obtain ⟨norm, h0, -, hw⟩ := C94_normal_form E hu
  refine ⟨norm, h0, ?_⟩
  intro names names' o o' s s' hs hs' ho ho' order order' hord hord' cap cap' b hb hb'
  obtain ⟨c, q, m, h1, h2, h3, h4, h5, h6, h7, r, h9, h10⟩ := hw names o s hs ho order hord [1, 2, 3, 4] [] 5
  obtain ⟨c', q', m', g1, g2, g3, g4, g5, g6, g7, r', g9, g10⟩ := hw names' o' s' hs' ho' order' hord' [1, 2, 3, 4] [] 5
  obtain rfl : b = c := (write_whole hb).trans (write_whole (h1 _ (Nat.le_refl _))).symm
  obtain rfl : b = c' := (write_whole hb').trans (write_whole (g1 _ (Nat.le_refl _))).symm
  obtain rfl : q = q' := (_root_.Prod.mk.inj (Option.some.inj (_root_.Prod.mk.inj (h2.symm.trans g2)).1)).1
  refine ⟨h3.symm.trans g3, h4.symm.trans g4, h5.symm.trans g5, h6.symm.trans g6, fun t => (h7 t).symm.trans (g7 t), ?_⟩
  have p1 := ((axiomsOf_perm (reaches_inv h9)).map Ref.obj).symm
  have p2 := ((axiomsOf_perm (reaches_inv g9)).map Ref.obj)
  exact h10.symm.trans ((p1.trans p2).trans g10)

/-- The conditions hold for an ontology with prefixes, IRI, version, import, annotation and axiom. -/
example : OntoSpec.Reaches docOnto.onto ⟨[⟨3, exAxiom.toObj⟩], [⟨2, exAnnot.toObj⟩], [⟨1, .prim (.iri (exIri "i"))⟩]⟩ ∧ DocOk docOnto :=
  ⟨docOnto_reaches, docOnto_ok⟩

/-- The same for ProtocOWL. -/
example : OntoSpec.Reaches normOnto.onto ⟨[⟨1, normAxiom.toObj⟩], [], []⟩ ∧ PrtDocFits prtSizes normNames normOnto :=
  ⟨normOnto_reaches, normOnto_fits⟩

/-- A text of a document that declares a class, and another one of another document: the handler is told different things. -/
example : toldBy [] (ascii "Ontology(Declaration(Class(<http://e.x/a>)))") ≠ toldBy [] (ascii "Ontology(Declaration(Class(<http://e.x/b>)))") := by
  intro h
  have : ((toldBy [] (ascii "Ontology(Declaration(Class(<http://e.x/a>)))")).1.filterMap declared?) =
      (toldBy [] (ascii "Ontology(Declaration(Class(<http://e.x/b>)))")).1.filterMap declared? := by rw [h]
  revert this
  decide +kernel

/-! ## Failure -/

/-- The document with the first meaning of the prefix. -/
def keptText : Str := ascii "Prefix(e:=<http://a.x/>) Ontology(Declaration(Class(e:c)))"

/-- An ontology with an IRI. -/
def onlyIri : OntoSt := { onlyVersion with iri := some (exIri "v"), version := none }

/-- An ontology with an assertion of this integer. -/
def asserts (v : String) : OntoSt :=
  { onlyVersion with
    version := none
    onto := Onto.empty.addAxiom ⟨1, (Axiom.mk (.dataPropAssert (exIri "p") (.named (exIri "a")) ⟨ascii v, .dt (xsd "integer")⟩) []).toObj⟩ }

/-- C117 is false as stated. Of two documents that declare a default prefix again, once to stand for something else, the same class is
read (C112). An ontology with only a version and one with only an IRI are written alike (C45), and in ProtocOWL two whose literals have different
texts (C94). -/
theorem C117_fails :
    (redeclDoc.Ok ∧ Says.Says Says.usual (initial redeclDflt) redeclText redeclDoc ∧
      redeclDoc.items.filterMap declared? = [⟨ascii "http://b.x/", ascii "c"⟩] ∧
      readDecls redeclDflt redeclText = readDecls redeclDflt keptText ∧
      readDecls redeclDflt keptText = ([⟨ascii "http://a.x/", ascii "c"⟩], .ok)) ∧
    (writeDoc onlyVersion = writeDoc onlyIri ∧ writeDoc onlyIri = some onlyText ∧ onlyVersion.iri ≠ onlyIri.iri) ∧
    (writeOntology leb true id (asserts "01") 1000 = writeOntology leb true id (asserts "1") 1000 ∧
      (writeOntology leb true id (asserts "1") 1000).2 = .ok ∧ ascii "01" ≠ ascii "1") := by
  refine ⟨⟨C112_fails.2.1.1, C112_fails.2.1.2.1, C112_fails.2.1.2.2.1, by decide +kernel, by decide +kernel⟩,
    ⟨by decide +kernel, by decide +kernel, nofun⟩, by decide +kernel, by decide +kernel, by decide⟩

end Cowl
