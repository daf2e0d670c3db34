import Verif.ApartProps
import Verif.ConvertProps
/-! # Properties: what a series of conversions ends with says what it began with

The first text and the last are judged by the syntax and the meaning of the standard (`SaysSpec.lean`, `SemSpec.lean`). Between them
the document may be written and read any number of times, in any mixture of the two formats. -/
namespace Cowl
open Says Func FuncSpec FuncTell Ast Change Prefix PrefixSpec Sem OntoSpec Rewrite Prt Convert

theorem perm_of_map {α β : Type} {f : α → β} (hf : ∀ {x y}, f x = f y → x = y) {l l' : List α} (h : (l.map f).Perm (l'.map f)) :
    l.Perm l' := by
  induction l generalizing l' with
  | nil =>
    cases l' with
    | nil => exact .nil
    | cons _ _ => exact absurd h.length_eq (by simp)
  | cons x l ih =>
    obtain ⟨y, hy, e⟩ := List.mem_map.1 (h.mem_iff.1 (List.mem_cons_self (a := f x) (l := l.map f)))
    cases hf e
    obtain ⟨as, bs, rfl⟩ := List.append_of_mem hy
    have k : (f x :: l.map f).Perm (f x :: (as ++ bs).map f) := by
      refine h.trans ?_
      rw [List.map_append, List.map_append, List.map_cons]
      exact List.perm_middle
    exact (List.Perm.cons x (ih (List.Perm.cons_inv k))).trans List.perm_middle.symm

/-- The ontologies have the same contents, so the same axioms, in the same order. -/
theorem same_axioms {o o' : OntoSt} (h : Same o o') :
    (axiomsOf o'.onto).map Ref.obj = (axiomsOf o.onto).map Ref.obj := by
  unfold axiomsOf
  rw [List.map_flatMap, List.map_flatMap]
  exact congrArg (fun f => (List.range 37).flatMap f) (funext fun t => h.axioms t)

theorem same_parts {o o' : OntoSt} (h : Same o o') {s s' : OntoSpec.Abs} (hs : OntoSpec.Reaches o.onto s)
    (hs' : OntoSpec.Reaches o'.onto s') : s'.imports.map Ref.obj = s.imports.map Ref.obj ∧
    s'.annots.map Ref.obj = s.annots.map Ref.obj ∧ (s'.axioms.map Ref.obj).Perm (s.axioms.map Ref.obj) := by
  have i := reaches_inv hs
  have i' := reaches_inv hs'
  refine ⟨?_, ?_, ?_⟩
  · rw [← i.imports, ← i'.imports]; exact h.imports
  · rw [← i.annot, ← i'.annot]; exact h.annots
  · refine (((axiomsOf_perm i').map _).symm.trans ?_).trans ((axiomsOf_perm i).map _)
    rw [same_axioms h]

/-- What was heard and the document have the same IRI, version, imports and annotations, and the same axioms, in some order. -/
structure Alike (d : Loose) (d' : Doc) : Prop where
  id : d'.id = d.id
  imports : d'.imports = d.doc.imports
  annots : d'.annots = d.doc.annots
  axioms : d'.axioms.Perm d.axioms

/-- They have the same meaning. -/
theorem Alike.means {d : Loose} {d' : Doc} (h : Alike d d') (I : Interp) :
    (∀ a ∈ d'.axioms, sat I a.ax) ↔ ∀ a ∈ d.axioms, sat I a.ax :=
  ⟨fun k x hx => k x (h.axioms.mem_iff.2 hx), fun k x hx => k x (h.axioms.mem_iff.1 hx)⟩

theorem alike_of {d : Loose} {d' : Doc} {o : OntoSt} {s s' : OntoSpec.Abs} (hiri : o.iri = d.id.map _root_.Prod.fst)
    (hver : o.version = d.id.bind _root_.Prod.snd) (e5 : s.axioms.map Ref.obj = d.axioms.map Axiom.toObj)
    (e6 : s.annots.map Ref.obj = d.doc.annots.map Annot.toObj)
    (e7 : s.imports.map Ref.obj = (d.doc.imports.map fun i => .prim (.iri i))) {o' : OntoSt} (w : SaysOnto o' s' d')
    (f1 : o'.iri = o.iri) (f2 : o'.version = o.version) (f3 : s'.imports.map Ref.obj = s.imports.map Ref.obj)
    (f4 : s'.annots.map Ref.obj = s.annots.map Ref.obj) (f5 : (s'.axioms.map Ref.obj).Perm (s.axioms.map Ref.obj)) : Alike d d' := by
  refine ⟨?_, ?_, ?_, ?_⟩
  · have a := w.iri.trans (f1.trans hiri)
    have b := w.version.trans (f2.trans hver)
    revert a b
    generalize d'.id = x
    generalize d.id = y
    intro a b
    cases x with
    | none => cases y with
      | none => rfl
      | some y => cases a
    | some x => cases y with
      | none => cases a
      | some y => exact congrArg some (_root_.Prod.ext (Option.some.inj a) b)
  · exact map_inj (fun e => Prim.iri.inj (Obj.prim.inj e)) (w.imports.trans (f3.trans e7))
  · exact map_inj Annot.inj (w.annots.trans (f4.trans e6))
  · exact perm_of_map Axiom.inj (w.axioms.trans (e5 ▸ f5))

/-- C118 for contents that both formats can express: if a text is accepted and what was read from it is written and read any number of
times, in either format, every step succeeds, and the text that is written at the end says the same IRI, version, imports, annotations
and axioms as the first, and so has the same meaning. Its prefixes are among the given ones. Missing: see `C118_fails`. -/
theorem C118_partial {E : Env} (hu : E.u.Lawful) {names : List Id} {P : List (Str × Str)} {dflt : Fwd} (hS : Setting names P dflt)
    {ks : List Nat} (hk : ks.length = 4) {addr n n' : Nat} {text : Str} {o : OntoSt}
    (e : funcRead ontoHandler (create ks dflt) addr text (OntoSt.new ks dflt, n) = ((o, n'), .ok)) (hP : Portable E.u names P o)
    {l : List Step} (hl : ∀ x ∈ l, x.Fine) :
    ∃ (d : Loose) (o' : OntoSt) (text' : Str) (d' : Doc), d.Ok ∧ Hears (initial dflt) text d ∧ Gives E dflt l o o' ∧
      writeDoc o' = some text' ∧ Says.Says lax (initial dflt) text' d' ∧ Alike d d' ∧ (∀ e ∈ d'.prefixes, e ∈ P) ∧
      ∀ I : Interp, (∀ a ∈ d'.axioms, sat I a.ax) ↔ ∀ a ∈ d.axioms, sat I a.ax := by
  obtain ⟨d, s, h1, h2, e3, hiri, hver, e5, e6, e7, -⟩ := heard_onto hk hS.distinct e
  obtain ⟨o', g1, g2, g3⟩ := C83_partial hu hS l hP hl
  obtain ⟨s', hs'⟩ := g3.reaches
  obtain ⟨txt, w1, d', w2, w3⟩ := C114_partial hs' (docOk hS g3) hS.distinct (compatible hS g3)
  obtain ⟨f3, f4, f5⟩ := same_parts g2 e3 hs'
  have ha := alike_of hiri hver e5 e6 e7 w3 g2.iri g2.version f3 f4 f5
  exact ⟨d, o', txt, d', h1, h2, g1, w1, w2, ha, fun x hx => g3.pm _ _ ((w3.prefixes x.1 x.2).1 hx).1, ha.means⟩

/-- The document can be expressed in both formats, with these names and prefixes. -/
structure DocPortable (u : Ulib) (names : List Id) (P : List (Str × Str)) (d : Doc) : Prop where
  id : ∀ i v, d.id = some (i, v) → IriPortable i ∧ .iri i ∈ names ∧ ∀ w, v = some w → IriPortable w ∧ .iri w ∈ names
  imports : ∀ i ∈ d.imports, IriPortable i ∧ .iri i ∈ names
  annots : ∀ a ∈ d.annots, NamesIn names a.toObj ∧ a.Meets (portable u)
  axioms : ∀ a ∈ d.axioms, NamesIn names a.toObj ∧ a.Meets (portable u)
  prefixes : ∀ e ∈ d.prefixes, e ∈ P
  few_imports : d.imports.length < 4294967296
  few_annots : d.annots.length < 4294967296

theorem give_doc (d : Doc) (ks : List Nat) (dflt : Fwd) (n : Nat) : ∃ (I A X : List Ref) (n' : Nat),
    give ontoHandler (OntoSt.new ks dflt, n) d.items =
      (⟨overlay n (d.prefixes.map fun e => (⟨0, e.1⟩, e.2)) (create ks dflt), d.id.map _root_.Prod.fst, d.id.bind _root_.Prod.snd,
        loaded I A X⟩, n') ∧
    I.map Ref.obj = (d.imports.map fun i => .prim (.iri i)) ∧ A.map Ref.obj = d.annots.map Annot.toObj ∧
    X.map Ref.obj = d.axioms.map Axiom.toObj ∧ ∀ y ∈ X, ∀ z ∈ X, y.addr = z.addr → y = z := by
  have e : d.items = d.prefixes.map (fun e => .prefixDecl e.1 e.2) ++ (Says.idItems d.id ++ (d.imports.map .import ++
      (d.annots.map (fun a => .annot a.toObj) ++ d.axioms.map fun a => .ax a.toObj))) := by
    unfold Doc.items
    rcases d.id with _ | ⟨i, _ | v⟩ <;> rfl
  rw [e]
  have e0 := give_prefixes (d.prefixes.map fun e => (⟨0, e.1⟩, e.2)) (OntoSt.new ks dflt) n
  rw [List.map_map] at e0
  have e0' : give ontoHandler (OntoSt.new ks dflt, n) (d.prefixes.map fun e => Item.prefixDecl e.1 e.2) = _ := e0
  have hid : ∀ n1 (pm : PMap), ∃ n2, give ontoHandler (⟨pm, none, none, Onto.empty⟩, n1) (Says.idItems d.id) =
      (⟨pm, d.id.map _root_.Prod.fst, d.id.bind _root_.Prod.snd, Onto.empty⟩, n2) := by
    intro n1 pm
    rcases d.id with _ | ⟨i, _ | v⟩ <;> exact ⟨_, rfl⟩
  obtain ⟨n2, e2⟩ := hid (n + (d.prefixes.map fun e => ((⟨0, e.1⟩ : SRef), e.2)).length)
    (overlay n (d.prefixes.map fun e => (⟨0, e.1⟩, e.2)) (create ks dflt))
  rw [give_append, e0', give_append]
  simp only [OntoSt.new]
  rw [e2, give_append, give_imports, give_append]
  have ea : (d.annots.map fun a => Item.annot a.toObj) = (d.annots.map Annot.toObj).map Item.annot := by rw [List.map_map]; rfl
  have ex : (d.axioms.map fun a => Item.ax a.toObj) = (d.axioms.map Axiom.toObj).map Item.ax := by rw [List.map_map]; rfl
  rw [ea, ex, give_annots, give_axioms]
  refine ⟨_, _, _, _, rfl, ?_, ?_, ?_, ?_⟩
  · rw [number_obj]
  · rw [number_obj]
  · rw [number_obj]
  · exact number_inj _ _

/-- C118 for documents that both formats can express: if a text says such a document and it is converted any number of times, every step
succeeds and the last text says the same IRI, version, imports, annotations and axioms, but for the order of the axioms. Its prefixes are
among the given ones. -/
theorem C118_documents {E : Env} (hu : E.u.Lawful) {names : List Id} {P : List (Str × Str)} {dflt : Fwd} (hS : Setting names P dflt)
    {ks : List Nat} (hk : ks.length = 4) (addr n : Nat) {text : Str} {d : Doc} (hd : d.Ok) (hp : DocPortable E.u names P d)
    (ht : Says.Says usual (initial dflt) text d) {l : List Step} (hl : ∀ x ∈ l, x.Fine) :
    ∃ (o : OntoSt) (n' : Nat) (o' : OntoSt) (text' : Str) (d' : Doc),
      funcRead ontoHandler (create ks dflt) addr text (OntoSt.new ks dflt, n) = ((o, n'), .ok) ∧ Gives E dflt l o o' ∧
      writeDoc o' = some text' ∧ Says.Says lax (initial dflt) text' d' ∧ d'.id = d.id ∧ d'.imports = d.imports ∧ d'.annots = d.annots ∧
      d'.axioms.Perm d.axioms ∧ (∀ e ∈ d'.prefixes, e ∈ P) ∧ 
      ((∀ p q n, (p, n) ∈ P → (q, n) ∈ P → p = q) → (∀ p n, (p, n) ∈ P → n ∈ knownNs → Standard p) →
        ∀ e ∈ d.prefixes, ¬ Standard e.1 → e ∈ d'.prefixes) := by
  have ha : d.Agrees (initial dflt) := fun e he m hm => hS.one _ _ _ (initial_mem hS hm) (hp.prefixes e he)
  have hr := read_doc ontoHandler_accepts hd hk hS.distinct ha addr (OntoSt.new ks dflt, n) ht
  obtain ⟨I, A, X, n', e, oI, oA, oX, hX⟩ := give_doc d ks dflt n
  rw [e] at hr
  have hwa : ∀ y ∈ A, ObjSpec.WellFormed y.obj := fun y hy => by
    have := List.mem_map_of_mem (f := Ref.obj) hy
    rw [oA] at this
    obtain ⟨a, -, ez⟩ := List.mem_map.1 this
    rw [← ez]; exact wf_annot a
  have hwx : ∀ y ∈ X, OntoSpec.IsAxiom y.obj := fun y hy => by
    have := List.mem_map_of_mem (f := Ref.obj) hy
    rw [oX] at this
    obtain ⟨a, -, ez⟩ := List.mem_map.1 this
    rw [← ez]; exact isAxiom_toObj a
  have hs := loaded_reaches (i := I) hwa hwx hX
  have hi := reaches_inv hs
  have hdist : Distinct (d.prefixes.map fun e => ((⟨0, e.1⟩ : SRef), e.2)) := List.pairwise_map.2 (hd.prefixes.imp fun h => h)
  have hin : ∀ e ∈ (d.prefixes.map fun e => ((⟨0, e.1⟩ : SRef), e.2)), (e.1.txt, e.2) ∈ P := fun e he => by
    obtain ⟨x, hx, rfl⟩ := List.mem_map.1 he
    exact hp.prefixes x hx
  obtain ⟨q1, q2⟩ := pm_read hS hk hdist hin n
  have hA : ∀ y ∈ A, NamesIn names y.obj ∧ ∃ a : Annot, y.obj = a.toObj ∧ a.Meets (portable E.u) := fun y hy => by
    have := List.mem_map_of_mem (f := Ref.obj) hy
    rw [oA] at this
    obtain ⟨a, k, ez⟩ := List.mem_map.1 this
    rw [← ez]; exact ⟨(hp.annots a k).1, a, rfl, (hp.annots a k).2⟩
  have hXx : ∀ y ∈ X, NamesIn names y.obj ∧ ∃ a : Axiom, y.obj = a.toObj ∧ a.Meets (portable E.u) := fun y hy => by
    have := List.mem_map_of_mem (f := Ref.obj) hy
    rw [oX] at this
    obtain ⟨a, k, ez⟩ := List.mem_map.1 this
    rw [← ez]; exact ⟨(hp.axioms a k).1, a, rfl, (hp.axioms a k).2⟩
  have hment : ∀ p, OntoSpec.Mentioned ⟨X, A, I⟩ p → idOf p ∈ names := by
    rintro p ⟨x, hx, k⟩
    rcases hx with hx | hx
    · exact (hXx x hx).1 p k
    · exact (hA x hx).1 p k
  have hP : Portable E.u names P ⟨overlay n (d.prefixes.map fun e => (⟨0, e.1⟩, e.2)) (create ks dflt), d.id.map _root_.Prod.fst,
      d.id.bind _root_.Prod.snd, loaded I A X⟩ := by
    refine ⟨⟨_, hs⟩, q1, q2, ?_, ?_, ?_, ?_, ?_, ?_, ?_, ?_⟩
    · intro p k
      have := loaded_prims hwa hwx hX k
      cases p with
      | ent t i =>
        rcases this with this | this
        · exact hment _ this
        · exact hment (.iri i) this
      | iri i => exact hment _ this
      | anon n => exact hment _ this
    · intro i k
      obtain ⟨⟨j, v⟩, k1, rfl⟩ := Option.map_eq_some_iff.1 k
      exact ⟨(hp.id j v k1).1, (hp.id j v k1).2.1⟩
    · intro i k
      obtain ⟨⟨j, v⟩, k1, k2⟩ := Option.bind_eq_some_iff.1 k
      refine ⟨?_, (hp.id j v k1).2.2 i k2⟩
      show d.id.map _root_.Prod.fst ≠ none
      rw [k1]; nofun
    · intro x hx
      rw [hi.imports] at hx
      have := List.mem_map_of_mem (f := Ref.obj) hx
      have this : x.obj ∈ I.map Ref.obj := this
      rw [oI] at this
      obtain ⟨i, k, ez⟩ := List.mem_map.1 this
      exact ⟨i, ez.symm, hp.imports i k⟩
    · intro x hx
      rw [hi.annot] at hx
      exact hA x hx
    · intro x hx
      exact hXx x ((axiomsOf_perm hi).mem_iff.1 hx)
    · rw [hi.imports]
      have := congrArg List.length oI
      rw [List.length_map, List.length_map] at this
      rw [this]; exact hp.few_imports
    · rw [hi.annot]
      have := congrArg List.length oA
      rw [List.length_map, List.length_map] at this
      rw [this]; exact hp.few_annots
  obtain ⟨o', g1, g2, g3⟩ := C83_partial hu hS l hP hl
  obtain ⟨s', hs'⟩ := g3.reaches
  obtain ⟨txt, w1, d', w2, w3⟩ := C114_partial hs' (docOk hS g3) hS.distinct (compatible hS g3)
  obtain ⟨f3, f4, f5⟩ := same_parts g2 hs hs'
  have h := alike_of (d := d.loose) rfl rfl oX (by rw [loose_doc]; exact oA) (by rw [loose_doc]; exact oI) w3 g2.iri g2.version f3 f4 f5
  have k2 := h.imports
  have k3 := h.annots
  rw [loose_doc] at k2 k3
  refine ⟨_, _, o', txt, d', hr, g1, w1, w2, h.id, k2, k3, h.axioms, fun x hx => g3.pm _ _ ((w3.prefixes x.1 x.2).1 hx).1, ?_⟩
  intro u1 u2 x hx hstd
  refine (w3.prefixes x.1 x.2).2 ⟨C83_prefixes hu hS u1 u2 hP hl g1 _ _ ?_, hstd⟩
  have hr0 := overlay_reaches (d.prefixes.map fun e => ((⟨0, e.1⟩ : SRef), e.2)) n (.create ks dflt hk hS.distinct)
  show (overlay n (d.prefixes.map fun e => ((⟨0, e.1⟩ : SRef), e.2)) (create ks dflt)).getNs x.1 = some x.2
  rw [C22_get_ns hr0 x.1, foldAdd_spec _ _ _ hdist]
  have hm : meaning (d.prefixes.map fun e => ((⟨0, e.1⟩ : SRef), e.2)) x.1 = some x.2 :=
    meaning_of_mem (e := ((⟨0, x.1⟩ : SRef), x.2)) hdist (List.mem_map_of_mem (f := fun e => ((⟨0, e.1⟩ : SRef), e.2)) hx)
  simp only [PrefixSpec.Abs.merge, hm, true_or, if_true]
  rw [std_mem hS (p := x.1) (n := x.2) (hp.prefixes x hx)]

/-! ## Samples -/

/-- The conditions of `C118_partial` hold for the text of a document with prefixes, IRI, version, import, annotation and axiom. -/
example : ∃ (text : Str) (o : OntoSt) (n' : Nat), writeDoc convOnto = some text ∧
    funcRead ontoHandler (create [0, 1, 2, 3] convDflt) 20 text (OntoSt.new [4, 5, 6, 7] convDflt, 100) = ((o, n'), .ok) ∧
    Portable lebEnv.u convNames convPfx o ∧ Same convOnto o := by
  obtain ⟨o, ⟨txt, n', h1, h2⟩, h3, h4⟩ := step_gives (E := lebEnv) leb_lawful convSetting convOnto_portable
    (.func [0, 1, 2, 3] [4, 5, 6, 7] 20 100) ⟨rfl, rfl⟩
  exact ⟨txt, o, n', h1, h2, h4, h3⟩

/-- A document with prefix, IRI, version, import, annotation and axiom. -/
def seriesDoc : Doc := ⟨[(ascii "ex", exNs1)], some (exIri "o", some (exIri "v1")), [exIri "i"], [exAnnot], [convAxiom]⟩

/-- A text that says it. -/
def seriesText : Str := ascii "Prefix(ex:=<http://ex.org/a#>) Ontology(ex:o <http://ex.org/a#v1>
  Import(<http://ex.org/a#i>) # a comment
  Annotation(ex:note ex:doc)
  SubClassOf(Annotation(ex:note \"a@EN\"^^rdf:PlainLiteral) ex:A
    ObjectIntersectionOf(ex:B ObjectMinCardinality(2 ObjectInverseOf(ex:p) ex:B) DataHasValue(ex:d \"-12\"^^xsd:integer))))"

/-- An abbreviated name of the sample. -/
def serTok (l : String) : Tok := .pnameLn (ascii "ex" ++ 58 :: ascii l)

theorem series_lex : lex seriesText = [.kw .prefix_, .lpar, .pnameNs (ascii "ex"), .equals, .iriRef exNs1, .rpar, .kw .ontology, .lpar,
    serTok "o", .iriRef (ascii "http://ex.org/a#v1"), .kw .import_, .lpar, .iriRef (ascii "http://ex.org/a#i"), .rpar,
    .kw .annotation, .lpar, serTok "note", serTok "doc", .rpar,
    .kw .subClassOf, .lpar, .kw .annotation, .lpar, serTok "note", .qstr (ascii "a@EN"), .dcaret, .pnameLn (ascii "rdf:PlainLiteral"), .rpar,
    serTok "A", .kw .objectIntersectionOf, .lpar, serTok "B", .kw .objectMinCardinality, .lpar, .nat 2, .kw .objectInverseOf, .lpar, serTok "p",
    .rpar, serTok "B", .rpar, .kw .dataHasValue, .lpar, serTok "d", .qstr (ascii "-12"), .dcaret, .pnameLn (ascii "xsd:integer"), .rpar,
    .rpar, .rpar, .rpar] := by decide +kernel

theorem ser_e {l : String} (h : some (iriOfParts exNs1 (ascii l)) = iriFromString (exNs1 ++ ascii l)) :
    Names Says.usual (seriesDoc.ns (initial convDflt)) (exIri l) (serTok l) :=
  .short _ _ exNs1 (by decide +kernel) (by decide +kernel) rfl (not_joins (fun e => by
    have := congrArg List.length e
    rw [List.length_append] at this
    have k : exNs1.length = 16 := by decide +kernel
    rw [k] at this
    exact absurd this (by simp)) h)

theorem series_says : Says.Says Says.usual (initial convDflt) seriesText seriesDoc := by
  unfold Says.Says
  rw [series_lex]
  have plain : Names Says.usual (seriesDoc.ns (initial convDflt)) rdfPlainLiteral (.pnameLn (ascii "rdf:PlainLiteral")) :=
    say_short (p := "rdf") (n := "http://www.w3.org/1999/02/22-rdf-syntax-ns#") (l := "PlainLiteral") (by decide +kernel)
      (by decide +kernel) (by decide +kernel) (not_joins (by decide +kernel) (by decide +kernel)) (by decide +kernel)
  have int : Names Says.usual (seriesDoc.ns (initial convDflt)) ⟨xsdNs, ascii "integer"⟩ (.pnameLn (ascii "xsd:integer")) :=
    say_short (p := "xsd") (n := "http://www.w3.org/2001/XMLSchema#") (l := "integer") (by decide +kernel)
      (by decide +kernel) (by decide +kernel) (not_joins (by decide +kernel) (by decide +kernel)) (by decide +kernel)
  refine .tok <| .tok <| .tok <| .tok <| .tok <| .tok <| .tok <| .tok <| .iri (ser_e (by decide +kernel)) <|
    .iri (say_full (by decide +kernel)) <| .tok <| .tok <| .iri (say_full (by decide +kernel)) <| .tok <|
    .tok <| .tok <| .iri (ser_e (by decide +kernel)) <| .iri (ser_e (by decide +kernel)) <| .tok <|
    .tok <| .tok <| .tok <| .tok <| .iri (ser_e (by decide +kernel)) <|
    .lit (us := [_, _, _]) (.plain (ascii "a") (ascii "EN") _ (by decide) (by decide +kernel) plain) <| .tok <|
    .iri (ser_e (by decide +kernel)) <| .tok <| .tok <| .iri (ser_e (by decide +kernel)) <| .tok <| .tok <| .tok <| .tok <| .tok <|
    .iri (ser_e (by decide +kernel)) <| .tok <| .iri (ser_e (by decide +kernel)) <| .tok <| .tok <| .tok <|
    .iri (ser_e (by decide +kernel)) <|
    .lit (us := [_, _, _]) (.typed _ _ _ (by decide +kernel) (by decide +kernel) ?_ int) <| .tok <| .tok <| .tok <| .tok .nil
  exact proper_of (by decide +kernel)

theorem series_ok : seriesDoc.Ok := by
  have ok : ∀ i ∈ convIris, Proper i := by
    have h : ∀ i ∈ convIris, iriFromString (i.ns ++ i.rem) = some (i.ns, i.rem) := by decide +kernel
    exact fun i hi => proper_of (h i hi)
  refine ⟨?_, ?_, ?_, ?_, by decide +kernel⟩
  · rintro i v h
    cases h
    exact ⟨ok _ (by simp [convIris]), fun w hw => by cases hw; exact ok _ (by simp [convIris])⟩
  · intro i hi
    rcases List.mem_singleton.1 hi with rfl
    exact ok _ (by simp [convIris])
  · intro a ha
    rcases List.mem_singleton.1 ha with rfl
    rw [exAnnot, Annot.Meets]
    exact ⟨ok _ (by simp [convIris]), ok _ (by simp [convIris]), by rw [Annot.AllMeet]; trivial, trivial⟩
  · intro a ha
    rcases List.mem_singleton.1 ha with rfl
    refine ⟨?_, ?_, trivial⟩
    · simp only [convAxiom, Ax.Meets, CE.Meets, CE.AllMeet, Ope.Meets]
      exact ⟨ok _ (by simp [convIris]), show 2 ≤ 3 by decide, ok _ (by simp [convIris]),
        ⟨ok _ (by simp [convIris]), ok _ (by simp [convIris]), trivial⟩, ⟨ok _ (by simp [convIris]), trivial⟩, trivial⟩
    · simp only [convAxiom, Annot.AllMeet, Annot.Meets, AnnotVal.Meets]
      exact ⟨⟨ok _ (by simp [convIris]), trivial, trivial, trivial⟩, trivial⟩

theorem series_portable : DocPortable leb convNames convPfx seriesDoc := by
  have hP := convOnto_portable
  have hi := reaches_inv convOnto_reaches
  have ok := convIris_portable
  have hn : ∀ {i : Iri}, i ∈ convIris → Id.iri i ∈ convNames := fun h => List.mem_map_of_mem (List.mem_append_left _ h)
  refine ⟨?_, ?_, ?_, ?_, ?_, by decide, by decide⟩
  · rintro i v h
    cases h
    refine ⟨ok _ (by simp [convIris]), hn (by simp [convIris]), fun w hw => ?_⟩
    cases hw
    exact ⟨ok _ (by simp [convIris]), hn (by simp [convIris])⟩
  · intro i hi
    rcases List.mem_singleton.1 hi with rfl
    exact ⟨ok _ (by simp [convIris]), hn (by simp [convIris])⟩
  · intro a ha
    rcases List.mem_singleton.1 ha with rfl
    have := hP.annots ⟨2, exAnnot.toObj⟩ (by rw [hi.annot]; exact List.mem_singleton.2 rfl)
    obtain ⟨k, b, e, kb⟩ := this
    cases Annot.inj e
    exact ⟨k, kb⟩
  · intro a ha
    rcases List.mem_singleton.1 ha with rfl
    have := hP.axioms ⟨3, convAxiom.toObj⟩ ((axiomsOf_perm hi).mem_iff.2 (List.mem_singleton.2 rfl))
    exact ⟨this.1, convAxiom_meets⟩
  · intro e he
    rcases List.mem_singleton.1 he with rfl
    decide +kernel

/-- The conditions of `C118_documents` hold for the document. -/
example : lebEnv.u.Lawful ∧ Setting convNames convPfx convDflt ∧ seriesDoc.Ok ∧ DocPortable lebEnv.u convNames convPfx seriesDoc ∧
    Says.Says Says.usual (initial convDflt) seriesText seriesDoc ∧ seriesDoc.axioms.length = 1 ∧ ¬ Standard (ascii "ex") :=
  ⟨leb_lawful, convSetting, series_ok, series_portable, series_says, rfl, by unfold Standard; decide +kernel⟩

/-! ## Failure -/

/-- A text, written in ProtocOWL and in functional syntax again: whether it was accepted, and the text at the end. -/
def overProtocowl (text : Str) : Outcome × Option Str :=
  ((readNew [] text).2, (prtBack (readNew [] text).1).1.bind writeDoc)

/-- A negative number. -/
def negText : Str := ascii "Ontology(DataPropertyAssertion(<http://x.org/p> <http://x.org/a> \"-0.5\"^^xsd:decimal))"

/-- C118 is false as stated. Of the texts that are accepted, when they were written in ProtocOWL and in functional syntax again,
* one says at the end that the value of a property is 0.5, and at first that it is -0.5;
* one says at the end that there are at least 852516352 values of a property, and at first that there are 3000000000;
* one cannot be written at the end: that is undefined. -/
theorem C118_fails :
    overProtocowl negText = (.ok, some (ascii "Ontology(\nDataPropertyAssertion(<http://x.org/p> <http://x.org/a> \"0.5\"^^xsd:decimal)\n)\n")) ∧
    overProtocowl bigDoc = (.ok, some (ascii "Ontology(\nSubClassOf(<http://x.org/A> ObjectMinCardinality(852516352 <http://x.org/p>))\n)\n")) ∧
    overProtocowl inverseDoc = (.ok, none) := by
  refine ⟨?_, ?_, ?_⟩ <;> decide +kernel

end Cowl
