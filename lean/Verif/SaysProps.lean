import Verif.SaysLemmas
import Verif.TypedProps
import Verif.ExamplesLemmas
import Verif.PrtMeanProps
/-! # Properties: the functional reader reads what a document says -/
namespace Cowl
open Says Func FuncSpec Ast Change Prefix PrefixSpec Sem

/-- C112, but for the spellings that `usual` leaves out and for documents that declare a default prefix again to stand for something
else: of a text that says a document, whatever the spellings, the reader tells the handler what the document consists of, in order, and
accepts the text. -/
theorem C112_partial {σ : Type} {h : Callback σ Item} (hh : Accepts h) {d : Doc} (hd : d.Ok) {ks : List Nat} (hk : ks.length = 4)
    {dflt : Fwd} (hf : Distinct dflt) (ha : d.Agrees (initial dflt)) (addr : Nat) (s : σ) {text : Str}
    (ht : Says.Says usual (initial dflt) text d) : funcRead h (create ks dflt) addr text s = (give h s d.items, .ok) :=
  read_doc hh hd hk hf ha addr s ht

/-- C112, spellings: texts that say the same document are read alike. -/
theorem C112_spellings {σ : Type} {h : Callback σ Item} (hh : Accepts h) {d : Doc} (hd : d.Ok) {ks : List Nat} (hk : ks.length = 4)
    {dflt : Fwd} (hf : Distinct dflt) (ha : d.Agrees (initial dflt)) (addr : Nat) (s : σ) {text text' : Str}
    (ht : Says.Says usual (initial dflt) text d) (ht' : Says.Says usual (initial dflt) text' d) :
    funcRead h (create ks dflt) addr text s = funcRead h (create ks dflt) addr text' s := by
  rw [read_doc hh hd hk hf ha addr s ht, read_doc hh hd hk hf ha addr s ht']

/-- The IRI and the version of an ontology after items that are neither. -/
theorem give_id : ∀ (items : List Item) (s : OntoSt × Nat), (∀ i ∈ items, (∀ j, i ≠ .iri j) ∧ ∀ j, i ≠ .version j) →
    (give ontoHandler s items).1.iri = s.1.iri ∧ (give ontoHandler s items).1.version = s.1.version
  | [], _, _ => ⟨rfl, rfl⟩
  | i :: items, s, h => by
    have h1 := h i List.mem_cons_self
    have h2 := give_id items (ontoHandler s i).1 fun x hx => h x (List.mem_cons_of_mem _ hx)
    have h3 : (ontoHandler s i).1.1.iri = s.1.iri ∧ (ontoHandler s i).1.1.version = s.1.version := by
      cases i with
      | iri j => exact absurd rfl (h1.1 j)
      | version j => exact absurd rfl (h1.2 j)
      | _ => exact ⟨rfl, rfl⟩
    exact ⟨h2.1.trans h3.1, h2.2.trans h3.2⟩

theorem toldAxioms_items (d : Doc) : toldAxioms d.items = d.axioms.map Axiom.toObj ∧ toldAnnots d.items = d.annots.map Annot.toObj ∧
    toldImports d.items = d.imports.map fun i => .prim (.iri i) := by
  have e1 : ∀ ps : List (Str × Str), toldAxioms (ps.map fun e => .prefixDecl e.1 e.2) = [] ∧
      toldAnnots (ps.map fun e => .prefixDecl e.1 e.2) = [] ∧ toldImports (ps.map fun e => .prefixDecl e.1 e.2) = [] := by
    intro ps
    induction ps with
    | nil => exact ⟨rfl, rfl, rfl⟩
    | cons e ps ih => exact ih
  have e2 : ∀ is : List Iri, toldAxioms (is.map Item.import) = [] ∧ toldAnnots (is.map Item.import) = [] ∧
      toldImports (is.map Item.import) = is.map fun i => .prim (.iri i) := by
    intro is
    induction is with
    | nil => exact ⟨rfl, rfl, rfl⟩
    | cons e ps ih => exact ⟨ih.1, ih.2.1, congrArg _ ih.2.2⟩
  have e3 : ∀ as : List Annot, toldAxioms (as.map fun a => .annot a.toObj) = [] ∧
      toldAnnots (as.map fun a => .annot a.toObj) = as.map Annot.toObj ∧ toldImports (as.map fun a => .annot a.toObj) = [] := by
    intro as
    induction as with
    | nil => exact ⟨rfl, rfl, rfl⟩
    | cons e ps ih => exact ⟨ih.1, congrArg _ ih.2.1, ih.2.2⟩
  have e4 : ∀ as : List Axiom, toldAxioms (as.map fun a => .ax a.toObj) = as.map Axiom.toObj ∧
      toldAnnots (as.map fun a => .ax a.toObj) = [] ∧ toldImports (as.map fun a => .ax a.toObj) = [] := by
    intro as
    induction as with
    | nil => exact ⟨rfl, rfl, rfl⟩
    | cons e ps ih => exact ⟨congrArg _ ih.1, ih.2.1, ih.2.2⟩
  unfold Doc.items
  simp only [told_append, e1, e2, e3, e4]
  cases d.id with
  | none => simp [toldAxioms, toldAnnots, toldImports]
  | some x =>
    obtain ⟨i, v⟩ := x
    cases v <;> simp [toldAxioms, toldAnnots, toldImports]

/-- C112, loading, under the same conditions: reading the text into a new ontology gives the ontology of the document. -/
theorem C112_load {d : Doc} (hd : d.Ok) {ks : List Nat} (hk : ks.length = 4) {dflt : Fwd} (hf : Distinct dflt)
    (ha : d.Agrees (initial dflt)) (addr n : Nat) {text : Str} (ht : Says.Says usual (initial dflt) text d) :
    ∃ o n' s, funcRead ontoHandler (create ks dflt) addr text (OntoSt.new ks dflt, n) = ((o, n'), .ok) ∧
      o.iri = d.id.map Prod.fst ∧ o.version = d.id.bind Prod.snd ∧ OntoSpec.Reaches o.onto s ∧
      s.axioms.map Ref.obj = d.axioms.map Axiom.toObj ∧ s.annots.map Ref.obj = d.annots.map Annot.toObj ∧
      s.imports.map Ref.obj = d.imports.map fun i => .prim (.iri i) := by
  have hr := read_doc ontoHandler_accepts hd hk hf ha addr (OntoSt.new ks dflt, n) ht
  have hr' := read_doc (h := taking ontoHandler) (fun s i => ontoHandler_accepts s.1 i) hd hk hf ha addr ((OntoSt.new ks dflt, n), []) ht
  obtain ⟨told, s', a', e1, -, e3, -, e5, e6, e7⟩ := C91_load_partial (o := OntoSt.new ks dflt) (s := ⟨[], [], []⟩)
    (a := _) ⟨[], trivial, rfl, rfl⟩ (.create ks dflt hk hf) n nofun (create ks dflt) addr text
  rw [hr', Examples.give_taking, List.nil_append] at e1
  dsimp only at e1
  subst e1
  rw [hr] at e3
  refine ⟨(give ontoHandler (OntoSt.new ks dflt, n) d.items).1, (give ontoHandler (OntoSt.new ks dflt, n) d.items).2, s', hr, ?_, ?_, e3, e5.trans (toldAxioms_items d).1, e6.trans (toldAxioms_items d).2.1,
    e7.trans (toldAxioms_items d).2.2⟩
  all_goals
    unfold Doc.items
    rw [give_append, give_append]
    have h0 := give_id (d.prefixes.map fun e => Item.prefixDecl e.1 e.2) (OntoSt.new ks dflt, n) (by
      intro i hi
      obtain ⟨e, _, rfl⟩ := List.mem_map.1 hi
      exact ⟨nofun, nofun⟩)
    have h1 := fun s => give_id (d.imports.map Item.import ++ (d.annots.map (fun a => .annot a.toObj) ++ d.axioms.map fun a => .ax a.toObj)) s (by
      intro i hi
      rcases List.mem_append.1 hi with hi | hi
      · obtain ⟨e, _, rfl⟩ := List.mem_map.1 hi
        exact ⟨nofun, nofun⟩
      · rcases List.mem_append.1 hi with hi | hi
        · obtain ⟨e, _, rfl⟩ := List.mem_map.1 hi
          exact ⟨nofun, nofun⟩
        · obtain ⟨e, _, rfl⟩ := List.mem_map.1 hi
          exact ⟨nofun, nofun⟩)
  · rw [(h1 _).1]
    cases d.id with
    | none => exact h0.1
    | some x => obtain ⟨i, v⟩ := x; cases v <;> rfl
  · rw [(h1 _).2]
    cases d.id with
    | none => exact h0.2
    | some x =>
      obtain ⟨i, v⟩ := x
      cases v with
      | none => exact h0.2
      | some v => rfl

/-- C112, meaning, under the same conditions: the ontology that is read holds in an interpretation exactly if the axioms of the document
do. -/
theorem C112_means {d : Doc} (hd : d.Ok) {ks : List Nat} (hk : ks.length = 4) {dflt : Fwd} (hf : Distinct dflt)
    (ha : d.Agrees (initial dflt)) (addr n : Nat) {text : Str} (ht : Says.Says usual (initial dflt) text d) :
    ∃ o n' s, funcRead ontoHandler (create ks dflt) addr text (OntoSt.new ks dflt, n) = ((o, n'), .ok) ∧ OntoSpec.Reaches o.onto s ∧
      ∀ I : Interp, HoldsIn I (s.axioms.map Ref.obj) ↔ ∀ a ∈ d.axioms, sat I a.ax := by
  obtain ⟨o, n', s, h1, -, -, h2, h3, -⟩ := C112_load hd hk hf ha addr n ht
  refine ⟨o, n', s, h1, h2, fun I => ?_⟩
  refine holds_map fun x => ?_
  rw [h3, List.mem_map]
  constructor
  · rintro ⟨a, ha, rfl⟩; exact ⟨a, ha, rfl⟩
  · rintro ⟨a, ha, rfl⟩; exact ⟨a, ha, rfl⟩

/-! ## Cases -/

/-- IRIs of the examples. -/
def sayIri (n : String) : Iri := ⟨ascii "http://e.x/", ascii n⟩

/-- A document with two prefixes. -/
def sayDoc : Doc where
  prefixes := [(ascii "e", ascii "http://e.x/"), (ascii "", ascii "http://")]
  id := some (sayIri "o", some (sayIri "o1"))
  imports := [sayIri "p"]
  annots := [.mk ⟨ascii "http://www.w3.org/2000/01/rdf-schema#", ascii "label"⟩ (.lit ⟨ascii "a@b", .lang (ascii "en")⟩) []]
  axioms := [⟨.subClass (.cls (sayIri "A")) (.objCard .min 2 (.inv (sayIri "r"))), []⟩, ⟨.subObjProp (.ope (.inv (sayIri "r"))) (.prop (sayIri "s")), []⟩]

/-- A text that says it, with several spellings of the same IRI. -/
def sayText : Str := ascii "Prefix(e:=<http://e.x/>) Prefix(:=<http://>)
Ontology(e:o <http://e.x/o1> Import(e:p) # a comment
  Annotation(rdfs:label \"a@b@EN\"^^rdf:PlainLiteral)
  SubClassOf(<http://e.x/A> ObjectMinCardinality(2 ObjectInverseOf(e:r)))
  SubObjectPropertyOf(ObjectInverseOf(<http://e.x/r>) e:s))"

theorem not_joins {n l : Str} (h : n ++ l ≠ []) (e : some (iriOfParts n l) = iriFromString (n ++ l)) : Says.usual.short n l :=
  (C03_parts_iff n l h).1 e

/-- An abbreviated IRI of the examples. -/
theorem say_short {first : Str → Option Str} {p n l : String} {i : Iri} {W : Ways} (h1 : 58 ∉ ascii p) (h2 : first (ascii p) = some (ascii n))
    (h3 : ascii n ++ ascii l = i.ns ++ i.rem) (h4 : W.short (ascii n) (ascii l)) {t : Tok}
    (h5 : t = .pnameLn (ascii p ++ 58 :: ascii l)) : Names W first i t := by
  rw [h5]; exact .short _ _ _ h1 h2 h3 h4

theorem say_lex : lex sayText = [.kw .prefix_, .lpar, .pnameNs (ascii "e"), .equals, .iriRef (ascii "http://e.x/"), .rpar, .kw .prefix_,
    .lpar, .pnameNs (ascii ""), .equals, .iriRef (ascii "http://"), .rpar, .kw .ontology, .lpar, .pnameLn (ascii "e:o"),
    .iriRef (ascii "http://e.x/o1"), .kw .import_, .lpar, .pnameLn (ascii "e:p"), .rpar, .kw .annotation, .lpar,
    .pnameLn (ascii "rdfs:label"), .qstr (ascii "a@b@EN"), .dcaret, .pnameLn (ascii "rdf:PlainLiteral"), .rpar, .kw .subClassOf, .lpar,
    .iriRef (ascii "http://e.x/A"), .kw .objectMinCardinality, .lpar, .nat 2, .kw .objectInverseOf, .lpar, .pnameLn (ascii "e:r"), .rpar,
    .rpar, .rpar, .kw .subObjectPropertyOf, .lpar, .kw .objectInverseOf, .lpar, .iriRef (ascii "http://e.x/r"), .rpar,
    .pnameLn (ascii "e:s"), .rpar, .rpar] := by decide +kernel

theorem say_e {l : String} (h : some (iriOfParts (ascii "http://e.x/") (ascii l)) = iriFromString (ascii "http://e.x/" ++ ascii l))
    (h2 : ascii "http://e.x/" ++ ascii l ≠ []) {t : Tok} (h5 : t = .pnameLn (ascii "e" ++ 58 :: ascii l)) :
    Names Says.usual (sayDoc.ns (initial [])) (sayIri l) t :=
  say_short (p := "e") (n := "http://e.x/") (l := l) (by decide +kernel) (by decide +kernel) rfl (not_joins h2 h) h5

theorem say_full {W : Ways} {ns : Str → Option Str} {i : Iri} {t : Tok} (h : t = .iriRef (i.ns ++ i.rem)) : Names W ns i t := by
  rw [h]; exact .full

example : Says.Says Says.usual (initial []) sayText sayDoc := by
  unfold Says.Says
  rw [say_lex]
  have e (l : String) (h) (h2) {t} h5 := say_e (l := l) h h2 (t := t) h5
  refine .tok <| .tok <| .tok <| .tok <| .tok <| .tok <| .tok <| .tok <| .tok <| .tok <| .tok <| .tok <| .tok <| .tok <|
    .iri (e "o" (by decide +kernel) (by decide +kernel) (by decide +kernel)) <| .iri (say_full (by decide +kernel)) <| .tok <| .tok <|
    .iri (e "p" (by decide +kernel) (by decide +kernel) (by decide +kernel)) <| .tok <| .tok <| .tok <|
    .iri (say_short (p := "rdfs") (n := "http://www.w3.org/2000/01/rdf-schema#") (l := "label") (by decide +kernel) (by decide +kernel)
      (by decide +kernel) (not_joins (by decide +kernel) (by decide +kernel)) (by decide +kernel)) <|
    .lit (us := [_, _, _]) (.plain (ascii "a@b") (ascii "EN") _ (by decide) (by decide +kernel)
      (say_short (p := "rdf") (n := "http://www.w3.org/1999/02/22-rdf-syntax-ns#") (l := "PlainLiteral") (by decide +kernel)
      (by decide +kernel) (by decide +kernel) (not_joins (by decide +kernel) (by decide +kernel)) (by decide +kernel))) <|
    .tok <| .tok <| .tok <| .iri (say_full (by decide +kernel)) <| .tok <| .tok <| .tok <| .tok <| .tok <|
    .iri (e "r" (by decide +kernel) (by decide +kernel) (by decide +kernel)) <| .tok <| .tok <| .tok <| .tok <| .tok <| .tok <| .tok <|
    .iri (say_full (by decide +kernel)) <| .tok <| .iri (e "s" (by decide +kernel) (by decide +kernel) (by decide +kernel)) <|
    .tok <| .tok .nil

theorem say_proper {n : String} (h : iriFromString (ascii "http://e.x/" ++ ascii n) = some (ascii "http://e.x/", ascii n)) : Proper (sayIri n) :=
  proper_of h

example : sayDoc.Ok where
  id := by
    rintro i v h
    cases h
    exact ⟨say_proper (by decide +kernel), fun w hw => by cases hw; exact say_proper (by decide +kernel)⟩
  imports := by
    intro i hi
    rcases List.mem_singleton.1 hi with rfl
    exact say_proper (by decide +kernel)
  annots := by
    intro i hi
    rcases List.mem_singleton.1 hi with rfl
    rw [Annot.Meets]
    exact ⟨proper_of (by decide +kernel), trivial, by rw [Annot.AllMeet]; trivial, trivial⟩
  axioms := by
    intro a ha
    rcases List.mem_cons.1 ha with rfl | ha
    · exact ⟨⟨say_proper (by decide +kernel), say_proper (by decide +kernel), trivial⟩, by rw [Annot.AllMeet]; trivial, trivial⟩
    · rcases List.mem_singleton.1 ha with rfl
      exact ⟨⟨⟨say_proper (by decide +kernel), trivial⟩, say_proper (by decide +kernel)⟩, by rw [Annot.AllMeet]; trivial, trivial⟩
  prefixes := by decide +kernel

example : sayDoc.Agrees (initial []) := by
  intro e he n hn
  rcases List.mem_cons.1 he with rfl | he
  · exact absurd hn (by rw [show initial [] (ascii "e") = none from by decide +kernel]; nofun)
  · rcases List.mem_singleton.1 he with rfl
    exact absurd hn (by rw [show initial [] (ascii "") = none from by decide +kernel]; nofun)

/-- The text is read. -/
example : (funcRead (taking (fun s _ => (s, .ok))) (create [1, 2, 3, 4] []) 5 sayText ((), [])).2 = .ok ∧
    (funcRead (taking (fun s _ => (s, .ok))) (create [1, 2, 3, 4] []) 5 sayText ((), [])).1.2.length = 8 := by decide +kernel

/-! ## Failure -/

/-- The class that an item declares. -/
def declared? : Item → Option Iri
  | .ax (.comp .aDecl _ [.prim (.ent .cls i)] _) => some i
  | _ => none

/-- A document that declares a class. -/
def declDoc (ps : List (Str × Str)) (i : Iri) : Doc := ⟨ps, none, [], [], [⟨.decl .cls i, []⟩]⟩

/-- What is read of a text with these default prefixes, as far as declared classes are concerned. -/
def readDecls (dflt : Fwd) (text : Str) : List Iri × Outcome :=
  let r := funcRead (taking fun s _ => (s, .ok)) (create [1, 2, 3, 4] dflt) 5 text ((), [])
  (r.1.2.filterMap declared?, r.2)

/-- A class by a namespace that ends in a name. -/
def joinText : Str := ascii "Prefix(e:=<http://ex.org/ab>) Ontology(Declaration(Class(e:1c)))"
/-- The document that it says. -/
def joinDoc : Doc := declDoc [(ascii "e", ascii "http://ex.org/ab")] ⟨ascii "http://ex.org/", ascii "ab1c"⟩

/-- A default prefix that the document declares otherwise. -/
def redeclText : Str := ascii "Prefix(e:=<http://b.x/>) Ontology(Declaration(Class(e:c)))"
/-- The document that it says. -/
def redeclDoc : Doc := declDoc [(ascii "e", ascii "http://b.x/")] ⟨ascii "http://b.x/", ascii "c"⟩
/-- Default prefixes. -/
def redeclDflt : Fwd := [(⟨0, ascii "e"⟩, ascii "http://a.x/")]

/-- A literal without a language. -/
def bareText : Str := ascii "Ontology(AnnotationAssertion(rdfs:label <http://e.x/a> \"abc@\"^^rdf:PlainLiteral))"
/-- The document that it says. -/
def bareDoc : Doc := ⟨[], none, [], [], [⟨.annotAssert ⟨ascii "http://www.w3.org/2000/01/rdf-schema#", ascii "label"⟩
  (.iri (sayIri "a")) (.lit ⟨ascii "abc", .dt xsdString⟩), []⟩]⟩

/-- C112 is false as stated. A class whose IRI is put together of a namespace that ends in a name and the rest of the name is read as
another class (C03). A prefix that is in the default prefix map keeps its first meaning, whatever the document declares. A
literal of `rdf:PlainLiteral` with an empty language makes the reader dereference a null pointer (C25). -/
theorem C112_fails :
    (joinDoc.Ok ∧ joinDoc.Agrees (initial []) ∧ Says.Says every (initial []) joinText joinDoc ∧
      joinDoc.items.filterMap declared? = [⟨ascii "http://ex.org/", ascii "ab1c"⟩] ∧
      readDecls [] joinText = ([⟨ascii "http://ex.org/ab1", ascii "c"⟩], .ok)) ∧
    (redeclDoc.Ok ∧ Says.Says Says.usual (initial redeclDflt) redeclText redeclDoc ∧
      redeclDoc.items.filterMap declared? = [⟨ascii "http://b.x/", ascii "c"⟩] ∧
      readDecls redeclDflt redeclText = ([⟨ascii "http://a.x/", ascii "c"⟩], .ok)) ∧
    (bareDoc.Ok ∧ bareDoc.Agrees (initial []) ∧ Says.Says every (initial []) bareText bareDoc ∧
      Cowl.literal (ascii "abc@") (.dt rdfPlainLiteral) = .ub) := by
  refine ⟨⟨⟨nofun, nofun, nofun, ?_, by decide +kernel⟩, ?_, ?_, by decide +kernel, by decide +kernel⟩,
    ⟨⟨nofun, nofun, nofun, ?_, by decide +kernel⟩, ?_, by decide +kernel, by decide +kernel⟩,
    ⟨⟨nofun, nofun, nofun, ?_, by decide +kernel⟩, nofun, ?_, by decide +kernel⟩⟩
  · intro a ha
    rcases List.mem_singleton.1 ha with rfl
    exact ⟨proper_of (by decide +kernel), by rw [Annot.AllMeet]; trivial, trivial⟩
  · intro e he n hn
    rcases List.mem_singleton.1 he with rfl
    exact absurd hn (by rw [show initial [] (ascii "e") = none from by decide +kernel]; nofun)
  · unfold Says.Says
    rw [show lex joinText = [.kw .prefix_, .lpar, .pnameNs (ascii "e"), .equals, .iriRef (ascii "http://ex.org/ab"), .rpar,
      .kw .ontology, .lpar, .kw .declaration, .lpar, .kw .class_, .lpar, .pnameLn (ascii "e:1c"), .rpar, .rpar, .rpar] from by
      decide +kernel]
    exact .tok <| .tok <| .tok <| .tok <| .tok <| .tok <| .tok <| .tok <| .tok <| .tok <| .tok <| .tok <|
      .iri (say_short (p := "e") (n := "http://ex.org/ab") (l := "1c") (by decide +kernel) (by decide +kernel) (by decide +kernel)
        trivial (by decide +kernel)) <| .tok <| .tok <| .tok .nil
  · intro a ha
    rcases List.mem_singleton.1 ha with rfl
    exact ⟨proper_of (by decide +kernel), by rw [Annot.AllMeet]; trivial, trivial⟩
  · unfold Says.Says
    rw [show lex redeclText = [.kw .prefix_, .lpar, .pnameNs (ascii "e"), .equals, .iriRef (ascii "http://b.x/"), .rpar,
      .kw .ontology, .lpar, .kw .declaration, .lpar, .kw .class_, .lpar, .pnameLn (ascii "e:c"), .rpar, .rpar, .rpar] from by
      decide +kernel]
    exact .tok <| .tok <| .tok <| .tok <| .tok <| .tok <| .tok <| .tok <| .tok <| .tok <| .tok <| .tok <|
      .iri (say_short (p := "e") (n := "http://b.x/") (l := "c") (by decide +kernel) (by decide +kernel) (by decide +kernel)
        (not_joins (by decide +kernel) (by decide +kernel)) (by decide +kernel)) <| .tok <| .tok <| .tok .nil
  · intro a ha
    rcases List.mem_singleton.1 ha with rfl
    exact ⟨⟨proper_of (by decide +kernel), say_proper (by decide +kernel), trivial⟩, by rw [Annot.AllMeet]; trivial, trivial⟩
  · unfold Says.Says
    rw [show lex bareText = [.kw .ontology, .lpar, .kw .annotationAssertion, .lpar, .pnameLn (ascii "rdfs:label"),
      .iriRef (ascii "http://e.x/a"), .qstr (ascii "abc@"), .dcaret, .pnameLn (ascii "rdf:PlainLiteral"), .rpar, .rpar] from by
      decide +kernel]
    exact .tok <| .tok <| .tok <| .tok <|
      .iri (say_short (p := "rdfs") (n := "http://www.w3.org/2000/01/rdf-schema#") (l := "label") (by decide +kernel) (by decide +kernel)
        (by decide +kernel) trivial (by decide +kernel)) <|
      .iri (say_full (by decide +kernel)) <|
      .lit (us := [_, _, _]) (.plainString (ascii "abc") _
        (say_short (p := "rdf") (n := "http://www.w3.org/1999/02/22-rdf-syntax-ns#") (l := "PlainLiteral") (by decide +kernel)
        (by decide +kernel) (by decide +kernel) trivial (by decide +kernel)) trivial) <| .tok <| .tok .nil

end Cowl
