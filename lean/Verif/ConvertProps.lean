import Verif.ConvertLemmas
/-! # C83: conversions between formats -/
namespace Cowl
open Prefix PrefixSpec Func FuncSpec Change Ast Prt Convert

/-- C83 for ontologies that both formats can express: any series of conversions succeeds and gives an
ontology with the same IRI, version, imports, annotations and axioms; every prefix of it is one of
the original ontology or of the defaults, with the same namespace. Missing: see `C83_fails`. -/
theorem C83_partial {E : Env} (hu : E.u.Lawful) {names : List Id} {P : List (Str × Str)} {dflt : Fwd}
    (hS : Setting names P dflt) : ∀ (l : List Step) {o : OntoSt}, Portable E.u names P o → (∀ x ∈ l, x.Fine) →
    ∃ o', Gives E dflt l o o' ∧ Same o o' ∧ Portable E.u names P o'
  | [], o, h, _ => ⟨o, rfl, ⟨rfl, rfl, rfl, rfl, fun _ => rfl⟩, h⟩
  | x :: l, o, h, hf => by
    obtain ⟨o₁, h1, h2, h3⟩ := step_gives hu hS h x (hf x List.mem_cons_self)
    obtain ⟨o', h4, h5, h6⟩ := C83_partial hu hS l h3 fun y hy => hf y (List.mem_cons_of_mem _ hy)
    exact ⟨o', ⟨o₁, h1, h4⟩, ⟨h5.iri.trans h2.iri, h5.version.trans h2.version, h5.imports.trans h2.imports,
      h5.annots.trans h2.annots, fun t => (h5.axioms t).trans (h2.axioms t)⟩, h6⟩

/-- The outcome of a conversion is determined. -/
theorem step_det {E : Env} {dflt : Fwd} {o o₁ o₂ : OntoSt} : ∀ {x : Step}, x.Gives E dflt o o₁ → x.Gives E dflt o o₂ → o₁ = o₂
  | .func .., ⟨_, _, h1, h2⟩, ⟨_, _, h3, h4⟩ => by
    rw [h1] at h3; cases h3
    rw [h2] at h4; cases h4; rfl
  | .prt .., ⟨b, _, h1, h2⟩, ⟨b', _, h3, h4⟩ => by
    have e1 := h1 (b.length + b'.length) (by omega)
    rw [h3 (b.length + b'.length) (by omega)] at e1
    cases e1
    rw [h2] at h4; cases h4; rfl

theorem gives_det {E : Env} {dflt : Fwd} : ∀ {l : List Step} {o o₁ o₂ : OntoSt}, Gives E dflt l o o₁ → Gives E dflt l o o₂ → o₁ = o₂
  | [], _, _, _, h1, h2 => h1.trans h2.symm
  | _ :: _, _, _, _, ⟨_, h1, h2⟩, ⟨_, h3, h4⟩ => by
    cases step_det h1 h3
    exact gives_det h2 h4

/-- One conversion keeps prefixes. -/
theorem step_prefixes {E : Env} (hu : E.u.Lawful) {names : List Id} {P : List (Str × Str)} {dflt : Fwd}
    (hS : Setting names P dflt) (h1 : ∀ p q n, (p, n) ∈ P → (q, n) ∈ P → p = q)
    (h2 : ∀ p n, (p, n) ∈ P → n ∈ knownNs → Standard p) {o o' : OntoSt} (h : Portable E.u names P o) :
    ∀ {x : Step}, x.Fine → x.Gives E dflt o o' → ∀ p n, o.pm.getNs p = some n → o'.pm.getNs p = some n
  | .func ks ks' addr n, ⟨hk, hk'⟩, hg => by
    obtain ⟨s, hs⟩ := h.reaches
    obtain ⟨txt, o'', n', k1, k2, -, -, -, -, -, k3, -⟩ :=
      C45_partial hs (docOk hS h) hk hk' hS.distinct (compatible hS h) addr n
    cases step_det hg ⟨txt, n', k1, k2⟩
    intro p m hm
    rw [k3, hm]
  | .prt order ks n, ⟨hk, hord⟩, hg => by
    obtain ⟨s, hs⟩ := h.reaches
    obtain ⟨a, ha⟩ := h.calm
    obtain ⟨b, o'', n', k1, k2, k3, -⟩ := C55_partial hu hs (prtDocOk hS h) hord ha.weaken
      (fun p q n e1 e2 => h1 p q n (h.pm _ _ e1) (h.pm _ _ e2)) (fun p n e1 e2 => h2 p n (h.pm _ _ e1) e2) hk hS.distinct n
    cases step_det hg ⟨b, n', k1, k2⟩
    exact k3

/-- C83 for prefixes, if no namespace has two of them and those every ProtocOWL document knows have only
the standard ones: all are kept. -/
theorem C83_prefixes {E : Env} (hu : E.u.Lawful) {names : List Id} {P : List (Str × Str)} {dflt : Fwd}
    (hS : Setting names P dflt) (h1 : ∀ p q n, (p, n) ∈ P → (q, n) ∈ P → p = q)
    (h2 : ∀ p n, (p, n) ∈ P → n ∈ knownNs → Standard p) : ∀ {l : List Step} {o o' : OntoSt},
    Portable E.u names P o → (∀ x ∈ l, x.Fine) → Gives E dflt l o o' →
    ∀ p n, o.pm.getNs p = some n → o'.pm.getNs p = some n
  | [], _, _, _, _, hg, p, n, hp => by cases hg; exact hp
  | x :: l, o, o', h, hf, ⟨o₁, g1, g2⟩, p, n, hp => by
    have hx := hf x List.mem_cons_self
    obtain ⟨o₂, k1, -, k2⟩ := step_gives hu hS h x hx
    cases step_det g1 k1
    exact C83_prefixes hu hS h1 h2 k2 (fun y hy => hf y (List.mem_cons_of_mem _ hy)) g2 p n
      (step_prefixes hu hS h1 h2 h hx g1 p n hp)

/-! ## Samples -/

/-- `SubClassOf(Annotation(ex:note "a"@en) ex:A ObjectIntersectionOf(ex:B
ObjectMinCardinality(2 ObjectInverseOf(ex:p) ex:B) DataHasValue(ex:d "-12"^^xsd:integer)))`. -/
def convAxiom : Axiom where
  ax := .subClass (.cls (exIri "A")) (.inter [.cls (exIri "B"), .objCardQ .min 2 (.inv (exIri "p")) (.cls (exIri "B")),
    .dataHasValue (exIri "d") ⟨ascii "-12", .dt ⟨xsdNs, ascii "integer"⟩⟩])
  annots := [.mk (exIri "note") (.lit ⟨ascii "a", .lang (ascii "en")⟩) []]

/-- An ontology with prefixes, IRI, version, import, annotation and axiom. -/
def convOnto : OntoSt :=
  ⟨busyMap, some (exIri "o"), some (exIri "v1"),
    loaded [⟨1, .prim (.iri (exIri "i"))⟩] [⟨2, exAnnot.toObj⟩] [⟨3, convAxiom.toObj⟩]⟩

/-- Its names. -/
def convIris : List Iri := ["o", "v1", "i", "note", "doc", "A", "B", "p", "d"].map exIri ++ [⟨xsdNs, ascii "integer"⟩]

/-- Its names, with one that literals with a language have. -/
def convNames : List Id := (convIris ++ [rdfLangString]).map .iri

/-- Its prefixes. -/
def convPfx : List (Str × Str) := busyMap.fwd.map fun e => (e.1.txt, e.2)

theorem convOnto_reaches : OntoSpec.Reaches convOnto.onto
    ⟨[⟨3, convAxiom.toObj⟩], [⟨2, exAnnot.toObj⟩], [⟨1, .prim (.iri (exIri "i"))⟩]⟩ := by
  refine loaded_reaches ?_ ?_ ?_
  · intro y hy; rw [List.mem_singleton.1 hy]; exact wf_annot exAnnot
  · intro y hy; rw [List.mem_singleton.1 hy]; exact isAxiom_toObj convAxiom
  · intro y hy z hz _; rw [List.mem_singleton.1 hy, List.mem_singleton.1 hz]

/-- A check of IRIs. -/
theorem portable_of {i : Iri} (h1 : iriFromString (i.ns ++ i.rem) = some (i.ns, i.rem))
    (h2 : (i.ns ++ i.rem).all isIriChar = true) (h3 : i.rem.getLast? ≠ some 46) : IriPortable i := by
  have h := iriOk_of (gp := fun _ => none) h1 h2 h3
  exact ⟨h.split, (h.full (.inl rfl)).1, (h.full (.inl rfl)).2, h3⟩

theorem convIris_portable : ∀ i ∈ convIris, IriPortable i := by
  have h : ∀ i ∈ convIris, iriFromString (i.ns ++ i.rem) = some (i.ns, i.rem) ∧ (i.ns ++ i.rem).all isIriChar = true ∧
      i.rem.getLast? ≠ some 46 := by decide +kernel
  exact fun i hi => portable_of (h i hi).1 (h i hi).2.1 (h i hi).2.2

theorem convAxiom_meets : convAxiom.Meets (portable leb) := by
  have ok := convIris_portable
  have hint : LitPortable leb ⟨ascii "-12", .dt ⟨xsdNs, ascii "integer"⟩⟩ := by
    refine ⟨by decide +kernel, .inr ⟨by decide +kernel, by decide +kernel, fun h => absurd h (by decide +kernel), fun _ _ => .inl ?_,
      fun _ h => absurd h (by decide +kernel)⟩, by decide +kernel, (fun s h => nomatch h), fun i h => ?_⟩
    · exact .inr ⟨ascii "12", by decide +kernel, ⟨digits_of (by decide +kernel), by decide +kernel, by decide +kernel⟩,
        by decide +kernel, by decide +kernel⟩
    · cases h
      exact ⟨by decide +kernel, by decide +kernel, .inr (ok _ (by simp [convIris]))⟩
  have hlang : LitPortable leb ⟨ascii "a", .lang (ascii "en")⟩ := by
    refine ⟨by decide +kernel, ⟨by decide +kernel, by decide +kernel⟩, by decide +kernel, fun t h => ?_, fun i h => nomatch h⟩
    cases h
    exact ⟨⟨ascii "en", [], by decide +kernel, by decide +kernel, by
      have : ascii "en" = [101, 110] := by decide +kernel
      rw [this]; simp [Letter], fun _ h => nomatch h⟩, by decide +kernel, by
      have : ascii "en" = [101, 110] := by decide +kernel
      rw [this]; simp⟩
  refine ⟨?_, ?_, show 1 < 4294967296 by decide⟩
  · simp only [convAxiom, Ax.Meets, CE.Meets, CE.AllMeet, Ope.Meets]
    exact ⟨ok _ (by simp [convIris]), ⟨show 2 ≤ 3 by decide, show 3 < 4294967296 by decide⟩, ok _ (by simp [convIris]),
      ⟨ok _ (by simp [convIris]), ok _ (by simp [convIris]), show (2 : UInt32).toNat < 2147483648 by decide⟩,
      ⟨ok _ (by simp [convIris]), hint⟩, trivial⟩
  · simp only [convAxiom, Annot.AllMeet, Annot.Meets, AnnotVal.Meets]
    exact ⟨⟨ok _ (by simp [convIris]), hlang, trivial, show 0 < 4294967296 by decide⟩, trivial⟩

theorem convOnto_portable : Portable leb convNames convPfx convOnto := by
  have hr := convOnto_reaches
  have hi := reaches_inv hr
  have ok := convIris_portable
  have hkeys : (convOnto.onto.idx.map Prod.fst).all (fun p => convNames.contains (idOf p)) = true := by decide +kernel
  have hk : ∀ p ∈ convOnto.onto.idx.map Prod.fst, idOf p ∈ convNames := fun p hp => by
    simpa using List.all_eq_true.1 hkeys p hp
  have hn : ∀ {i : Iri}, i ∈ convIris → Id.iri i ∈ convNames := fun h =>
    List.mem_map_of_mem (List.mem_append_left _ h)
  refine ⟨⟨_, hr⟩, ⟨_, busy_reaches⟩, ?_, ?_, ?_, ?_, ?_, ?_, ?_, by decide +kernel, by decide +kernel⟩
  · intro p n h
    rw [getNs_meaning] at h
    obtain ⟨k, h1, rfl⟩ := meaning_some h
    exact List.mem_map.2 ⟨_, h1, rfl⟩
  · intro p hp
    have := (hasPrimitive_iff convOnto.onto p).1 hp
    cases p with
    | ent k i =>
      rcases this with h | h
      · exact hk _ h
      · exact hk (.iri i) h
    | iri i => exact hk _ this
    | anon s => exact hk _ this
  · intro i h; cases h
    exact ⟨ok _ (by simp [convIris]), hn (by simp [convIris])⟩
  · intro i h; cases h
    exact ⟨nofun, ok _ (by simp [convIris]), hn (by simp [convIris])⟩
  · intro x hx
    rw [hi.imports] at hx
    rw [List.mem_singleton.1 hx]
    exact ⟨_, rfl, ok _ (by simp [convIris]), hn (by simp [convIris])⟩
  · intro x hx
    rw [hi.annot] at hx
    refine ⟨fun p hp => hk p (hi.keys p x (.inr hx) hp), ?_⟩
    rw [List.mem_singleton.1 hx]
    refine ⟨_, rfl, ?_⟩
    rw [exAnnot, Annot.Meets]
    exact ⟨ok _ (by simp [convIris]), ok _ (by simp [convIris]), by simp [Annot.AllMeet], show 0 < 4294967296 by decide⟩
  · intro x hx
    have hx := (axiomsOf_perm hi).mem_iff.1 hx
    refine ⟨fun p hp => hk p (hi.keys p x (.inl hx) hp), ?_⟩
    rw [List.mem_singleton.1 hx]
    exact ⟨_, rfl, convAxiom_meets⟩

/-- The defaults: one of the prefixes of the sample. -/
def convDflt : Fwd := [(pfx 5 "ex", exNs1)]

theorem convSetting : Setting convNames convPfx convDflt := by
  have hsplit : convNames.all splitOk = true := by decide +kernel
  have hshort : convNames.all shortOk = true := by decide +kernel
  have hget : ∀ p n, (p, n) ∈ convPfx → busyMap.getNs p = some n := by
    intro p n h
    obtain ⟨e, he, k⟩ := List.mem_map.1 h
    cases k
    rw [getNs_meaning]
    exact meaning_of_mem (inv_reaches busy_reaches).distinct he
  have hlen : convPfx.all (fun e => e.1.length < 4294967296 && e.2.length < 4294967296) = true := by decide +kernel
  refine ⟨?_, ?_, ?_, ?_, ?_, ?_, ?_, by decide +kernel⟩
  · intro i h; exact splitOk_split (List.all_eq_true.1 hsplit _ h)
  · intro i h
    have := List.all_eq_true.1 hshort _ h
    cases i <;> simpa [shortOk, IdShort] using this
  · intro p n n' h1 h2
    exact Option.some.inj ((hget p n h1).symm.trans (hget p n' h2))
  · intro p hp
    rcases hp with rfl | rfl | rfl | rfl <;> decide +kernel
  · simp only [Distinct]; decide +kernel
  · intro e he
    rw [List.mem_singleton.1 he]; decide +kernel
  · intro e he
    have := List.all_eq_true.1 hlen e he
    simp only [Bool.and_eq_true, decide_eq_true_eq] at this
    exact ⟨busy_maps.plain _ _ (hget _ _ he), chars_of_check (by decide +kernel) _ _ (hget _ _ he), this⟩

/-- Conversions of the sample. -/
def convSteps : List Step := [.func [0, 1, 2, 3] [4, 5, 6, 7] 20 100, .prt List.reverse [0, 1, 2, 3] 200,
  .prt id [0, 1, 2, 3] 300, .func [0, 1, 2, 3] [4, 5, 6, 7] 20 400]

/-- The conditions of `C83_partial` and `C83_prefixes` hold for the sample. -/
example : lebEnv.u.Lawful ∧ Setting convNames convPfx convDflt ∧ Portable lebEnv.u convNames convPfx convOnto ∧
    (∀ x ∈ convSteps, x.Fine) ∧ (∀ p q n, (p, n) ∈ convPfx → (q, n) ∈ convPfx → p = q) ∧
    ∀ p n, (p, n) ∈ convPfx → n ∈ knownNs → Standard p := by
  refine ⟨leb_lawful, convSetting, convOnto_portable, ?_, ?_, ?_⟩
  · intro x hx
    simp only [convSteps, List.mem_cons, List.not_mem_nil, or_false] at hx
    rcases hx with rfl | rfl | rfl | rfl
    · exact ⟨rfl, rfl⟩
    · exact ⟨rfl, fun ps => List.reverse_perm ps⟩
    · exact ⟨rfl, fun ps => .refl _⟩
    · exact ⟨rfl, rfl⟩
  · have h : ∀ x ∈ convPfx, ∀ y ∈ convPfx, x.2 = y.2 → x.1 = y.1 := by decide +kernel
    exact fun p q n h1 h2 => h _ h1 _ h2 rfl
  · have h : ∀ x ∈ convPfx, x.2 ∈ knownNs →
      x.1 = ascii "owl" ∨ x.1 = ascii "rdf" ∨ x.1 = ascii "rdfs" ∨ x.1 = ascii "xsd" := by decide +kernel
    exact fun p n h1 h2 => h _ h1 h2

/-! ## Counterexamples -/

/-- A document in functional syntax. -/
def plusDoc : Str := ascii "Ontology(DataPropertyAssertion(<http://x.org/p> <http://x.org/a> \"+7\"^^xsd:integer))"

/-- The texts of the axioms. -/
def axTexts (o : OntoSt) : List Str := (axiomsOf o.onto).map fun x => writeObj (lookup o.pm) x.obj

/-- An ontology with an intersection of one class. -/
def singleOnto : OntoSt := ⟨freshMap, none, none,
  Onto.empty.addAxiom ⟨1, (Axiom.mk (.subClass (.cls (exIri "A")) (.inter [.cls (exIri "B")])) []).toObj⟩⟩

/-- An ontology whose axiom the functional reader accepts. -/
def inverseDoc : Str := ascii "Ontology(SubObjectPropertyOf(ObjectInverseOf(<http://x.org/p>) <http://x.org/q>))"

/-- C83 is false as stated.
* A literal that is read from functional syntax may have another text after ProtocOWL.
* An intersection of one class makes it through ProtocOWL, and the text it has in functional syntax is
  rejected.
* An axiom that the functional reader accepts makes it through ProtocOWL, and writing it in functional
  syntax is undefined. -/
theorem C83_fails :
    ((readNew [] plusDoc).2 = .ok ∧
      axTexts (readNew [] plusDoc).1 =
        [ascii "DataPropertyAssertion(<http://x.org/p> <http://x.org/a> \"+7\"^^xsd:integer)"] ∧
      (prtBack (readNew [] plusDoc).1).1.map axTexts =
        some [ascii "DataPropertyAssertion(<http://x.org/p> <http://x.org/a> \"7\"^^xsd:integer)"]) ∧
    ((prtBack singleOnto).1.map axTexts = some (axTexts singleOnto) ∧
      (((prtBack singleOnto).1.bind writeDoc).map fun t => (readNew [] t).2) = some .rejected) ∧
    ((readNew [] inverseDoc).2 = .ok ∧
      ((prtBack (readNew [] inverseDoc).1).1.map fun o => (axiomsOf o.onto).length) = some 1 ∧
      ((prtBack (readNew [] inverseDoc).1).1.bind writeDoc).isNone = true) := by
  refine ⟨⟨?_, ?_, ?_⟩, ⟨?_, ?_⟩, ⟨?_, ?_, ?_⟩⟩ <;> decide +kernel

end Cowl
