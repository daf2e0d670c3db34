import Verif.FuncAstLemmas
import Verif.FuncTextProps
/-!
# C31: the functional syntax expresses axioms and expressions faithfully

`writeObj` and `parseCat` are the writer and the grammar. The constructs are those of
`Verif.Ast`, which covers every kind of axiom, class expression, data range and
annotation.
-/
namespace Cowl
open Prefix Func FuncSpec Ast

/-- The reader, on text: what a construct of category `c` at the start of the text
stands for, and the tokens that follow. -/
def readAs (m : PMap) (c : Cat) (s : Str) : Option (Obj × List Tok) := parseCat m s.length c (lex s)

theorem readAs_of {F : Str → Prop} {m : PMap} {c : Cat} {txt : Str} {o : Obj} (h : RTF F m c txt o)
    {rest : Str} (hr : F rest) : readAs m c (txt ++ rest) = some (o, lex rest) := by
  obtain ⟨tk, ts, h1, _, _, h2⟩ := h.run rest hr
  rw [readAs, h1]
  exact h2 _ (by simp)

/-- C31 for axioms, under conditions: the writer has a text for the axiom, and the
reader reads it back, whatever comes next. The conditions are those of `Maps` on the
prefix maps of writer and reader, and those of `textReq` on the construct: IRIs as in
C30, literals as in C29 and not of a datatype for text with a language, labels of
anonymous individuals, no inverse property as sub-property, and at least two operands
(one for enumerations) where the grammar asks for them. -/
theorem C31_partial {w r : PMap} (hm : Maps w r) (a : Axiom) (h : a.Meets (textReq (lookup w))) :
    ∃ txt, funcWrite (lookup w) a.toObj = some txt ∧
      ∀ rest, readAs r .ax (txt ++ rest) = some (a.toObj, lex rest) :=
  ⟨_, by rw [funcWrite, def_axiom h]; rfl, fun _ => readAs_of (rt_axiom hm.agree a h) trivial⟩

/-- C31 for annotations, under the same conditions. -/
theorem C31_annotation_partial {w r : PMap} (hm : Maps w r) (a : Annot)
    (h : a.Meets (textReq (lookup w))) :
    ∃ txt, funcWrite (lookup w) a.toObj = some txt ∧
      ∀ rest, readAs r .annotation (txt ++ rest) = some (a.toObj, lex rest) :=
  ⟨_, by rw [funcWrite, def_annot a h]; rfl, fun _ => readAs_of (rt_annot hm.agree a h) trivial⟩

/-- C31 for class expressions as last argument, under the same conditions. -/
theorem C31_class_partial {w r : PMap} (hm : Maps w r) (c : CE) (h : c.Meets (textReq (lookup w))) :
    ∃ txt, funcWrite (lookup w) c.toObj = some txt ∧
      ∀ rest, readAs r .ce (txt ++ 41 :: rest) = some (c.toObj, .rpar :: lex rest) :=
  ⟨_, by rw [funcWrite, def_ce c h]; rfl, fun rest => by
    rw [readAs_of (rt_ce hm.agree c h) (follow_rpar rest), lex_rpar]⟩

/-- C31 for data ranges as last argument, under the same conditions. -/
theorem C31_range_partial {w r : PMap} (hm : Maps w r) (d : DR) (h : d.Meets (textReq (lookup w))) :
    ∃ txt, funcWrite (lookup w) d.toObj = some txt ∧
      ∀ rest, readAs r .dr (txt ++ 41 :: rest) = some (d.toObj, .rpar :: lex rest) :=
  ⟨_, by rw [funcWrite, def_dr d h]; rfl, fun rest => by
    rw [readAs_of (rt_dr hm.agree d h) (follow_rpar rest), lex_rpar]⟩

/-- Different axioms have different texts, and no text is the beginning of another. -/
theorem C31_injective {w : PMap} (hm : Maps w w) {a b : Axiom} (ha : a.Meets (textReq (lookup w)))
    (hb : b.Meets (textReq (lookup w))) {s t : Str}
    (h : writeObj (lookup w) a.toObj ++ s = writeObj (lookup w) b.toObj ++ t) : a.toObj = b.toObj := by
  have h1 := readAs_of (rt_axiom hm.agree a ha) (rest := s) trivial
  have h2 := readAs_of (rt_axiom hm.agree b hb) (rest := t) trivial
  rw [h, h2] at h1
  exact (congrArg Prod.fst (Option.some.inj h1)).symm

/-! ## Counterexamples -/

/-- An IRI of the sample map. -/
def exIri (s : String) : Iri := ⟨exNs1, ascii s⟩

/-- C31 is false as stated. The sample map is used by writer and reader.
* An inverse property as sub-property is read as an entity by the writer.
* So is, as a string, the language of a literal typed as rdf:langString.
* An intersection of one class is written but not read.
* A literal typed as rdf:PlainLiteral is written, and reading it dereferences NULL. -/
theorem C31_fails :
    (funcWrite (lookup busyMap)
      (Axiom.mk (.subObjProp (.ope (.inv (exIri "p"))) (.prop (exIri "q"))) []).toObj).isNone = true ∧
    (funcWrite (lookup busyMap)
      (Axiom.mk (.dataPropAssert (exIri "p") (.anon (ascii "x")) ⟨ascii "a", .dt rdfLangString⟩)
        []).toObj).isNone = true ∧
    (funcWrite (lookup busyMap) (CE.inter [.cls (exIri "A")]).toObj =
        some (ascii "ObjectIntersectionOf(ex:A)") ∧
      (readAs busyMap .ce (ascii "ObjectIntersectionOf(ex:A)")).isNone = true) ∧
    (funcWrite (lookup busyMap) (Lit.mk (ascii "a") (.dt rdfPlainLiteral)).toObj =
        some (ascii "\"a\"^^rdf:PlainLiteral") ∧
      (readAs busyMap .lit (ascii "\"a\"^^rdf:PlainLiteral)")).isNone = true) := by
  refine ⟨?_, ?_, ⟨?_, ?_⟩, ⟨?_, ?_⟩⟩ <;> decide +kernel

/-! ## Non-vacuity -/

/-- `SubClassOf(Annotation(Annotation(ex:src ex:doc) ex:note "a\"b"@en) ex:A
ObjectIntersectionOf(ObjectMinCardinality(2 ObjectInverseOf(ex:p) ex:B)
DataSomeValuesFrom(ex:d DatatypeRestriction(xsd:integer xsd:minInclusive "1"^^xsd:integer))))`. -/
def exAxiom : Axiom where
  ax := .subClass (.cls (exIri "A")) (.inter [
    .objCardQ .min 2 (.inv (exIri "p")) (.cls (exIri "B")),
    .dataSome (exIri "d") (.restr ⟨xsdNs, ascii "integer"⟩
      [(⟨xsdNs, ascii "minInclusive"⟩, ⟨ascii "1", .dt ⟨xsdNs, ascii "integer"⟩⟩)])])
  annots := [.mk (exIri "note") (.lit ⟨ascii "a\"b", .lang (ascii "en")⟩)
    [.mk (exIri "src") (.iri (exIri "doc")) []]]

/-- The conditions of `C31_partial` hold for an axiom with nested expressions, nested
annotations and literals of both kinds. -/
theorem exAxiom_meets : exAxiom.Meets (textReq (lookup busyMap)) := by
  have ok : ∀ i ∈ [exIri "A", exIri "p", exIri "B", exIri "d", exIri "note", exIri "src", exIri "doc",
      ⟨xsdNs, ascii "integer"⟩, ⟨xsdNs, ascii "minInclusive"⟩], IriOk (lookup busyMap) i := by
    intro i hi
    simp only [List.mem_cons, List.not_mem_nil, or_false] at hi
    rcases hi with h | h | h | h | h | h | h | h | h <;> rw [h] <;>
      exact iriOk_of (by decide +kernel) (by decide +kernel) (by decide +kernel)
  have hint : LitOk (lookup busyMap) ⟨ascii "1", .dt ⟨xsdNs, ascii "integer"⟩⟩ :=
    ⟨by decide +kernel, by decide +kernel, by decide +kernel, .inr (ok _ (by simp))⟩
  have hlang : LitOk (lookup busyMap) ⟨ascii "a\"b", .lang (ascii "en")⟩ :=
    ⟨by decide +kernel, ⟨ascii "en", [], by decide +kernel, by decide +kernel, by
      have : ascii "en" = [101, 110] := by decide +kernel
      rw [this]; simp [Letter], fun _ h => nomatch h⟩, by
      have : ascii "en" = [101, 110] := by decide +kernel
      rw [this]; simp⟩
  have ok' : ∀ i, i ∈ [exIri "A", exIri "p", exIri "B", exIri "d", exIri "note", exIri "src", exIri "doc",
      ⟨xsdNs, ascii "integer"⟩, ⟨xsdNs, ascii "minInclusive"⟩] → (textReq (lookup busyMap)).iri i := ok
  have hint' : (textReq (lookup busyMap)).lit _ := hint
  have hlang' : (textReq (lookup busyMap)).lit _ := hlang
  have h2 : (textReq (lookup busyMap)).two = (2 ≤ ·) := rfl
  have h1 : (textReq (lookup busyMap)).one = (1 ≤ ·) := rfl
  have h0 : (textReq (lookup busyMap)).any = fun _ => True := rfl
  have hc : (textReq (lookup busyMap)).card = fun _ => True := rfl
  simp [exAxiom, Axiom.Meets, Ax.Meets, CE.Meets, CE.AllMeet, DR.Meets, Ope.Meets, Annot.AllMeet,
    Annot.Meets, AnnotVal.Meets, hint', hlang', h0, h1, h2, hc, ok' _]

example : ∃ txt, funcWrite (lookup busyMap) exAxiom.toObj = some txt ∧
    ∀ rest, readAs busyMap .ax (txt ++ rest) = some (exAxiom.toObj, lex rest) :=
  C31_partial busy_maps exAxiom exAxiom_meets

/-- The text of the example. -/
example : funcWrite (lookup busyMap) exAxiom.toObj = some (ascii
    "SubClassOf(Annotation(Annotation(ex:src ex:doc) ex:note \"a\\\"b\"@en) ex:A ObjectIntersectionOf(ObjectMinCardinality(2 ObjectInverseOf(ex:p) ex:B) DataSomeValuesFrom(ex:d DatatypeRestriction(xsd:integer xsd:minInclusive \"1\"^^xsd:integer))))") := by
  decide +kernel

end Cowl
