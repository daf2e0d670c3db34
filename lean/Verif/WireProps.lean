import Verif.WireLemmas
import Verif.PrtDocProps
/-!
# C125: the layout of ProtocOWL
-/
namespace Cowl
open Prt Ast Wire Change

section
variable (u : Ulib) (ids : Id → Option Nat)

/-- C125 for axioms. The writer succeeds exactly if all names have an index, and then
writes the bytes of the layout. Missing: counts, lengths, cardinalities and indices that
do not fit into 32 bits, see `C125_fails`. -/
theorem C125_partial (a : Axiom) (h : ∀ c ∈ ax (Wire.written u) a, c.Small ids) (b : Str) :
    encObj u ids a.toObj = ⟨b, true⟩ ↔ Wire.bytes u.varint u.svarint ids (ax (Wire.written u) a) = some b := by
  rw [emits_ax, emits_ok h]

/-- C125 for class expressions. -/
theorem C125_class_partial (a : CE) (h : ∀ c ∈ ce (Wire.written u) a, c.Small ids) (b : Str) :
    encObj u ids a.toObj = ⟨b, true⟩ ↔ Wire.bytes u.varint u.svarint ids (ce (Wire.written u) a) = some b := by
  rw [emits_ce, emits_ok h]

/-- C125 for data ranges. -/
theorem C125_range_partial (a : DR) (h : ∀ c ∈ dr (Wire.written u) a, c.Small ids) (b : Str) :
    encObj u ids a.toObj = ⟨b, true⟩ ↔ Wire.bytes u.varint u.svarint ids (dr (Wire.written u) a) = some b := by
  rw [emits_dr, emits_ok h]

/-- C125 for annotations. -/
theorem C125_annotation_partial (a : Annot) (h : ∀ c ∈ annot (Wire.written u) a, c.Small ids) (b : Str) :
    encObj u ids a.toObj = ⟨b, true⟩ ↔ Wire.bytes u.varint u.svarint ids (annot (Wire.written u) a) = some b := by
  rw [emits_annot, emits_ok h]

end

/-- C125 for reading: the bytes of the layout are read as the axiom they lay out. -/
theorem C125_read_partial {E : Env} (hu : E.u.Lawful) {ids : Id → Option Nat} {ix : DIndex} {a : Axiom}
    (hc : a.Meets (prtContents E.u)) (hi : Indexed ids ix a.toObj) (h : ∀ c ∈ ax (Wire.written E.u) a, c.Small ids) :
    ∃ c b, Wire.bytes E.u.varint E.u.svarint ids (ax (Wire.written E.u) a) = some (c :: b) ∧
      ∀ rest f n, (b ++ rest).length < n → decAxiom E n c ⟨b ++ rest, ix, f⟩ = .ok (a.toObj, true) ⟨rest, ix, f⟩ := by
  obtain ⟨c, b, h1, -, h2⟩ := C32_partial E hu ids ix a hc hi
  exact ⟨c, b, (C125_partial E.u ids a h _).mp h1, h2⟩

/-- C125 for documents: if the names of an ontology have indices, its bytes are those of
the layout. `d` are the declarations that the index makes. -/
theorem C125_document_partial (u : Ulib) (order : List Prim → List Prim) (o : OntoSt) {d : Decls} {is : List Iri}
    {as : List Annot} {xs : List Axiom}
    (hd : (populate {} order o).decls = some d)
    (hi : (o.onto.imports.getD []).map Ref.obj = is.map fun i => .prim (.iri i))
    (ha : (o.onto.annot.getD []).map Ref.obj = as.map Annot.toObj)
    (hx : (Func.collectAxioms o.onto).map Ref.obj = xs.map Axiom.toObj)
    (hs : ∀ c ∈ doc (Wire.written u) ⟨d.pfxs, d.nss, d.iris, d.anons⟩ o.iri o.version is as xs,
      c.Small (populate {} order o).sync.ids.idx) {b : Str}
    (hb : Wire.bytes u.varint u.svarint (populate {} order o).sync.ids.idx
      (doc (Wire.written u) ⟨d.pfxs, d.nss, d.iris, d.anons⟩ o.iri o.version is as xs) = some b)
    (cap : Nat) (hcap : b.length ≤ cap) : writeOntology u true order o cap = (b, .ok) := by
  have he := (emits_ok hs b).mpr hb
  have hok := congrArg Out.ok he
  simp only [doc, emits_cons, emits_append] at hok
  obtain ⟨-, hok⟩ := ok_append hok
  obtain ⟨hok, hok5⟩ := ok_append hok
  obtain ⟨hok, hok4⟩ := ok_append hok
  obtain ⟨hok, hok3⟩ := ok_append hok
  obtain ⟨hok1, hok2⟩ := ok_append hok
  have e : (encData u true (populate {} order o) o).1.bytes = ((emits u (populate {} order o).sync.ids.idx
      (tables ⟨d.pfxs, d.nss, d.iris, d.anons⟩ ++ names o.iri o.version ++ frame 7 (fun i => [.name 0 (.iri i)]) is ++
        frame 8 (annot (Wire.written u)) as ++ xs.flatMap (ax (Wire.written u)))).bytes) := by
    unfold encData
    rw [hd]
    dsimp only
    rw [hi, ha, hx, emits_tables (ids := (populate {} order o).sync.ids.idx), emits_names, emits_imports hok3, emits_annotFrame,
      emits_axioms hok5, untilErr_eq]
    · simp only [cat_cons, emits_append, append_assoc]
      rw [show cat [] = ({} : Out) from rfl, append_nil]
    · intro w hw
      simp only [List.mem_cons, List.not_mem_nil, or_false] at hw
      rcases hw with rfl | rfl | rfl | rfl | rfl <;> assumption
  have e2 : 1 :: (encData u true (populate {} order o) o).1.bytes = b := by
    rw [e]; exact congrArg Out.bytes he
  unfold writeOntology
  dsimp only
  rw [e2, if_pos hcap, List.take_of_length_le hcap]

/-- As which values texts are Wire.written. Text of other datatypes than `xsd:boolean`, the
integers and the decimal numbers stays text; so does text that is not a number. -/
theorem C125_values (u : Ulib) (i : Iri) (s : Str) :
    (i.ns ≠ xsdNs ∨ i.rem ∉ ascii "boolean" :: (intNames ++ decNames) → Wire.written u i s = none) ∧
    (i = xsd "boolean" → s = ascii "true" → Wire.written u i s = some (.bool true)) ∧
    (i = xsd "boolean" → s = ascii "false" → Wire.written u i s = some (.bool false)) ∧
    (i.ns = xsdNs → i.rem ∈ intNames → u.toInt s = none → Wire.written u i s = none) ∧
    (∀ v, i.ns = xsdNs → i.rem ∈ intNames → u.toInt s = some v →
      Wire.written u i s = some (if v < 0 then .int v else .uint v.toNat)) ∧
    (i.ns = xsdNs → i.rem ∈ decNames → ¬ DecForm u.strToInt s → Wire.written u i s = none) := by
  have hg : ∀ {n : Str}, i.ns = xsdNs → i.rem = n → i = ⟨xsdNs, n⟩ := fun h1 h2 => by
    obtain ⟨a, b⟩ := i
    rw [show a = xsdNs from h1, show b = _ from h2]
  have hint : i.ns = xsdNs → i.rem ∈ intNames → groupOf i = .int := by
    intro h1 h2
    simp only [intNames, List.map_cons, List.map_nil, List.mem_cons, List.not_mem_nil, or_false] at h2
    rcases h2 with e | e | e | e | e | e | e | e | e | e | e | e | e <;> rw [hg h1 e] <;> decide +kernel
  have hdec : i.ns = xsdNs → i.rem ∈ decNames → groupOf i = .dec := by
    intro h1 h2
    simp only [decNames, List.map_cons, List.map_nil, List.mem_cons, List.not_mem_nil, or_false] at h2
    rcases h2 with e | e | e <;> rw [hg h1 e] <;> decide +kernel
  refine ⟨fun h => ?_, ?_, ?_, ?_, ?_, ?_⟩
  · have : groupOf i = .str := by
      unfold groupOf
      rw [if_neg, if_neg, if_neg]
      · intro hm
        simp only [decDts, List.mem_cons, List.not_mem_nil, or_false] at hm
        rcases hm with e | e | e <;> (rw [e] at h; simp [xsd, decNames] at h)
      · intro hm
        simp only [intDts, List.mem_cons, List.not_mem_nil, or_false] at hm
        rcases hm with e | e | e | e | e | e | e | e | e | e | e | e | e <;> (rw [e] at h; simp [xsd, intNames] at h)
      · intro e
        rw [e] at h; simp [xsd] at h
    simp only [Wire.written, this, formOf]
  · rintro rfl rfl
    rw [Wire.written, show groupOf (xsd "boolean") = .bool by decide +kernel]
    simp [formOf, maybeBool, boolText]
  · rintro rfl rfl
    rw [Wire.written, show groupOf (xsd "boolean") = .bool by decide +kernel]
    have : ascii "false" ≠ ascii "true" := by decide
    simp [formOf, maybeBool, boolText, this]
  · intro h1 h2 h3
    simp only [Wire.written, hint h1 h2, formOf, maybeInt, h3]
  · intro v h1 h2 h3
    simp only [Wire.written, hint h1 h2, formOf, maybeInt, h3, intForm]
    by_cases h4 : v < 0
    · rw [if_pos h4, if_pos h4]
    · rw [if_neg h4, if_neg h4]
  · intro h1 h2 h3
    simp only [Wire.written, hdec h1 h2, formOf, maybeDec_str h3]

/-! ## Non-vacuity -/

/-- A check of sizes. -/
def smallOk (ids : Id → Option Nat) : Cell → Bool
  | .byte _ | .val _ | .int _ => true
  | .num n => n < 4294967296
  | .text s => s.length < 4294967296
  | .name off i => (ids i).all fun n => n + off < 4294967296

theorem small_of {ids : Id → Option Nat} {cs : List Cell} (h : cs.all (smallOk ids) = true) : ∀ c ∈ cs, c.Small ids := by
  intro c hc
  have := List.all_eq_true.1 h c hc
  cases c with
  | name off i => intro n hn; simpa [smallOk, hn] using this
  | num n => simpa [smallOk, Cell.Small] using this
  | text s => simpa [smallOk, Cell.Small] using this
  | _ => trivial

/-- The bytes of an annotated axiom with nested expressions: a class assertion (42) with
annotations (64), an intersection (0) of three, ..., and an anonymous individual. -/
example : Wire.bytes leb.varint leb.svarint (listIds prtNames) (ax (Wire.written leb) prtAxiom) =
      some ([106, 0, 3, 19, 9, 15, 0, 0, 2, 19, 12, 0, 3, 1, 14] ++ leb.svarint (-12) ++ [3, 1] ++
        [1, 5, 0, 1, 4, 99, 105, 97, 111, 2, 105, 116]) ∧
    ∀ c ∈ ax (Wire.written leb) prtAxiom, c.Small (listIds prtNames) :=
  ⟨by decide +kernel, small_of (by decide +kernel)⟩

/-- The conditions of `C125_read_partial` hold for it. -/
example : lebEnv.u.Lawful ∧ prtAxiom.Meets (prtContents lebEnv.u) ∧
    Indexed (listIds prtNames) ⟨[], prtNames⟩ prtAxiom.toObj ∧ ∀ c ∈ ax (Wire.written lebEnv.u) prtAxiom, c.Small (listIds prtNames) :=
  ⟨leb_lawful, prtAxiom_contents, prtAxiom_indexed, small_of (by decide +kernel)⟩

/-- The tables of the example. -/
def prtOntoTables : Decls := ((populate {} id prtOnto).decls).getD ⟨[], [], [], []⟩

/-- The layout of the example. -/
def prtOntoCells : List Cell :=
  doc (Wire.written leb) ⟨prtOntoTables.pfxs, prtOntoTables.nss, prtOntoTables.iris, prtOntoTables.anons⟩ prtOnto.iri prtOnto.version
    [exIri "i"] [exAnnot] [prtAxiom]

/-- The conditions of `C125_document_partial` hold for an ontology with prefixes, IRI,
version, import, annotation and axiom. -/
example : (populate {} id prtOnto).decls = some prtOntoTables ∧
    (prtOnto.onto.imports.getD []).map Ref.obj = [exIri "i"].map (fun i => .prim (.iri i)) ∧
    (prtOnto.onto.annot.getD []).map Ref.obj = [exAnnot].map Annot.toObj ∧
    (Func.collectAxioms prtOnto.onto).map Ref.obj = [prtAxiom].map Axiom.toObj ∧
    (∀ c ∈ prtOntoCells, c.Small (populate {} id prtOnto).sync.ids.idx) ∧
    (Wire.bytes leb.varint leb.svarint (populate {} id prtOnto).sync.ids.idx prtOntoCells).isSome := by
  have hi := reaches_inv prtOnto_reaches
  refine ⟨by decide +kernel, ?_, ?_, ?_, small_of (by decide +kernel), by decide +kernel⟩
  · rw [hi.imports]; rfl
  · rw [hi.annot]; rfl
  · rw [Func.collect_eq, List.perm_singleton.1 (axiomsOf_perm hi)]; rfl

/-- C125 is false as stated: of a cardinality with more than 31 bits, the first is not
Wire.written. -/
theorem C125_fails :
    ∃ c : CE, ∃ b, Wire.bytes leb.varint leb.svarint (listIds prtNames) (ce (Wire.written leb) c) = some b ∧
      (encObj leb (listIds prtNames) c.toObj).ok = true ∧ (encObj leb (listIds prtNames) c.toObj).bytes ≠ b :=
  ⟨.objCard .min 2147483649 (.prop ⟨ascii "http://ex.org/", ascii "p"⟩),
    [8, 130, 128, 128, 128, 16, 1], by decide +kernel, by decide +kernel, by decide +kernel⟩

end Cowl
