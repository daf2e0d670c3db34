import Verif.FuncWStdLemmas
import Verif.FuncDocProps
/-!
# Property C90: the functional writer writes documents of the OWL 2 standard
-/
namespace Cowl
open Cowl.Std Cowl.Gram Cowl.Func Cowl.Prefix Cowl.FuncSpec Cowl.Change
open YOwn (Term)

/-- C90, in part: under the conditions of `DocOk`, what is written is a document of the standard, and in
the common part of the standard and the program. Missing: the other ontologies (`C90_fails`). -/
theorem C90_partial {o : OntoSt} (ho : DocOk o) : ∃ txt, writeDoc o = some txt ∧
    Document std ((lex txt).map termOf) ∧ Document { nary := false, mixed := false } ((lex txt).map termOf) :=
  ⟨_, doc_defined ho, words_mono common_std (written_common ho), written_common ho⟩

/-- C90, in part: it is therefore a sentence of the grammar of the program. -/
theorem C90_sentence_partial {o : OntoSt} (ho : DocOk o) : ∃ txt, writeDoc o = some txt ∧ Sentence ((lex txt).map termOf) := by
  obtain ⟨txt, h1, -, h3⟩ := C90_partial ho
  exact ⟨txt, h1, (C89_partial _ h3).1⟩

/-- Characters that begin no token are in no document. -/
theorem no_other {w : List Term} (h : Document std w) : Term.other ∉ w := by
  refine words_away (safe := fun _ => true) ?_ h rfl
  intro y _; cases y <;> rfl

/-- C90 fails: a namespace with a space makes the text of an ontology none of the standard; likewise the
prefix `_`. -/
theorem C90_fails : (∃ txt, writeDoc (withPrefix "ex" (ascii "urn:a b/")) = some txt ∧ ¬ Document std ((lex txt).map termOf)) ∧
    (∃ txt, writeDoc (withPrefix "_" exNs1) = some txt ∧ ¬ Document std ((lex txt).map termOf)) := by
  refine ⟨⟨_, rfl, fun h => no_other h ?_⟩, ⟨_, rfl, fun h => no_other h ?_⟩⟩ <;> decide +kernel

-- the conditions are met by an ontology with prefixes, name, import, annotation and axiom
example : DocOk docOnto := docOnto_ok

end Cowl
