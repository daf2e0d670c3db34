import Verif.Change
/-!
# Writers

Models the dispatch of `src/cowl_writer.c`. An implementation of a writer is a set of
functions from its state, which includes the stream, to a new state and a code.
-/
namespace Cowl.Writer
open Cowl.Change

/-- `CowlOntologyHeader`, `include/cowl_ontology_header.h:27-44`, of an ontology. -/
structure Header where
  pm : Prefix.PMap
  iri : Option Iri
  version : Option Iri
  imports : List Ref
  annots : List Ref

/-- `CowlWriterImpl`, `include/cowl_writer.h:39-118`, without `write` and `free`; `none` is
NULL. -/
structure Impl (σ : Type) where
  header : Option (Callback σ Header)
  ax : Option (Callback σ Ref)
  footer : Option (σ → σ × Ret)
  onto : Option (Callback σ OntoSt)

variable {σ : Type}

/-- `cowl_writer_can_write_stream`, `cowl_writer.c:65-67`. -/
def Impl.canStream (w : Impl σ) : Bool := w.header.isSome && w.ax.isSome && w.footer.isSome

/-- `cowl_writer_can_write_ontology`, `cowl_writer.c:73-75`. -/
def Impl.canOnto (w : Impl σ) : Bool := w.onto.isSome

/-- `cowl_writer_write_header`, `cowl_writer.c:143-146`. -/
def Impl.writeHeader (w : Impl σ) : Callback σ Header := fun s h =>
  match w.header with
  | none => (s, .err)
  | some f => f s h

/-- `cowl_writer_write_axiom`, `cowl_writer.c:148-151`. -/
def Impl.writeAxiom (w : Impl σ) : Callback σ Ref := fun s x =>
  match w.ax with
  | none => (s, .err)
  | some f => f s x

/-- `cowl_writer_write_footer`, `cowl_writer.c:153-156`. -/
def Impl.writeFooter (w : Impl σ) (s : σ) : σ × Ret :=
  match w.footer with
  | none => (s, .err)
  | some f => f s

/-- The header that `write_ontology_stream`, `cowl_writer.c:94-107`, passes on. Collecting the
imports does not fail. -/
def headerOf (o : OntoSt) : Header := ⟨o.pm, o.iri, o.version, o.onto.imports.getD [], o.onto.annot.getD []⟩

/-- `write_ontology_stream`, `cowl_writer.c:92-121`. -/
def Impl.writeStream (w : Impl σ) (o : OntoSt) (s : σ) : σ × Ret :=
  let r := w.writeHeader s (headerOf o)
  if r.2 ≠ .ok then r
  else
    let r := o.onto.iterAxioms w.writeAxiom r.1
    if r.2.isErr then r else w.writeFooter r.1

/-- `cowl_writer_write_ontology`, `cowl_writer.c:123-131`. -/
def Impl.writeOntology (w : Impl σ) (o : OntoSt) (s : σ) : σ × Ret :=
  match w.onto with
  | some f => f s o
  | none => if w.canStream then w.writeStream o s else (s, .err)

/-- `cowl_writer_write_ontology_to_path`, `cowl_writer.c:133-141`; `oret` is the code of
opening the stream, `uret` that of closing it. -/
def Impl.writeToPath (w : Impl σ) (oret uret : Ret) (o : OntoSt) (s : σ) : σ × Ret :=
  if oret.isErr then (s, oret)
  else
    let r := w.writeOntology o s
    (r.1, if r.2.isErr then r.2 else uret)

end Cowl.Writer
