import Verif.PrtDoc
/-!
# Streaming in ProtocOWL

Models the streaming interface of `src/formats/protocowl/writer/cowl_prt_encoder.c`. Streams
and allocation do not fail; counts are natural numbers (`ulib_uint` in C).
-/
namespace Cowl.Prt
open Change
open Func (collectAxioms)

/-- A new `e->to_flush`, `flush_state_empty`, `cowl_prt_encoder.c:57-67`. Its prefix map is
never used and left empty here. -/
def emptyBuf : OntoSt := ⟨⟨[], [], false⟩, none, none, { Onto.empty with disabled := true }⟩

/-- `CowlPRTEncoder`, `cowl_prt_encoder.c:34-42`, with the bytes written so far. The size of
the index and `encode_anon` are parameters, `e->state` is OK: see `SSt.flush`. -/
structure SSt where
  x : Index := {}
  buf : OntoSt := emptyBuf
  cur : Nat := 0
  out : Str := []

section
variable (u : Ulib) (anon : Bool) (size : Nat)

/-- `stream_encoder_flush`, `cowl_prt_encoder.c:750-753`. `none` is an error of
`encode_data`; what is written in that case is not modelled, as C36 shows that none occurs. -/
def SSt.flush (s : SSt) : Option SSt :=
  let r := encData u anon s.x s.buf
  if r.1.ok then some { x := r.2, out := s.out ++ r.1.bytes } else none

/-- Header of a reset frame, `cowl_prt_encoder.c:759-764`; ids are always reset. -/
def resetByte (prefixes : Bool) : UInt8 := if prefixes then 194 else 130

/-- `stream_encoder_write_reset_frame`, `cowl_prt_encoder.c:759-764`, followed by
`encoder_reset`, `69-73`. -/
def SSt.reset (s : SSt) (prefixes : Bool) : SSt :=
  { x := s.x.reset prefixes, out := s.out ++ [resetByte prefixes] }

/-- `prefix_count` in `encoder_should_flush`, `cowl_prt_encoder.c:767-768`; there are always
the standard ones. -/
def SSt.prefixCount (s : SSt) : Nat := s.x.ns.pv.vec.length - stdPrefixes.length

/-- `stream_encoder_flush_if_needed`, `cowl_prt_encoder.c:782-793`, with
`encoder_should_flush`, `766-780`. -/
def SSt.flushIfNeeded (s : SSt) : Option SSt :=
  if size < s.prefixCount + s.x.ids.vec.length then
    (s.flush u anon).map fun t => t.reset (size / 4 < s.prefixCount)
  else if size < s.cur then s.flush u anon
  else some s

/-- `axiom_adder`, `cowl_prt_encoder.c:795-797`. -/
def OntoSt.withAxiom (o : OntoSt) (x : Ref) : OntoSt := { o with onto := o.onto.addAxiom x }
/-- `import_adder`, `cowl_prt_encoder.c:799-801`. -/
def OntoSt.withImport (o : OntoSt) (x : Ref) : OntoSt := { o with onto := o.onto.addImport x }
/-- `annot_adder`, `cowl_prt_encoder.c:803-805`. -/
def OntoSt.withAnnot (o : OntoSt) (x : Ref) : OntoSt := { o with onto := o.onto.addAnnot x }

/-- `stream_encoder_add`, `cowl_prt_encoder.c:807-814`. -/
def SSt.add (adder : OntoSt → Ref → OntoSt) (s : SSt) (x : Ref) : Option SSt :=
  ({ s with x := s.x.addObj x.obj, buf := adder s.buf x, cur := s.cur + 1 } : SSt).flushIfNeeded u anon size

/-- Body of the loop of `stream_encode_prefixes`, `cowl_prt_encoder.c:819-821`. -/
def SSt.addPrefix (s : SSt) (e : Str × Str) : Option SSt :=
  ({ s with x := s.x.addPrefix e.2 e.1 } : SSt).flushIfNeeded u anon size

/-- `stream_encode_iri_version`, `cowl_prt_encoder.c:825-834`. -/
def SSt.addId (s : SSt) (iri version : Option Iri) : Option SSt :=
  (match iri, version with
    | none, _ => s
    | some i, none => { s with buf := { s.buf with iri := some i }, x := s.x.addPrim (.iri i) }
    | some i, some v => { s with
        buf := { s.buf with iri := some i, version := some v }
        x := (s.x.addPrim (.iri i)).addPrim (.iri v) } : SSt).flushIfNeeded u anon size

/-- `CowlOntologyHeader`, `include/cowl_ontology_header.h:27-44`; prefixes in the order of the table. -/
structure Header where
  prefixes : List (Str × Str)
  iri : Option Iri
  version : Option Iri
  imports : List Ref
  annots : List Ref

/-- `write_header`, `cowl_prt_encoder.c:855-869`, on an encoder in any state. -/
def writeHeader (h : Header) : Option SSt :=
  (h.prefixes.foldlM (SSt.addPrefix u anon size) { out := [1] }).bind fun s =>
  (s.addId u anon size h.iri h.version).bind fun s =>
  (h.imports.foldlM (SSt.add u anon size OntoSt.withImport) s).bind fun s =>
  h.annots.foldlM (SSt.add u anon size OntoSt.withAnnot) s

/-- `write_axiom`, `cowl_prt_encoder.c:875-880`, with `871-873`. -/
def SSt.writeAxiom (s : SSt) (x : Ref) : Option SSt := s.add u anon size OntoSt.withAxiom x

/-- `write_footer`, `cowl_prt_encoder.c:882-890`: the bytes in the end. -/
def SSt.writeFooter (s : SSt) : Option Str := (s.flush u anon).map fun t => t.out ++ [3]

/-- A document that is written incrementally: header, axioms one by one, footer. -/
def writeStream (h : Header) (axioms : List Ref) : Option Str :=
  (writeHeader u anon size h).bind fun s =>
  (axioms.foldlM (SSt.writeAxiom u anon size) s).bind (SSt.writeFooter u anon)

/-- What can follow the header: `cowl_writer_write_axiom`, `cowl_writer.c:148-151`, and the
frames of `include/cowl_writer.h:138-213`. -/
inductive SOp where
  | ax (x : Ref)
  | addFrame
  | removeFrame
  | resetFrame (prefixes : Bool)

/-- A control frame, after what is due: `cowl_prt_encoder.c:930-937`, `939-946`, `755-757`. -/
def SSt.ctrl (c : UInt8) (s : SSt) : Option SSt :=
  (s.flush u anon).map fun t => { t with out := t.out ++ [c] }

/-- An operation: `write_axiom`, `cowl_prt_encoder.c:875-880`;
`cowl_writer_protocowl_write_add_frame`, `930-937`; `cowl_writer_protocowl_write_remove_frame`,
`939-946`; `cowl_writer_protocowl_write_reset_frame`, `948-957`. -/
def SSt.op (s : SSt) : SOp → Option SSt
  | .ax x => s.writeAxiom u anon size x
  | .addFrame => s.ctrl u anon 0
  | .removeFrame => s.ctrl u anon 1
  | .resetFrame p => (s.flush u anon).map fun t => t.reset p

/-- A stream of updates: header, operations, footer. -/
def writeSession (h : Header) (ops : List SOp) : Option Str :=
  (writeHeader u anon size h).bind fun s =>
  (ops.foldlM (SSt.op u anon size) s).bind (SSt.writeFooter u anon)

end

/-- The header of an ontology, `write_ontology_stream`, `cowl_writer.c:92-108`. -/
def headerOf (o : OntoSt) : Header :=
  ⟨o.pm.fwd.map fun e => (e.1.txt, e.2), o.iri, o.version, o.onto.imports.getD [], o.onto.annot.getD []⟩

/-- `cowl_writer_write_ontology`, `cowl_writer.c:123-131`, with `92-121`, for a ProtocOWL
writer with a bounded index, whose `write_ontology` is NULL (`cowl_prt_encoder.c:911-922`). -/
def writeBounded (u : Ulib) (anon : Bool) (size : Nat) (o : OntoSt) : Option Str :=
  writeStream u anon size (headerOf o) (collectAxioms o.onto)

end Cowl.Prt
