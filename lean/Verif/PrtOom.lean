import Verif.PrtStream
/-!
# Failures while ProtocOWL is written incrementally

Models the streaming interface of `src/formats/protocowl/writer/cowl_prt_encoder.c`, as
`Verif.PrtStream`, with requests for memory that may fail, a stream that takes only so many bytes,
and the code each call returns. `none` is undefined behaviour.

Simplified:
* A name that cannot be added to the index is not in it afterwards; C82 has the details.
* An object that cannot be added to the buffer is not in it afterwards; C73 has the details.
* After the stream failed, more may be encoded here than in C. It makes no difference to what is
  written, and every code is an error as long as the stream is used.
-/
namespace Cowl.POom
open Prt Change

/-- What happens to the memory one step asks for: there is enough, or there is none. `half`: there is
enough for the namespace of an IRI, but not for the IRI; it is the same as `none` elsewhere. -/
inductive Got where
  | all
  | half
  | none
  deriving DecidableEq, Repr

/-- `CowlPRTEncoder`, `cowl_prt_encoder.c:34-42`, with what was passed to the stream and what will
happen to requests for memory; those that nothing is known about succeed. -/
structure MSt where
  x : Index := {}
  buf : Option OntoSt := none
  cur : Nat := 0
  state : Ret := .ok
  out : Str := []
  mem : List Got := []

/-- The next request for memory. -/
def MSt.got (s : MSt) : Got := s.mem.headD .all

/-- After the next request for memory. -/
def MSt.used (s : MSt) : MSt := { s with mem := s.mem.tail }

section
variable (u : Ulib) (anon : Bool) (size cap : Nat)

/-- `encoder_state`, `cowl_prt_encoder.c:75-77`; the stream takes `cap` bytes. -/
def MSt.code (s : MSt) : Ret := if s.state ≠ .ok then s.state else if s.out.length ≤ cap then .ok else .errIo

/-- Bytes that are written. -/
def MSt.put (s : MSt) (b : Str) : MSt := { s with out := s.out ++ b }

/-- `flush_state_empty`, `cowl_prt_encoder.c:57-67`. -/
def MSt.flushEmpty (s : MSt) : MSt :=
  if s.got = .all then { s.used with buf := some emptyBuf, cur := 0 }
  else { s.used with buf := none, state := .errMem }

/-- `encoder_reset`, `cowl_prt_encoder.c:69-73`. What a failed reset of prefixes leaves is told in
C82; here it is what one that succeeds leaves. -/
def MSt.reset (s : MSt) (prefixes : Bool) : MSt :=
  if prefixes then
    if s.got = .all then ({ s.used with x := s.x.reset true, state := .ok } : MSt).flushEmpty
    else { s.used with x := s.x.reset true, state := .errMem }
  else ({ s with x := s.x.reset false, state := .ok } : MSt).flushEmpty

/-- `encode_ns_decls`, `cowl_prt_encoder.c:621-632`. A namespace without its prefix, which is an
error, does not occur (C33) and gives nothing here. -/
def nsDecls (x : Index) : Out :=
  match x.ns.pv.firsts.mapM fun n => (x.ns.pfx n).map fun p => (p, n) with
  | some ps => cat [listFrame u 68 (ps.map fun p => encStr u p.1 ++ encStr u p.2),
      listFrame u 4 (x.ns.pv.seconds.map (encStr u))]
  | none => {}

/-- `encode_ns_decls` and `encode_id_decls`, `cowl_prt_encoder.c:621-632`, `660-671`. -/
def decls (x : Index) : Out :=
  match x.decls with
  | some d => encDecls u anon d
  | none => { ok := false }

/-- `encode_data`, `cowl_prt_encoder.c:726-734`, called by `stream_encoder_flush`, `750-753`. If there
was an error, `encoder_state` ends it after the namespaces. Otherwise the ontology is used as soon as
the names are declared; it may be NULL. -/
def MSt.data (s : MSt) : Option MSt :=
  if s.state ≠ .ok then
    some { (s.put (nsDecls u s.x).bytes) with x := { s.x with ns := { s.x.ns with pv := s.x.ns.pv.sync } } }
  else
    match s.buf with
    | some b =>
      let r := encData u anon s.x b
      some { (s.put r.1.bytes) with x := r.2, state := if r.1.ok then .ok else .err }
    | none =>
      let d := decls u anon s.x
      if !d.ok then some { (s.put d.bytes) with x := s.x.sync, state := .err }
      else if (s.out ++ d.bytes).length ≤ cap then none
      else some { (s.put d.bytes) with x := s.x.sync }

/-- `stream_encoder_flush`, `cowl_prt_encoder.c:750-753`. -/
def MSt.flush (s : MSt) : Option MSt := (s.data u anon cap).map MSt.flushEmpty

/-- `prefix_count` in `encoder_should_flush`, `cowl_prt_encoder.c:767-768`. -/
def MSt.prefixCount (s : MSt) : Nat := s.x.ns.pv.vec.length - stdPrefixes.length

/-- `stream_encoder_flush_if_needed`, `cowl_prt_encoder.c:782-793`, with `766-780`; the code is
`MSt.code` of the result. -/
def MSt.flushIfNeeded (s : MSt) : Option MSt :=
  if size < s.prefixCount + s.x.ids.vec.length then
    (s.flush u anon cap).map fun t =>
      (t.put [resetByte (size / 4 < s.prefixCount)]).reset (size / 4 < s.prefixCount)
  else if size < s.cur then s.flush u anon cap
  else some s

/-- A state with its code. -/
def coded (s : Option MSt) : Option (MSt × Ret) := s.map fun t => (t, t.code cap)

/-- `encoder_add_primitive`, `cowl_prt_encoder.c:83-85`. -/
def MSt.addPrim (s : MSt) (p : Prim) : MSt :=
  match s.got with
  | .all => { s.used with x := s.x.addPrim p, state := .ok }
  | .half => { s.used with
      x := match idOf p with
        | .iri i => { s.x with ns := s.x.ns.add i.ns none }
        | .anon _ => s.x
      state := .errMem }
  | .none => { s.used with state := .errMem }

/-- `for_each_primitive`, `cowl_prt_encoder.c:87-89`. -/
def primCb : Callback MSt Prim := fun s p => (s.addPrim p, (s.addPrim p).state)

/-- `stream_encoder_add`, `cowl_prt_encoder.c:807-814`; `adder` is one of `795-805`, which use the
buffer whether it is NULL or not. -/
def MSt.add (adder : OntoSt → Ref → OntoSt) (s : MSt) (x : Ref) : Option (MSt × Ret) :=
  let r := iterPrims Masks.pfAll primCb x.obj s
  if r.2 ≠ .ok then some (r.1, r.1.state)
  else
    match r.1.buf with
    | none => none
    | some b =>
      if r.1.got = .all then
        coded cap (({ r.1.used with buf := some (adder b x), state := .ok, cur := r.1.cur + 1 } : MSt).flushIfNeeded
          u anon size cap)
      else some ({ r.1.used with state := .errMem }, .errMem)

/-- Body of the loop of `stream_encode_prefixes`, `cowl_prt_encoder.c:819-821`, with
`encoder_add_prefix`, `79-81`. -/
def MSt.addPrefix (s : MSt) (e : Str × Str) : Option (MSt × Ret) :=
  if s.got = .all then
    coded cap (({ s.used with x := s.x.addPrefix e.2 e.1, state := .ok } : MSt).flushIfNeeded u anon size cap)
  else some ({ s.used with state := .errMem }, .errMem)

/-- `stream_encode_iri_version`, `cowl_prt_encoder.c:825-834`, up to `end`. -/
def MSt.setId (s : MSt) (iri version : Option Iri) : Option MSt :=
  match iri with
  | none => some s
  | some i =>
    match s.buf with
    | none => none
    | some b =>
      let s := ({ s with buf := some { b with iri := some i } } : MSt).addPrim (.iri i)
      if s.state ≠ .ok then some s
      else
        match version with
        | none => some s
        | some v => some (({ s with buf := some { b with iri := some i, version := some v } } : MSt).addPrim (.iri v))

/-- `stream_encode_iri_version`, `cowl_prt_encoder.c:825-834`. -/
def MSt.addId (s : MSt) (iri version : Option Iri) : Option (MSt × Ret) :=
  (s.setId iri version).bind fun t => coded cap (t.flushIfNeeded u anon size cap)

end

/-- Go on unless the code is an error, or otherwise not OK. -/
def andThen (r : Option (MSt × Ret)) (k : MSt → Option (MSt × Ret)) : Option (MSt × Ret) :=
  r.bind fun x => if x.2 = .ok then k x.1 else some x

/-- A loop that is left when the code is not OK, e.g. `cowl_prt_encoder.c:839-841`. -/
def loop {α : Type} (body : MSt → α → Option (MSt × Ret)) : List α → MSt → Option (MSt × Ret)
  | [], s => some (s, .ok)
  | a :: l, s => andThen (body s a) (loop body l)

section
variable (u : Ulib) (anon : Bool) (size cap : Nat)

/-- `write_header`, `cowl_prt_encoder.c:855-869`, with `816-853`. The code is that of
`encoder_state`: it is the code of the step that failed. -/
def MSt.header (s : MSt) (h : Header) : Option (MSt × Ret) :=
  andThen (coded cap (some (s.reset true))) fun s =>
  andThen (coded cap (some (s.put [1]))) fun s =>
  andThen (loop (MSt.addPrefix u anon size cap) h.prefixes s) fun s =>
  andThen (s.addId u anon size cap h.iri h.version) fun s =>
  andThen (loop (MSt.add u anon size cap OntoSt.withImport) h.imports s) fun s =>
  loop (MSt.add u anon size cap OntoSt.withAnnot) h.annots s

/-- `write_footer`, `cowl_prt_encoder.c:882-890`. -/
def MSt.footer (s : MSt) : Option (MSt × Ret) :=
  coded cap ((s.flush u anon cap).map fun t => (t.put [3]).reset true)

/-- `write_axiom`, `cowl_prt_encoder.c:875-880`, and the frames, `930-957`. -/
def MSt.op (s : MSt) : SOp → Option (MSt × Ret)
  | .ax x => s.add u anon size cap OntoSt.withAxiom x
  | .addFrame => coded cap ((s.flush u anon cap).map fun t => t.put [0])
  | .removeFrame => coded cap ((s.flush u anon cap).map fun t => t.put [1])
  | .resetFrame p => coded cap ((s.flush u anon cap).map fun t => (t.put [resetByte p]).reset p)

/-- A stream of updates by a caller that stops at the first code other than OK. -/
def MSt.session (s : MSt) (h : Header) (ops : List SOp) : Option (MSt × Ret) :=
  andThen (s.header u anon size cap h) fun s =>
  andThen (loop (MSt.op u anon size cap) ops s) fun s => s.footer u anon cap

/-- Operations by a caller that goes on: all codes. -/
def MSt.ops : List SOp → MSt → Option (MSt × List Ret)
  | [], s => some (s, [])
  | o :: l, s => (s.op u anon size cap o).bind fun x => (MSt.ops l x.1).map fun y => (y.1, x.2 :: y.2)

/-- The same with header and footer. -/
def MSt.sessionAll (s : MSt) (h : Header) (ops : List SOp) : Option (MSt × List Ret) :=
  (s.header u anon size cap h).bind fun x =>
  (MSt.ops u anon size cap ops x.1).bind fun y =>
  (y.1.footer u anon cap).map fun z => (z.1, x.2 :: y.2 ++ [z.2])

end

end Cowl.POom
