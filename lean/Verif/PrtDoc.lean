import Verif.PrtRead
import Verif.FuncDoc
/-!
# ProtocOWL documents

Models the document part of `src/formats/protocowl/reader/cowl_prt_decoder.c` and of
`src/formats/protocowl/writer/cowl_prt_encoder.c`, without the streaming interface of the
latter (`Verif.PrtStream`). Streams and allocation do not fail, except where said.
-/
namespace Cowl.Prt
open Change
open Func (Item collectAxioms)

/-! ## Reader -/

/-- How reading ends: with OK; with another code of the handler, which is the result; after
an error in the input (its code is not distinguished); undefined behaviour. -/
inductive End where
  | done
  | refused (r : Ret)
  | rejected
  | ub
  deriving DecidableEq

/-- State of the decoder between frames, `CowlPRTDecoder`, `cowl_prt_decoder.c:26-32`,
with the context of the change handler. `code` is `error->code` while it is no error: OK or
NO. -/
structure FSt (σ : Type) where
  ctx : σ
  dec : DSt
  remove : Bool := false
  code : Ret := .ok

/-- Result of (a part of) a frame: go on, `decoder_ok`, or leave `decode_frames`. -/
inductive FRes (σ : Type) where
  | go (s : FSt σ)
  | stop (c : σ) (r : End)

/-- Go on with the rest of a frame. -/
def FRes.andThen {σ : Type} (r : FRes σ) (k : FSt σ → FRes σ) : FRes σ :=
  match r with
  | .go s => k s
  | .stop c e => .stop c e

section
variable {σ : Type}

/-- Reading something within a frame. -/
def FSt.get {α : Type} (s : FSt σ) (x : Dec α) (k : α → FSt σ → FRes σ) : FRes σ :=
  match x s.dec with
  | .ok a d => k a { s with dec := d }
  | .err => .stop s.ctx .rejected
  | .ub => .stop s.ctx .ub

/-- `decoder_handle_change`, `cowl_prt_decoder.c:73-80`, if there was no error. A change is
the item and whether it is a removal. An error ends the reading; `COWL_NO` is no error
(`decoder_ok`, `48-49`, and `cowl_ret_is_ok`, `include/cowl_ret.h:93-97`), it is stored
(`decoder_handle_error`, `63-69`), and the next code replaces it. -/
def deliver (h : Callback σ (Bool × Item)) (i : Item) (s : FSt σ) : FRes σ :=
  let r := h s.ctx (s.remove, i)
  if r.2.isErr then .stop r.1 (.refused r.2) else .go { s with ctx := r.1, code := r.2 }

/-- `decoder_state`, `cowl_prt_decoder.c:54-56`, after the last frame. -/
def ended (code : Ret) : End := if code = .ok then .done else .refused code

/-- The loops over the items of a frame. -/
def times (body : FSt σ → FRes σ) : Nat → FSt σ → FRes σ
  | 0, s => .go s
  | n + 1, s => (body s).andThen (times body n)

variable (E : Env) (h : Callback σ (Bool × Item))

/-- `register_prefix_decl`, `cowl_prt_decoder.c:1077-1085`: the namespace is added to the
index. -/
def pushNs (n : Str) : Dec Unit := fun s => .ok () { s with ix := { s.ix with nss := s.ix.nss ++ [n] } }

/-- `cowl_prt_index_add_primitive` when decoding, `cowl_prt_index.c:349-360` with `258-267`. -/
def pushId (i : Id) : Dec Unit := fun s => .ok () { s with ix := { s.ix with ids := s.ix.ids ++ [i] } }

/-- `decode_prefix_decl`, `cowl_prt_decoder.c:1087-1092`, up to the handler. -/
def decPfx : Dec (Str × Str) := do
  let p ← decStr E
  let n ← decStr E
  pushNs n
  pure (p, n)

/-- `decode_ns_decls`, `cowl_prt_decoder.c:1106-1107`, up to the code. -/
def decNs : Dec Unit := do
  let n ← decStr E
  pushNs n

/-- `cowl_prt_index_get_ns`, `cowl_prt_index.c:341-343`; NULL is an error in
`cowl_prt_decoder.c:1129-1133`. -/
def getNs (k : Nat) : Dec Str := fun s =>
  match s.ix.nss[k]? with
  | some n => .ok n s
  | none => .err

/-- `decode_iri_decl`, `cowl_prt_decoder.c:1120-1142`. -/
def decIriDecl : Dec Unit := do
  let k ← varint E
  let r ← decStr E
  let n ← getNs k
  pushId (.iri (mkIri n r))

/-- `decode_anon_decl`, `cowl_prt_decoder.c:1152-1161`. -/
def decAnonDecl : Dec Unit := do
  let s ← decStr E
  pushId (.anon s)

/-- The frames of declarations and the lists of items: a count, then the items. -/
def counted (body : FSt σ → FRes σ) (s : FSt σ) : FRes σ := s.get (varint E) fun n s => times body n s

/-- An item that is read without a handler call. -/
def quiet (x : Dec Unit) (s : FSt σ) : FRes σ := s.get x fun _ s => .go s

/-- Body of the loop of `decode_ns_decls`, `cowl_prt_decoder.c:1105-1109`: the code of
`cowl_prt_index_add_prefix`, which is OK, is stored. -/
def nsDecl (s : FSt σ) : FRes σ := s.get (decNs E) fun _ s => .go { s with code := .ok }

/-- `decode_prefix_decl`, `cowl_prt_decoder.c:1087-1092`, with `1077-1085`. -/
def prefixDecl (s : FSt σ) : FRes σ := s.get (decPfx E) fun d s => deliver h (.prefixDecl d.1 d.2) s

/-- Body of the loop of `decode_imports_frame`, `cowl_prt_decoder.c:1213-1216`. -/
def importItem (s : FSt σ) : FRes σ := s.get (decIri E) fun i s => deliver h (.import i) s

/-- Body of the loop of `decode_annotations_frame`, `cowl_prt_decoder.c:1202-1205`. The
depth of nesting is bounded by the length of the input. -/
def annotItem (s : FSt σ) : FRes σ :=
  s.get (decAnnot E (s.dec.inp.length + 1)) fun a s => deliver h (.annot a) s

/-- `decode_iri_version_frame`, `cowl_prt_decoder.c:1193-1196`, with `1179-1191`. -/
def iriVersion (version : Bool) (s : FSt σ) : FRes σ :=
  (s.get (decIri E) fun i s => deliver h (.iri i) s).andThen fun s =>
    if version then s.get (decIri E) fun i s => deliver h (.version i) s else .go s

/-- What follows an axiom that was read together with an error: the handler is called, but
its code is not stored, `decoder_handle_error`, `cowl_prt_decoder.c:63-69`. -/
def afterError (r : FRes σ) : FRes σ :=
  match r with
  | .go s => .stop s.ctx .rejected
  | .stop c _ => .stop c .rejected

/-- `decode_axiom_frame`, `cowl_prt_decoder.c:1069-1075`. -/
def axiomFrame (c : UInt8) (s : FSt σ) : FRes σ :=
  s.get (decAxiom E (s.dec.inp.length + 1) c) fun a s =>
    if a.2 then deliver h (.ax a.1) s else afterError (deliver h (.ax a.1) s)

/-- Bit 6 of a header. -/
def bit6 (c : UInt8) : Bool := c.toNat / 64 % 2 = 1

/-- Bit 7 of a header. -/
def bit7 (c : UInt8) : Bool := c.toNat / 128 = 1

/-- `decode_frame`, `cowl_prt_decoder.c:1245-1266`, after the header `c`. -/
def frameOf (c : UInt8) (s : FSt σ) : FRes σ :=
  match c.toNat % 64 with
  | 0 => .go { s with remove := false }
  | 1 => .go { s with remove := true }
  | 2 => .go { s with dec := { s.dec with ix := s.dec.ix.reset (bit6 c) (bit7 c) },
                      code := if bit6 c || bit7 c then .ok else s.code }
  | 3 => .stop s.ctx (ended s.code)
  | 4 => if bit6 c then counted E (prefixDecl E h) s else counted E (nsDecl E) s
  | 5 => if bit6 c then counted E (quiet (decIriDecl E)) s else counted E (quiet (decAnonDecl E)) s
  | 6 => iriVersion E h (bit7 c) s
  | 7 => counted E (importItem E h) s
  | 8 => counted E (annotItem E h) s
  | _ => axiomFrame E h c s

/-- `decode_frame`, `cowl_prt_decoder.c:1239-1267`: without a header it is over. -/
def frame (s : FSt σ) : FRes σ :=
  match s.dec.inp with
  | [] => .stop s.ctx (ended s.code)
  | c :: r => frameOf E h c { s with dec := { s.dec with inp := r } }

/-- `decode_frames`, `cowl_prt_decoder.c:1269-1271`. The first argument bounds the number
of frames; the bound is not reached if it exceeds the length of the input
(`C39_terminates`). -/
def frames : Nat → FSt σ → σ × End
  | 0, s => (s.ctx, .rejected)
  | n + 1, s =>
    match frame E h s with
    | .go s => frames n s
    | .stop c r => (c, r)

/-- `read_ontology`, `cowl_prt_decoder.c:1280-1294`, with `decode_header`, `1273-1278`. -/
def prtRead (text : Str) (ctx : σ) : σ × End :=
  match text with
  | [] => (ctx, .rejected)
  | c :: r => if c = 1 then frames E h (r.length + 1) { ctx, dec := { inp := r } } else (ctx, .rejected)

end

/-- The part of an ontology that an item describes; the objects that the reader creates are
new, and `n` is their address. -/
def itemPart (n : Nat) : Item → Part
  | .prefixDecl p s => .prefixDecl ⟨n, p⟩ s
  | .iri i => .iri i
  | .version i => .version i
  | .import i => .import ⟨n, .prim (.iri i)⟩
  | .annot o => .annot ⟨n, o⟩
  | .ax o => .ax ⟨n, o⟩

/-- `cowl_change_handler_to_ontology`, `cowl_change_handler.c:54-70`, with the next address.
The state is lost after undefined behaviour. -/
def changeHandler : Callback (Option (OntoSt × Nat)) (Bool × Item) := fun s x =>
  match s with
  | none => (none, .ok)
  | some (o, n) =>
    if x.1 then
      match removePart o (itemPart n x.2) with
      | none => (none, .ok)
      | some r => (some (r.1, n + 1), r.2)
    else
      let r := addPart o (itemPart n x.2)
      (some (r.1, n + 1), r.2)

/-! ## Writer -/

/-- Calls in sequence, up to the first one after which `e->state` is an error. -/
def untilErr : List Out → Out
  | [] => {}
  | x :: xs => if x.ok then x ++ untilErr xs else x

section
variable (u : Ulib)

/-- A frame with a count and items, if there are any. -/
def listFrame (c : UInt8) (xs : List Out) : Out :=
  if xs.length = 0 then {} else raw [c] ++ vint u xs.length ++ cat xs

/-- `encode_ns_decls` and `encode_id_decls`, `cowl_prt_encoder.c:621-632`, `660-671`, with
`592-658`; `anon` is `encode_anon`. -/
def encDecls (anon : Bool) (d : Decls) : Out :=
  cat [listFrame u 68 (d.pfxs.map fun p => encStr u p.1 ++ encStr u p.2),
    listFrame u 4 (d.nss.map (encStr u)),
    listFrame u 69 (d.iris.map fun i => vint u i.1 ++ encStr u i.2),
    if anon then listFrame u 5 (d.anons.map (encStr u)) else {}]

variable (ids : Id → Option Nat)

/-- `encode_iri_version`, `cowl_prt_encoder.c:673-680`. -/
def encIriVersion (iri version : Option Iri) : Out :=
  match iri, version with
  | none, _ => {}
  | some i, none => raw [6] ++ encId u ids 0 (.iri i)
  | some i, some v => raw [134] ++ encId u ids 0 (.iri i) ++ encId u ids 0 (.iri v)

/-- `encode_import`, `cowl_prt_encoder.c:682-685`; imports are IRIs (anything else is
undefined behaviour, an error here). -/
def encImport : Obj → Out
  | .prim (.iri i) => encId u ids 0 (.iri i)
  | _ => { ok := false }

/-- `encode_onto_imports`, `cowl_prt_encoder.c:700-709`; the iteration stops at the first
error. -/
def encImports (xs : List Obj) : Out :=
  if xs.length = 0 then {} else raw [7] ++ vint u xs.length ++ untilErr (xs.map (encImport u ids))

/-- `encode_onto_annotations`, `cowl_prt_encoder.c:711-718`. -/
def encAnnots (xs : List Obj) : Out := listFrame u 8 (xs.map (encObj u ids))

/-- `encode_onto_axioms`, `cowl_prt_encoder.c:720-724`. -/
def encAxioms (xs : List Obj) : Out := untilErr (xs.map (encObj u ids))

/-- `encode_data`, `cowl_prt_encoder.c:726-734`, with the index afterwards. -/
def encData (anon : Bool) (x : Index) (o : OntoSt) : Out × Index :=
  match x.decls with
  | none => ({ ok := false }, x)
  | some d =>
    let y := x.sync
    (untilErr [encDecls u anon d, encIriVersion u y.ids.idx o.iri o.version,
      encImports u y.ids.idx ((o.onto.imports.getD []).map Ref.obj),
      encAnnots u y.ids.idx ((o.onto.annot.getD []).map Ref.obj),
      encAxioms u y.ids.idx ((collectAxioms o.onto).map Ref.obj)], y)

end

/-- `for_each_primitive`, `cowl_prt_encoder.c:87-89`, with `83-85`. -/
def addCb : Callback Index Prim := fun x p => (x.addPrim p, .ok)

/-- The index after the primitives of an object. -/
def Index.addObj (x : Index) (o : Obj) : Index := (iterPrims Masks.pfAll addCb o x).1

/-- The index after a name that may be missing. -/
def Index.addOpt (x : Index) (i : Option Iri) : Index :=
  match i with
  | some i => x.addPrim (.iri i)
  | none => x

/-- An import as a primitive: it is passed to the iterator as it is. -/
def addImportCb : Callback Index Ref := fun x r =>
  match r.obj with
  | .prim p => (x.addPrim p, .ok)
  | _ => (x, .ok)

/-- `populate_index`, `cowl_prt_encoder.c:91-117`; `order` is the order of the hash tables
of primitives. -/
def populate (x : Index) (order : List Prim → List Prim) (o : OntoSt) : Index :=
  let x := o.pm.fwd.foldl (fun x e => x.addPrefix e.2 e.1.txt) x
  let x := (x.addOpt o.iri).addOpt o.version
  let x := (o.onto.iterPrimitives order Masks.pfAll addCb x).1
  (o.onto.iterImports addImportCb x).1

/-- `e->state` after calls in sequence up to the first that fails. -/
def firstErr : List Ret → Ret
  | [] => .ok
  | r :: rs => if r = .ok then firstErr rs else r

/-- `encoder_reset`, `cowl_prt_encoder.c:69-73`: `e->state` before and after; `r` is the
result of the allocations in it. -/
def resetState (_state r : Ret) : Ret := r

/-- `encoder_state`, `cowl_prt_encoder.c:75-77`. -/
def stateCode (state stream : Ret) : Ret := if state = .ok then stream else state

/-- What `write_ontology` returns, `cowl_prt_encoder.c:736-748`, if its steps `encoder_reset`,
`populate_index`, `encode_protocol_version` and `encode_data` end as given. -/
def writeCode (steps : List Ret) (reset stream : Ret) : Ret :=
  stateCode (resetState (firstErr steps) reset) stream

/-- `write_ontology`, `cowl_prt_encoder.c:736-748`: the bytes and the result. The stream
takes `cap` bytes and fails from then on (it keeps its state, ulib); the encoder stops
then, which makes no difference to what was written. The error of the encoder is
overwritten by `encoder_reset` at the end, that of the stream is not. -/
def writeOntology (u : Ulib) (anon : Bool) (order : List Prim → List Prim) (o : OntoSt) (cap : Nat) : Str × Ret :=
  let b := 1 :: (encData u anon (populate {} order o) o).1.bytes
  (b.take cap, if b.length ≤ cap then .ok else .errIo)

end Cowl.Prt
