import Verif.Vocab
/-!
# The indices of ProtocOWL

Models `src/formats/protocowl/cowl_prt_index.c`. Allocation failure is not modelled;
counts are natural numbers (`ulib_uint` in C).
-/
namespace Cowl.Prt

/-- The vector and table common to `CowlPRTPrefixMap` and `CowlPRTIdMap` when encoding,
`cowl_prt_index.h:16-29`. A table entry without a value is one whose value has not been
set yet. -/
structure PVec (α : Type) where
  vec : List α := []
  tab : List (α × Option Nat) := []
  enc : Nat := 0
  sep : Nat := 0

section
variable {α : Type} [DecidableEq α]

/-- Outcome `ULIB_NO` of `uhash_put`: the key is there. -/
def PVec.has (m : PVec α) (x : α) : Bool := m.tab.any fun e => e.1 = x

/-- `prefix_map_add_encoding`, `cowl_prt_index.c:55-87`, without the table of prefixes,
and `id_map_add_encoding`, `232-256`. `first` is `prefix != NULL`, respectively `is_iri`. -/
def PVec.add (m : PVec α) (x : α) (first : Bool) : PVec α :=
  if m.has x then m
  else { m with
    tab := m.tab ++ [(x, none)]
    vec :=
      if first then
        match m.vec[m.sep]? with
        | some f => (m.vec ++ [f]).set m.sep x
        | none => m.vec ++ [x]
      else m.vec ++ [x]
    sep := if first then m.sep + 1 else m.sep }

/-- `uhmap_set_val` on the entry with the given key. -/
def setVal (tab : List (α × Option Nat)) (x : α) (i : Nat) : List (α × Option Nat) :=
  tab.map fun e => if e.1 = x then (e.1, some i) else e

/-- Loop of `prefix_map_sync_unencoded`, `cowl_prt_index.c:43-48`, and of
`id_map_sync_unencoded`, `209-214`: the items from position `i` on. -/
def syncLoop (tab : List (α × Option Nat)) : Nat → List α → List (α × Option Nat)
  | _, [] => tab
  | i, x :: xs => syncLoop (setVal tab x i) (i + 1) xs

/-- `prefix_map_sync_unencoded`, `cowl_prt_index.c:40-51`; `id_map_sync_unencoded`, `206-217`. -/
def PVec.sync (m : PVec α) : PVec α :=
  { m with tab := syncLoop m.tab m.enc (m.vec.drop m.enc), enc := m.vec.length, sep := m.vec.length }

/-- First view of `prefix_map_unencoded`, `cowl_prt_index.c:144-145`, and of
`id_map_unencoded`, `221-222`. -/
def PVec.firsts (m : PVec α) : List α := (m.vec.drop m.enc).take (m.sep - m.enc)

/-- Second view of the same functions, `cowl_prt_index.c:146`, `223`. -/
def PVec.seconds (m : PVec α) : List α := m.vec.drop m.sep

/-- `prefix_map_get_idx`, `cowl_prt_index.c:159-163`; `id_map_get_idx`, `226-230`. -/
def PVec.idx (m : PVec α) (x : α) : Option Nat := (m.tab.lookup x).join

end

/-! ## Prefixes -/

/-- Prefix and namespace of XML, `cowl_xml_vocab.c:24`. -/
def xmlNs : Str := ascii "http://www.w3.org/XML/1998/namespace"

/-- The standard prefixes in the order of `prefix_map_add_standard_prefixes`,
`cowl_prt_index.c:100-118`. -/
def stdPrefixes : List (Str × Str) :=
  [(ascii "rdf", rdfNs), (ascii "rdfs", rdfsNs), (ascii "xsd", xsdNs), (ascii "owl", owlNs), (ascii "xml", xmlNs)]

/-- `CowlPRTPrefixMap` when encoding. `prefs` is `_ns_to_prefix`. -/
structure NsMap where
  pv : PVec Str := {}
  prefs : List (Str × Str) := []

/-- `prefix_map_add_encoding`, `cowl_prt_index.c:54-87`. -/
def NsMap.add (m : NsMap) (ns : Str) (pfx : Option Str) : NsMap :=
  if m.pv.has ns then m
  else
    { pv := m.pv.add ns pfx.isSome
      prefs := match pfx with
        | some p => m.prefs ++ [(ns, p)]
        | none => m.prefs }

/-- `prefix_map_init` for encoding, `cowl_prt_index.c:120-135`. -/
def NsMap.init : NsMap :=
  let m := stdPrefixes.foldl (fun (m : NsMap) p => m.add p.2 (some p.1)) {}
  { m with pv := m.pv.sync }

/-- `prefix_map_get_prefix`, `cowl_prt_index.c:155-157`. -/
def NsMap.pfx (m : NsMap) (ns : Str) : Option Str := m.prefs.lookup ns

/-! ## The index -/

/-- What an id refers to: `CowlIRIOrAnonInd`. -/
inductive Id where
  | iri (i : Iri)
  | anon (s : Str)
  deriving DecidableEq

/-- The id of a primitive, `cowl_prt_index_add_primitive`, `cowl_prt_index.c:350-357`. -/
def idOf : Prim → Id
  | .iri i => .iri i
  | .ent _ i => .iri i
  | .anon s => .anon s

/-- `CowlPRTIndex` when encoding, `cowl_prt_index.h:32-35`. -/
structure Index where
  ns : NsMap := NsMap.init
  ids : PVec Id := {}

/-- `cowl_prt_index_add_prefix`, `cowl_prt_index.c:337-339`, when encoding. -/
def Index.addPrefix (x : Index) (ns pfx : Str) : Index := { x with ns := x.ns.add ns (some pfx) }

/-- `cowl_prt_index_add_primitive`, `cowl_prt_index.c:349-360`, when encoding, on an id. -/
def Index.addId (x : Index) : Id → Index
  | .iri i => { ns := x.ns.add i.ns none, ids := x.ids.add (.iri i) true }
  | .anon s => { x with ids := x.ids.add (.anon s) false }

/-- `cowl_prt_index_add_primitive`, `cowl_prt_index.c:349-360`, when encoding. -/
def Index.addPrim (x : Index) (p : Prim) : Index := x.addId (idOf p)

/-- `cowl_prt_index_reset_ids` and, if asked for, `cowl_prt_index_reset_prefixes`,
`cowl_prt_index.c:362-369`, as called by `encoder_reset`, `cowl_prt_encoder.c:69-73`. -/
def Index.reset (x : Index) (prefixes : Bool) : Index :=
  { ns := if prefixes then NsMap.init else x.ns, ids := {} }

/-- `CowlPRTIndex` when decoding. -/
structure DIndex where
  nss : List Str := stdPrefixes.map (·.2)
  ids : List Id := []

/-- `handle_reset_frame`, `cowl_prt_decoder.c:1228-1237`. -/
def DIndex.reset (x : DIndex) (prefixes ids : Bool) : DIndex :=
  { nss := if prefixes then stdPrefixes.map (·.2) else x.nss, ids := if ids then [] else x.ids }

/-! ## Declarations -/

/-- The declarations written by `encode_ns_decls` and `encode_id_decls`,
`cowl_prt_encoder.c:592-671`: prefixes with namespaces, namespaces, IRIs (index of the
namespace, remainder), anonymous individuals. -/
structure Decls where
  pfxs : List (Str × Str)
  nss : List Str
  iris : List (Nat × Str)
  anons : List Str
  deriving DecidableEq

/-- One IRI in `encode_iri_decls`, `cowl_prt_encoder.c:639-645`. -/
def iriDecl (ns : PVec Str) : Id → Option (Nat × Str)
  | .iri i => (ns.idx i.ns).map fun k => (k, i.rem)
  | .anon _ => none

/-- One individual in `encode_anon_id_decls`, `cowl_prt_encoder.c:655`. An IRI in its
place would be undefined behaviour. -/
def anonDecl : Id → Option Str
  | .anon s => some s
  | .iri _ => none

/-- The declarations due, `encode_ns_decls` and `encode_id_decls`,
`cowl_prt_encoder.c:621-632`, `660-671`. `none` is a failure; that the encoder writes part
of the declarations in that case is not modelled, as `C33` shows that none occurs. -/
def Index.decls (x : Index) : Option Decls :=
  (x.ns.pv.firsts.mapM fun n => (x.ns.pfx n).map fun p => (p, n)).bind fun pfxs =>
  (x.ids.firsts.mapM (iriDecl x.ns.pv.sync)).bind fun iris =>
  (x.ids.seconds.mapM anonDecl).map fun anons =>
  { pfxs, nss := x.ns.pv.seconds, iris, anons }

/-- The index once the declarations are written, `cowl_prt_index_unencoded_prefixes` and
`cowl_prt_index_unencoded_ids`, `cowl_prt_index.c:371-379`. -/
def Index.sync (x : Index) : Index := { ns := { x.ns with pv := x.ns.pv.sync }, ids := x.ids.sync }

/-- `cowl_iri` as a function to IRIs, `cowl_iri.c:91-145`: the parts are split anew. -/
def mkIri (ns rem : Str) : Iri := ⟨(iriOfParts ns rem).1, (iriOfParts ns rem).2⟩

/-- One IRI declaration, `decode_iri_decl`, `cowl_prt_decoder.c:1120-1142`. -/
def readIri (nss : List Str) (d : Nat × Str) : Option Id := nss[d.1]?.map fun n => .iri (mkIri n d.2)

/-- Reading declarations, `cowl_prt_decoder.c:1077-1177`. `anons` is empty if the encoder
leaves the anonymous individuals out. -/
def DIndex.read (d : DIndex) (x : Decls) : Option DIndex :=
  let nss := d.nss ++ x.pfxs.map (·.2) ++ x.nss
  (x.iris.mapM (readIri nss)).map fun is => { nss, ids := d.ids ++ is ++ x.anons.map .anon }

end Cowl.Prt
