import Verif.PrtIndex
import Verif.PrtNum
import Verif.Literal
/-!
# Writing constructs in ProtocOWL

Models the construct part of `src/formats/protocowl/writer/cowl_prt_encoder.c`. The
output stream and allocation do not fail.
-/
namespace Cowl.Prt

/-- What a call of an encoding function does: the bytes it writes, and whether it leaves
`e->state` alone (false: it sets it to `COWL_ERR`, `cowl_prt_encoder.c:149`). Encoding
goes on after an error. -/
structure Out where
  bytes : Str := []
  ok : Bool := true
  deriving DecidableEq

/-- One call after another. -/
def Out.append (a b : Out) : Out := ⟨a.bytes ++ b.bytes, a.ok && b.ok⟩

instance : Append Out := ⟨Out.append⟩

/-- Calls in sequence. -/
def cat : List Out → Out
  | [] => {}
  | x :: xs => x ++ cat xs

/-- `write_bytes`, `cowl_prt_encoder.c:119-121`. -/
def raw (s : Str) : Out := { bytes := s }

/-- Conversion to `ulib_uint`. -/
def u32 (n : Nat) : Nat := n % 4294967296

/-- `write_varint`, `cowl_prt_encoder.c:123-125`. -/
def vint (u : Ulib) (n : Nat) : Out := raw (u.varint (u32 n))

/-- `encode_string`, `cowl_prt_encoder.c:129-144`. -/
def encStr (u : Ulib) (s : Str) : Out := vint u s.length ++ raw s

/-- `encode_id_offset`, `cowl_prt_encoder.c:146-153`; `ids` is
`cowl_prt_index_get_id_idx`. -/
def encId (u : Ulib) (ids : Id → Option Nat) (off : Nat) (i : Id) : Out :=
  match ids i with
  | some n => vint u (n + off)
  | none => { ok := false }

/-! ## Literals -/

/-- Formats of the values of literals, `cowl_prt_constants.h`, with the numbers that are
written. -/
inductive Form where
  | str
  | bool (b : Bool)
  | int (v : Int)
  | uint (n : Nat)
  | fixed (whole : Int) (frac : Nat)
  | exp (whole : Int) (frac : Nat) (e : Int)
  deriving DecidableEq

/-- `COWL_LVF_*`, `cowl_prt_constants.h`. -/
def Form.code : Form → Nat
  | .str => 0
  | .bool _ => 2
  | .int _ => 3
  | .uint _ => 4
  | .fixed .. => 5
  | .exp .. => 6

/-- The bytes of a value that is not written as text. -/
def Form.bytes (u : Ulib) : Form → Str
  | .str => []
  | .bool b => [if b then 1 else 0]
  | .int v => u.svarint v
  | .uint n => u.varint n
  | .fixed w f => u.svarint w ++ u.varint f
  | .exp w f e => u.svarint w ++ u.varint f ++ u.svarint e

/-- `encode_literal_int`, `cowl_prt_encoder.c:176-183`. -/
def intForm (v : Int) : Form := if v < 0 then .int v else .uint v.toNat

/-- `encode_literal_maybe_int`, `cowl_prt_encoder.c:185-188`. -/
def maybeInt (u : Ulib) (s : Str) : Form :=
  match u.toInt s with
  | some v => intForm v
  | none => .str

/-- The texts of `bool_value`, `cowl_prt_encoder.c:194-196`. -/
def boolText (b : Bool) : Str := if b then ascii "true" else ascii "false"

/-- `encode_literal_maybe_bool`, `cowl_prt_encoder.c:205-210`, with `bool_value`, `190-203`. -/
def maybeBool (u : Ulib) (s : Str) : Form :=
  if s = boolText true then .bool true
  else if s = boolText false then .bool false
  else maybeInt u s

/-- `parse_uint_reverse`, `cowl_prt_encoder.c:226-237`, on digits. -/
def revVal (ds : Str) : Nat := ds.foldr (fun c r => u32 (r * 10 + (c.toNat - 48))) 0

/-- The exponent, `cowl_prt_encoder.c:262-269`. -/
def expForm (u : Ulib) (w : Int) (f : Nat) : Str → Form
  | [] => .fixed w f
  | c :: t =>
    if c ≠ 69 ∨ t = [] then .str
    else
      let e := u.strToInt t
      if e.2.length = t.length ∨ e.2 ≠ [] then .str else .exp w f e.1

/-- The fractional part, `cowl_prt_encoder.c:253-260`. -/
def fracForm (u : Ulib) (w : Int) : Str → Form
  | [] => intForm w
  | c :: t =>
    if c ≠ 46 ∨ t = [] then .str
    else
      let ds := t.takeWhile isDigit
      if ds = [] then .str else expForm u w (revVal ds) (t.drop ds.length)

/-- `encode_literal_maybe_dec`, `cowl_prt_encoder.c:239-273`. -/
def maybeDec (u : Ulib) (s : Str) : Form :=
  let w := u.strToInt s
  if w.2.length = s.length then .str else fracForm u w.1 w.2

/-- `CowlPRTDatatypeGroup`, `cowl_prt_encoder.c:282-287`. -/
inductive Group where
  | str | bool | int | dec
  deriving DecidableEq

/-- A datatype of XML Schema, `cowl_xsd_vocab.c:39-90`. -/
def xsd (s : String) : Iri := ⟨xsdNs, ascii s⟩

/-- `int_dts`, `cowl_prt_encoder.c:325-330`. -/
def intDts : List Iri :=
  [xsd "integer", xsd "int", xsd "unsignedInt", xsd "positiveInteger", xsd "negativeInteger",
   xsd "nonPositiveInteger", xsd "nonNegativeInteger", xsd "long", xsd "unsignedLong",
   xsd "short", xsd "unsignedShort", xsd "byte", xsd "unsignedByte"]

/-- `dec_dts`, `cowl_prt_encoder.c:332`. -/
def decDts : List Iri := [xsd "float", xsd "double", xsd "decimal"]

/-- `datatype_group`, `cowl_prt_encoder.c:322-335`. -/
def groupOf (dt : Iri) : Group :=
  if dt = xsd "boolean" then .bool
  else if dt ∈ intDts then .int
  else if dt ∈ decDts then .dec
  else .str

/-- The switch of `encode_literal_header_value`, `cowl_prt_encoder.c:301-306`. -/
def formOf (u : Ulib) (g : Group) (s : Str) : Form :=
  match g with
  | .str => .str
  | .bool => maybeBool u s
  | .int => maybeInt u s
  | .dec => maybeDec u s

/-- `encode_literal_header_value`, `cowl_prt_encoder.c:289-320`; `lt` is the type of the
literal. -/
def encValue (u : Ulib) (lt : Nat) (g : Group) (s : Str) : Out :=
  let f := formOf u g s
  if f = .str then raw [UInt8.ofNat lt] ++ encStr u s
  else raw [UInt8.ofNat (lt + f.code * 4)] ++ raw (f.bytes u)

/-- `encode_literal`, `cowl_prt_encoder.c:345-359`, with `literal_type`, `337-343`. -/
def encLit (u : Ulib) (ids : Id → Option Nat) (value : Str) : LitTag → Out
  | .lang l => encValue u 1 .str value ++ encStr u l
  | .dt i =>
    if i = xsdString then encValue u 0 .str value
    else encValue u 2 (groupOf i) value ++ encId u ids 0 (.iri i)

/-! ## Constructs -/

/-- The id of an object that is an IRI, an entity or an anonymous individual; anything
else in its place would be undefined behaviour. -/
def idObj : Obj → Option Id
  | .prim p => some (idOf p)
  | _ => none

/-- `encode_id_offset` on a field, such as `encode_class(e, class, false)`,
`cowl_prt_encoder.c:370-373`. -/
def encField (u : Ulib) (ids : Id → Option Nat) (off : Nat) (o : Option Obj) : Out :=
  match o.bind idObj with
  | some i => encId u ids off i
  | none => { ok := false }

/-- `encode_annot_value`, `cowl_prt_encoder.c:393-400`; `w` is the field, encoded. -/
def encAnnotVal (u : Ulib) (ids : Id → Option Nat) (o : Option Obj) (w : Out) : Out :=
  match o with
  | some (.lit _ _) => vint u 0 ++ w
  | o => encField u ids 1 o

/-- `CowlEntityType`, `cowl_entity_type.h:24-39`. -/
def entCode : EntKind → Nat
  | .cls => 0
  | .datatype => 1
  | .objProp => 2
  | .dataProp => 3
  | .annotProp => 4
  | .namedInd => 5

/-- `cowl_entity_get_type` of the entity of a declaration; 0 for what is no entity, which
would be undefined behaviour. -/
def declCode : Option Obj → Nat
  | some (.prim (.ent k _)) => entCode k
  | _ => 0

/-- The test of `encode_sub_obj_prop_axiom`, `cowl_prt_encoder.c:496`. -/
def isChain : Option Obj → Bool
  | some (.vec _ _) => true
  | _ => false

/-- `axiom_header`, `cowl_prt_encoder.c:444-449`, with the constants of
`cowl_prt_constants.h`: `COWL_OT_FIRST_A` is 12, `COWL_ET_COUNT` 6,
`COWL_PRT_FIRST_AXIOM_FRAME` 9. -/
def axHeader (t : OType) (annot utility : Bool) : Out :=
  raw [UInt8.ofNat (t.code - 12 + 5 + 9 + (if utility then 128 else 0) + (if annot then 64 else 0))]

/-- `cls_exp_header`, `cowl_prt_encoder.c:451-453`. -/
def ceHeader (t : OType) : Nat := t.code - OType.ceClass.code - 1

/-- `data_range_header`, `cowl_prt_encoder.c:455-457`. -/
def drHeader (t : OType) : Nat := t.code - OType.drDatatype.code - 1

/-- The cases of `encode_object`, `cowl_prt_encoder.c:541-584`, for objects with fields.
`fs` are the fields and `ws` the fields encoded by `encode_object`; `opt` is the optional
field encoded. -/
def assemble (u : Ulib) (ids : Id → Option Nat) (t : OType) (bit : Bool) (fs : List Obj)
    (ws : List Out) (n : Nat) : Out :=
  let opt := cat ((ws.drop t.fieldCount).take (if bit then 1 else 0))
  let first := ws[0]?.getD {}
  let second := ws[1]?.getD {}
  -- `encode_construct_body`, 459-465
  let body := cat (ws.take t.fieldCount) ++ opt
  match t with
  -- `encode_facet_restr`, 361-364
  | .facetRestr => encField u ids 0 fs[0]? ++ second
  -- `encode_annotation`, 402-415
  | .annotation =>
    (if bit then vint u 0 ++ encField u ids 0 fs[0]? else encField u ids 1 fs[0]?) ++
      encAnnotVal u ids fs[1]? second ++ opt
  -- `encode_inv_obj_prop`, 380-383
  | .opeInvObjProp => vint u 0 ++ encField u ids 0 fs[0]?
  -- `encode_decl_axiom`, 432-442
  | .aDecl =>
    raw [UInt8.ofNat (9 + declCode fs[0]? + (if bit then 64 else 0))] ++ encField u ids 0 fs[0]? ++ opt
  -- `encode_datatype_def_axiom`, 483-493
  | .aDatatypeDef => axHeader t bit false ++ encField u ids 0 fs[0]? ++ second ++ opt
  -- `encode_disj_union_axiom`, 531-539
  | .aDisjUnion => axHeader t bit false ++ encField u ids 0 fs[0]? ++ second ++ opt
  -- `encode_sub_obj_prop_axiom`, 495-500
  | .aSubObjProp => axHeader t bit (isChain fs[0]?) ++ body
  -- `encode_annot_assert_axiom`, 520-529
  | .aAnnotAssert =>
    axHeader t bit false ++ encField u ids 0 fs[0]? ++ encField u ids 0 fs[1]? ++
      encAnnotVal u ids fs[2]? (ws[2]?.getD {}) ++ opt
  -- `encode_obj_quant`, 502-506, with `cowl_obj_quant_get_filler`, `cowl_obj_quant.c`
  | .ceObjSome | .ceObjAll =>
    vint u (ceHeader t) ++ first ++ (if bit then opt else encId u ids 17 (.iri owlThing))
  -- `encode_data_quant`, 508-512, with `cowl_data_quant_get_range`, `cowl_data_quant.c`
  | .ceDataSome | .ceDataAll =>
    vint u (ceHeader t) ++ first ++ (if bit then opt else encId u ids 5 (.iri rdfsLiteral))
  -- `encode_card_restr`, 417-430
  | .ceObjMinCard | .ceObjMaxCard | .ceObjExactCard
  | .ceDataMinCard | .ceDataMaxCard | .ceDataExactCard =>
    vint u (ceHeader t) ++ vint u (n * 2 + (if bit then 1 else 0)) ++ body
  -- `encode_datatype_restr`, 514-518
  | .drDatatypeRestr => vint u (drHeader t) ++ encField u ids 0 fs[0]? ++ second
  -- 574-582
  | t =>
    if t.isAxiom then axHeader t bit false ++ body
    else if OType.ceClass.code ≤ t.code ∧ t.code ≤ OType.ceDataExactCard.code then
      vint u (ceHeader t) ++ body
    else if OType.drDatatype.code ≤ t.code ∧ t.code ≤ OType.drDatatypeRestr.code then
      vint u (drHeader t) ++ body
    else {}

/-- The offset with which `encode_object` writes an entity, `cowl_prt_encoder.c:550-556`:
`COWL_CET_COUNT - 1`, `COWL_DRT_COUNT - 1`, 1 or 0. -/
def entOffset : EntKind → Nat
  | .cls => 17
  | .datatype => 5
  | .objProp => 1
  | .dataProp | .annotProp | .namedInd => 0

mutual
/-- `encode_object`, `cowl_prt_encoder.c:541-584`, with `encode_vector`, `159-169`. -/
def encObj (u : Ulib) (ids : Id → Option Nat) : Obj → Out
  | .str s => encStr u s
  | .vec _ xs => vint u xs.length ++ cat (encList u ids xs)
  | .lit v t => encLit u ids v t
  | .prim (.iri i) => encId u ids 0 (.iri i)
  | .prim (.ent k i) => encId u ids (entOffset k) (.iri i)
  | .prim (.anon s) => encId u ids 0 (.anon s)
  | .other _ _ => {}
  | .comp t bit fs n => assemble u ids t bit fs (encList u ids fs) n

/-- The members of a list of objects, encoded. -/
def encList (u : Ulib) (ids : Id → Option Nat) : List Obj → List Out
  | [] => []
  | x :: xs => encObj u ids x :: encList u ids xs
end

end Cowl.Prt
