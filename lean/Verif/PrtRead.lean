import Verif.PrtWrite
/-!
# Reading constructs in ProtocOWL

Models the construct part of `src/formats/protocowl/reader/cowl_prt_decoder.c`.

A decoding function returns NULL after an error, every later read fails until the frame is
left, and constructors are called only if there was no error; so an error is a result of
its own here. The exceptions are modelled: literals of an unknown type are NULL without
an error (`Option`), and object sub-property axioms are constructed unconditionally.
A stream that ends early counts as an error (`uistream_read_varint` and
`uistream_read_all` are in ulib). Allocation does not fail; in particular the reservation
of space for vectors, `cowl_prt_decoder.c:181`, succeeds.
-/
namespace Cowl.Prt

/-- State of the decoder: the rest of the input, the index, and the number of anonymous
individuals generated so far. -/
structure DSt where
  inp : Str
  ix : DIndex := {}
  fresh : Nat := 0

/-- Result of a decoding function. -/
inductive Res (α : Type) where
  | ok (a : α) (s : DSt)
  | err
  | ub

/-- Decoding functions. -/
def Dec (α : Type) := DSt → Res α

/-- One function after another. -/
def Dec.bind {α β : Type} (x : Dec α) (f : α → Dec β) : Dec β := fun s =>
  match x s with
  | .ok a s' => f a s'
  | .err => .err
  | .ub => .ub

/-- A result without reading. -/
def Dec.pure {α : Type} (a : α) : Dec α := fun s => .ok a s

instance : Monad Dec where
  pure := Dec.pure
  bind := Dec.bind

/-- `decoder_handle_error`, `cowl_prt_decoder.c:63-69`. -/
def fail {α : Type} : Dec α := fun _ => .err

/-- What the decoder depends on: ulib; the labels of generated anonymous individuals,
`cowl_anon_ind(NULL)`, `cowl_anon_ind.c:91-125`; and whether the decoder has the checks
that the program lacks. The program is `checked = false`; the other variant serves to say
in what way the program is at fault (C39). -/
structure Env where
  u : Ulib
  gen : Nat → Str
  checked : Bool := false

section
variable (E : Env)

/-- A value that may be NULL without an error, passed on to a constructor that
dereferences it. -/
def unchecked {α : Type} : Dec α := fun _ => if E.checked then .err else .ub

/-- `read_varint`, `cowl_prt_decoder.c:94-110`. -/
def varint : Dec Nat := fun s =>
  match E.u.readVarint s.inp with
  | some (n, r) => .ok n { s with inp := r }
  | none => .err

/-- `read_svarint`, `cowl_prt_decoder.c:112-127`. -/
def svarint : Dec Int := fun s =>
  match E.u.readSvarint s.inp with
  | some (n, r) => .ok n { s with inp := r }
  | none => .err

/-- `read_bytes` of one byte, `cowl_prt_decoder.c:82-92`. -/
def byte : Dec UInt8 := fun s =>
  match s.inp with
  | c :: r => .ok c { s with inp := r }
  | [] => .err

/-- `read_bytes`, `cowl_prt_decoder.c:82-92`. -/
def bytes (n : Nat) : Dec Str := fun s =>
  if n ≤ s.inp.length then .ok (s.inp.take n) { s with inp := s.inp.drop n } else .err

/-- `decode_string`, `cowl_prt_decoder.c:213-217`, with `decode_ustring`, `197-211`. -/
def decStr : Dec Str := do
  let n ← varint E
  bytes n

/-- `get_id`, `cowl_prt_decoder.c:225-236`, with `id_map_get`, `cowl_prt_index.c:269-291`:
the first index that is not in use stands for a new anonymous individual. -/
def getId (k : Nat) : Dec Id := fun s =>
  match s.ix.ids[k]? with
  | some i => .ok i s
  | none =>
    if k = s.ix.ids.length then
      .ok (.anon (E.gen s.fresh))
        { s with ix := { s.ix with ids := s.ix.ids ++ [.anon (E.gen s.fresh)] }, fresh := s.fresh + 1 }
    else .err

/-- `get_id_iri`, `cowl_prt_decoder.c:238-245`; `get_iri`, `252-255`. -/
def getIri (k : Nat) : Dec Iri := do
  let i ← getId E k
  match i with
  | .iri i => pure i
  | .anon _ => fail

/-- `get_class`, `get_datatype`, `get_named_ind`, `get_obj_prop`, `get_data_prop` and
`get_annot_prop`, `cowl_prt_decoder.c:257-291`. -/
def getEnt (t : EntKind) (k : Nat) : Dec Obj := do
  let i ← getIri E k
  pure (.prim (.ent t i))

/-- `get_individual`, `cowl_prt_decoder.c:293-297`. -/
def getInd (k : Nat) : Dec Obj := do
  let i ← getId E k
  match i with
  | .iri i => pure (.prim (.ent .namedInd i))
  | .anon s => pure (.prim (.anon s))

/-- `get_iri_or_anon`, `cowl_prt_decoder.c:247-250`. -/
def getIriOrAnon (k : Nat) : Dec Obj := do
  let i ← getId E k
  match i with
  | .iri i => pure (.prim (.iri i))
  | .anon s => pure (.prim (.anon s))

/-- `decode_iri`, `cowl_prt_decoder.c:299-303`. -/
def decIri : Dec Iri := do
  let k ← varint E
  getIri E k

/-- `decode_entity`, `cowl_prt_decoder.c:311-324`, and `decode_class`,
`decode_datatype`, `decode_obj_prop`, `decode_data_prop_exp`, `decode_annot_prop`. -/
def decEnt (t : EntKind) : Dec Obj := do
  let k ← varint E
  getEnt E t k

/-- `decode_individual`, `cowl_prt_decoder.c:477-481`. -/
def decInd : Dec Obj := do
  let k ← varint E
  getInd E k

/-- `decode_iri_or_anon`, `cowl_prt_decoder.c:305-309`. -/
def decIriOrAnon : Dec Obj := do
  let k ← varint E
  getIriOrAnon E k

/-- `decode_obj_prop_exp`, `cowl_prt_decoder.c:497-502`, with `decode_inv_obj_prop`,
`489-495`. -/
def decOpe : Dec Obj := do
  let k ← varint E
  if k = 0 then do
    let p ← decEnt E .objProp
    pure (getImpl .opeInvObjProp [p] none)
  else getEnt E .objProp (k - 1)

/-! ## Literals -/

/-- `buf_append_fixed_point`, `cowl_prt_decoder.c:372-378`. -/
def fixedText (w : Int) (f : Nat) : Str := fmtInt w ++ 46 :: (fmtUint f).reverse

/-- `decode_literal_value`, `cowl_prt_decoder.c:410-421`, with `350-408`. NULL becomes an
error in `decode_literal`, `431`. -/
def decValue (fmt : Nat) : Dec Str :=
  match fmt with
  | 0 => decStr E
  | 2 => do
    let b ← byte
    if b = 0 then pure (boolText false)
    else if b = 1 then pure (boolText true)
    else fail
  | 3 => do
    let v ← svarint E
    pure (fmtInt v)
  | 4 => do
    let n ← varint E
    pure (fmtUint n)
  | 5 => do
    let w ← svarint E
    let f ← varint E
    pure (fixedText w f)
  | 6 => do
    let w ← svarint E
    let f ← varint E
    let e ← svarint E
    pure (fixedText w f ++ 69 :: fmtInt e)
  | _ => fail

/-- The result of `cowl_literal`; it may be undefined (C25). -/
def ofLitRes : LitRes → Dec Obj
  | .lit v t => pure (.lit v t)
  | .ub => unchecked E

/-- `decode_literal`, `cowl_prt_decoder.c:423-442`, with `326-348`; `none` is NULL
without an error. -/
def decLit : Dec (Option Obj) := do
  let h ← byte
  let v ← decValue E (h.toNat % 64 / 4)
  match h.toNat % 4 with
  | 0 => do
    let o ← ofLitRes E (literal v .none)
    pure (some o)
  | 1 => do
    let l ← decStr E
    let o ← ofLitRes E (literal v (.lang l))
    pure (some o)
  | 2 => do
    let i ← decIri E
    let o ← ofLitRes E (literal v (.dt i))
    pure (some o)
  | _ => pure none

/-- `decode_annot_value`, `cowl_prt_decoder.c:450-454`. -/
def decAnnotVal : Dec (Option Obj) := do
  let k ← varint E
  if k = 0 then decLit E
  else do
    let o ← getIriOrAnon E (k - 1)
    pure (some o)

/-- NULL becomes an error, as in `decode_vector`, `cowl_prt_decoder.c:185`,
`decode_annotation`, `468`, and `decode_facet_restr` as an item, `514`. -/
def notNull (x : Dec (Option Obj)) : Dec Obj := do
  let o ← x
  match o with
  | some o => pure o
  | none => fail

/-- The loop of `decode_vector`, `cowl_prt_decoder.c:183-186`. -/
def decMany (item : Dec Obj) : Nat → Dec (List Obj)
  | 0 => pure []
  | n + 1 => do
    let x ← item
    let xs ← decMany item n
    pure (x :: xs)

/-- `decode_vector`, `cowl_prt_decoder.c:175-195`; the items. -/
def decItems (item : Dec Obj) : Dec (List Obj) := do
  let n ← varint E
  decMany item n

/-- `decode_vector`, `cowl_prt_decoder.c:175-195`. -/
def decVec (item : Dec Obj) : Dec Obj := do
  let xs ← decItems E item
  pure (.vec false xs)

/-- `decode_facet_restr`, `cowl_prt_decoder.c:510-517`. -/
def decFacet : Dec Obj := do
  let i ← decIri E
  let l ← notNull (decLit E)
  pure (getImpl .facetRestr [.prim (.iri i), l] none)

/-! ## Annotations -/

/-- Annotations of a construct, if the bit says so. -/
def decAnnots (item : Dec Obj) (bit : Bool) : Dec (Option (Bool × List Obj)) :=
  if bit then do
    let xs ← decItems E item
    pure (some (false, xs))
  else pure none

/-- The property of an annotation, `cowl_prt_decoder.c:465`; `k` is the header. -/
def annotIri (k : Nat) : Dec Iri := if k = 0 then decIri E else getIri E (k - 1)

/-- `decode_annotation`, `cowl_prt_decoder.c:456-475`. The first argument bounds the
depth of nesting, which the C program does not; the bound is not reached if it exceeds
the length of the input (`le_decAnnot`). -/
def decAnnot : Nat → Dec Obj
  | 0 => fail
  | n + 1 => do
    let k ← varint E
    let i ← annotIri E k
    let v ← notNull (decAnnotVal E)
    let as ← decAnnots E (decAnnot n) (k = 0)
    pure (getImplAnnot .annotation [.prim (.ent .annotProp i), v] as)

/-! ## Data ranges -/

/-- `CowlDataRangeType`, `cowl_data_range_type.h:24-39`, with the type of the objects. -/
def drTypes : List OType :=
  [.drDatatype, .drDataIntersect, .drDataUnion, .drDataCompl, .drDataOneOf, .drDatatypeRestr]

/-- `decode_data_range`, `cowl_prt_decoder.c:697-716`, with `664-695`; `rec` is the
recursive call. -/
def drStep (rec : Dec Obj) : Dec Obj := do
  let t ← varint E
  if t ≥ 5 then getEnt E .datatype (t - 5)
  else match drTypes[t + 1]? with
    | some .drDatatypeRestr => do
      let d ← decEnt E .datatype
      let fs ← decVec E (decFacet E)
      pure (getImpl .drDatatypeRestr [d, fs] none)
    | some .drDataIntersect => do
      let v ← decVec E rec
      pure (getImpl .drDataIntersect [v] none)
    | some .drDataUnion => do
      let v ← decVec E rec
      pure (getImpl .drDataUnion [v] none)
    | some .drDataCompl => do
      let d ← rec
      pure (getImpl .drDataCompl [d] none)
    | some .drDataOneOf => do
      let v ← decVec E (notNull (decLit E))
      pure (getImpl .drDataOneOf [v] none)
    | _ => fail

/-- `decode_data_range` with a bound on the depth, as for `decAnnot`. -/
def decDR : Nat → Dec Obj
  | 0 => fail
  | n + 1 => drStep E (decDR n)

/-! ## Class expressions -/

/-- `CowlClsExpType`, `cowl_cls_exp_type.h:22-81`, with the type of the objects. -/
def ceTypes : List OType :=
  [.ceClass, .ceObjIntersect, .ceObjUnion, .ceObjCompl, .ceObjOneOf, .ceObjSome, .ceObjAll,
   .ceObjHasValue, .ceObjHasSelf, .ceObjMinCard, .ceObjMaxCard, .ceObjExactCard, .ceDataSome,
   .ceDataAll, .ceDataHasValue, .ceDataMinCard, .ceDataMaxCard, .ceDataExactCard]

/-- An object that a constructor made, or NULL, which becomes an error (`handle_null`,
`cowl_prt_decoder.c:138-141`). -/
def ofOpt (o : Option Obj) : Dec Obj :=
  match o with
  | some o => pure o
  | none => fail

/-- `if (has_filler)`, `cowl_prt_decoder.c:543`, `585`. -/
def decIf (b : Bool) (x : Dec Obj) : Dec (Option Obj) :=
  if b then do
    let o ← x
    pure (some o)
  else pure none

/-- `decode_obj_quant`, `cowl_prt_decoder.c:525-532`. -/
def decObjQuant (ce : Dec Obj) (qt : Nat) : Dec Obj := do
  let p ← decOpe E
  let c ← ce
  ofOpt (objQuant qt p (some c))

/-- `decode_obj_card`, `cowl_prt_decoder.c:534-548`. -/
def decObjCard (ce : Dec Obj) (ct : Nat) : Dec Obj := do
  let n ← varint E
  let p ← decOpe E
  let c ← decIf (n % 2 = 1) ce
  ofOpt (objCard ct p c (n / 2))

/-- `decode_data_quant`, `cowl_prt_decoder.c:567-574`. -/
def decDataQuant (dr : Dec Obj) (qt : Nat) : Dec Obj := do
  let p ← decEnt E .dataProp
  let d ← dr
  ofOpt (dataQuant qt p (some d))

/-- `cowl_data_card`, `include/cowl_data_card.h:60-65`; 0 min, 1 max, 2 exact. -/
def dataCard (ct : Nat) (prop : Obj) (range : Option Obj) (n : Nat) : Option Obj :=
  match ct with
  | 0 => some (getImplUint .ceDataMinCard [prop] n range)
  | 1 => some (getImplUint .ceDataMaxCard [prop] n range)
  | 2 => some (getImplUint .ceDataExactCard [prop] n range)
  | _ => none

/-- `decode_data_card`, `cowl_prt_decoder.c:576-590`. -/
def decDataCard (dr : Dec Obj) (ct : Nat) : Dec Obj := do
  let n ← varint E
  let p ← decEnt E .dataProp
  let d ← decIf (n % 2 = 1) dr
  ofOpt (dataCard ct p d (n / 2))

/-- An object passed to a constructor without a check. -/
def orUnchecked (o : Option Obj) : Dec Obj :=
  match o with
  | some o => pure o
  | none => unchecked E

/-- `decode_cls_exp`, `cowl_prt_decoder.c:625-656`, with `550-565` and `592-623`; `rec`
is the recursive call. -/
def ceStep (dr rec : Dec Obj) : Dec Obj := do
  let t ← varint E
  if t ≥ 17 then getEnt E .cls (t - 17)
  else match ceTypes[t + 1]? with
    | some .ceObjSome => decObjQuant E rec 0
    | some .ceObjAll => decObjQuant E rec 1
    | some .ceObjMinCard => decObjCard E rec 0
    | some .ceObjMaxCard => decObjCard E rec 1
    | some .ceObjExactCard => decObjCard E rec 2
    | some .ceObjHasValue => do
      let p ← decOpe E
      let i ← decInd E
      pure (getImpl .ceObjHasValue [p, i] none)
    | some .ceObjHasSelf => do
      let p ← decOpe E
      pure (getImpl .ceObjHasSelf [p] none)
    | some .ceDataSome => decDataQuant E dr 0
    | some .ceDataAll => decDataQuant E dr 1
    | some .ceDataMinCard => decDataCard E dr 0
    | some .ceDataMaxCard => decDataCard E dr 1
    | some .ceDataExactCard => decDataCard E dr 2
    | some .ceDataHasValue => do
      let p ← decEnt E .dataProp
      let l ← decLit E
      let l ← orUnchecked E l
      pure (getImpl .ceDataHasValue [p, l] none)
    | some .ceObjIntersect => do
      let v ← decVec E rec
      pure (getImpl .ceObjIntersect [v] none)
    | some .ceObjUnion => do
      let v ← decVec E rec
      pure (getImpl .ceObjUnion [v] none)
    | some .ceObjCompl => do
      let c ← rec
      pure (getImpl .ceObjCompl [c] none)
    | some .ceObjOneOf => do
      let v ← decVec E (decInd E)
      pure (getImpl .ceObjOneOf [v] none)
    | _ => fail

/-- `decode_cls_exp` with a bound on the depth, as for `decAnnot`. -/
def decCE : Nat → Dec Obj
  | 0 => fail
  | n + 1 => ceStep E (decDR E (n + 1)) (decCE n)

/-! ## Axioms -/

/-- What a field of an axiom is read with. -/
inductive FK where
  | ce | dr | ind | ope | iri | iriOrAnon | lit | aval
  | ent (k : EntKind)
  | vecCE | vecInd | vecOpe | vecDpe

/-- The calls of the functions in `cowl_prt_decoder.c:728-1006` other than
`decode_declaration_axiom` and `decode_sub_obj_prop_axiom`, by the type of the axiom they
construct. -/
def axFields : OType → Option (List FK)
  | .aSubClass => some [.ce, .ce]
  | .aEquivClasses => some [.vecCE]
  | .aDisjClasses => some [.vecCE]
  | .aDisjUnion => some [.ent .cls, .vecCE]
  | .aEquivObjProp => some [.vecOpe]
  | .aDisjObjProp => some [.vecOpe]
  | .aInvObjProp => some [.ope, .ope]
  | .aObjPropDomain => some [.ope, .ce]
  | .aObjPropRange => some [.ope, .ce]
  | .aFuncObjProp => some [.ope]
  | .aInvFuncObjProp => some [.ope]
  | .aReflObjProp => some [.ope]
  | .aIrreflObjProp => some [.ope]
  | .aSymmObjProp => some [.ope]
  | .aAsymmObjProp => some [.ope]
  | .aTransObjProp => some [.ope]
  | .aSubDataProp => some [.ent .dataProp, .ent .dataProp]
  | .aEquivDataProp => some [.vecDpe]
  | .aDisjDataProp => some [.vecDpe]
  | .aDataPropDomain => some [.ent .dataProp, .ce]
  | .aDataPropRange => some [.ent .dataProp, .dr]
  | .aFuncDataProp => some [.ent .dataProp]
  | .aDatatypeDef => some [.ent .datatype, .dr]
  | .aHasKey => some [.ce, .vecOpe, .vecDpe]
  | .aSameInd => some [.vecInd]
  | .aDiffInd => some [.vecInd]
  | .aClassAssert => some [.ce, .ind]
  | .aObjPropAssert => some [.ope, .ind, .ind]
  | .aNegObjPropAssert => some [.ope, .ind, .ind]
  | .aDataPropAssert => some [.ent .dataProp, .ind, .lit]
  | .aNegDataPropAssert => some [.ent .dataProp, .ind, .lit]
  | .aAnnotAssert => some [.ent .annotProp, .iriOrAnon, .aval]
  | .aSubAnnotProp => some [.ent .annotProp, .ent .annotProp]
  | .aAnnotPropDomain => some [.ent .annotProp, .iri]
  | .aAnnotPropRange => some [.ent .annotProp, .iri]
  | _ => none

/-- `CowlAxiomType`, `cowl_axiom_type.h:24-146`, with the type of the objects. -/
def axTypes : List OType :=
  [.aDecl, .aSubClass, .aEquivClasses, .aDisjClasses, .aDisjUnion, .aSubObjProp, .aEquivObjProp,
   .aDisjObjProp, .aInvObjProp, .aObjPropDomain, .aObjPropRange, .aFuncObjProp, .aInvFuncObjProp,
   .aReflObjProp, .aIrreflObjProp, .aSymmObjProp, .aAsymmObjProp, .aTransObjProp, .aSubDataProp,
   .aEquivDataProp, .aDisjDataProp, .aDataPropDomain, .aDataPropRange, .aFuncDataProp,
   .aDatatypeDef, .aHasKey, .aSameInd, .aDiffInd, .aClassAssert, .aObjPropAssert,
   .aNegObjPropAssert, .aDataPropAssert, .aNegDataPropAssert, .aAnnotAssert, .aSubAnnotProp,
   .aAnnotPropDomain, .aAnnotPropRange]

/-- A field that cannot be NULL without an error. -/
def whole (x : Dec Obj) : Dec (Option Obj) := do
  let o ← x
  pure (some o)

/-- Reading one field; `n` bounds the depth of nesting. -/
def decField (n : Nat) : FK → Dec (Option Obj)
  | .ce => whole (decCE E n)
  | .dr => whole (decDR E n)
  | .ind => whole (decInd E)
  | .ope => whole (decOpe E)
  | .iri => do
    let i ← decIri E
    pure (some (.prim (.iri i)))
  | .iriOrAnon => whole (decIriOrAnon E)
  | .lit => decLit E
  | .aval => decAnnotVal E
  | .ent k => whole (decEnt E k)
  | .vecCE => whole (decVec E (decCE E n))
  | .vecInd => whole (decVec E (decInd E))
  | .vecOpe => whole (decVec E (decOpe E))
  | .vecDpe => whole (decVec E (decEnt E .dataProp))

/-- Reading fields in order. -/
def decFields (n : Nat) : List FK → Dec (List (Option Obj))
  | [] => pure []
  | k :: ks => do
    let o ← decField E n k
    let os ← decFields n ks
    pure (o :: os)

/-- The fields of an axiom as passed to its constructor. -/
def allWhole (os : List (Option Obj)) : Dec (List Obj) :=
  match os.mapM id with
  | some fs => pure fs
  | none => unchecked E

/-- The functions of `cowl_prt_decoder.c:728-1006`. -/
def decPlain (n : Nat) (t : OType) (ks : List FK) (bit : Bool) : Dec Obj := do
  let os ← decFields E n ks
  let as ← decAnnots E (decAnnot E n) bit
  let fs ← allWhole E os
  pure (getImplAnnot t fs as)

/-- Sub-property or chain, `cowl_prt_decoder.c:899-909`, with
`cowl_sub_obj_prop_chain_axiom`, which marks the vector as ordered. -/
def decSubOpe (chain : Bool) : Dec Obj :=
  if chain then do
    let xs ← decItems E (decOpe E)
    pure (.vec true xs)
  else decOpe E

/-- The operands of `decode_sub_obj_prop_axiom`. -/
def decSubSup (chain : Bool) : Dec (Obj × Obj) := do
  let p ← decSubOpe E chain
  let q ← decOpe E
  pure (p, q)

/-- `decode_sub_obj_prop_axiom`, `cowl_prt_decoder.c:893-913`. The constructor is called
even after an error: without operands that is undefined behaviour; without annotations it
makes an axiom, which is returned together with the error (second component false).
The state after such an error is not modelled: nothing is read after it. -/
def decSubObjProp (n : Nat) (chain bit : Bool) : Dec (Obj × Bool) := fun s =>
  match decSubSup E chain s with
  | .ub => .ub
  | .err => if E.checked then .err else .ub
  | .ok (p, q) s' =>
    match decAnnots E (decAnnot E n) bit s' with
    | .ub => .ub
    | .err => if E.checked then .err else .ok (getImplAnnot .aSubObjProp [p, q] none, false) s'
    | .ok as s'' => .ok (getImplAnnot .aSubObjProp [p, q] as, true) s''

/-- `CowlEntityType`, `cowl_entity_type.h:24-39`. -/
def entTypes : List EntKind := [.cls, .datatype, .objProp, .dataProp, .annotProp, .namedInd]

/-- An axiom without a late error. -/
def noLate (x : Dec Obj) : Dec (Obj × Bool) := do
  let o ← x
  pure (o, true)

/-- `decode_axiom`, `cowl_prt_decoder.c:1008-1067`, with `decode_declaration_axiom`,
`718-726`. The header is that of an axiom frame, so that the lower six bits are at
least 9. The second component of the result is false if an error is left behind. -/
def decAxiom (n : Nat) (h : UInt8) : Dec (Obj × Bool) :=
  let t := h.toNat % 64 - 9
  let bit := h.toNat / 64 % 2 = 1
  let util := h.toNat / 128 = 1
  match entTypes[t]? with
  | some k => noLate (do
      let e ← decEnt E k
      let as ← decAnnots E (decAnnot E n) bit
      pure (getImplAnnot .aDecl [e] as))
  | none =>
    match axTypes[t - 6 + 1]? with
    | some .aSubObjProp => decSubObjProp E n util bit
    | some t =>
      match axFields t with
      | some ks => noLate (decPlain E n t ks bit)
      | none => fail
    | none => fail

end

end Cowl.Prt
