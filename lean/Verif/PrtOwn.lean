import Verif.FuncOwn
import Verif.PrtRead
/-!
# References held by the ProtocOWL reader

`src/formats/protocowl/reader/cowl_prt_decoder.c` and the decoding side of
`src/formats/protocowl/cowl_prt_index.c`, as far as references are concerned. The numbers in the
input, what can be allocated, which objects exist already and what the handler does are chosen from
outside, so that all inputs are covered. The memory is that of `Verif/Own.lean`. The buffers of
strings under construction and the texts of errors are not followed.
-/
namespace Cowl.DOwn
open Cowl.Own
open Cowl.YOwn (Leaf HOp getLeaf litRun hopsRun Choice)
open Cowl.Prt (FK axFields axTypes ceTypes drTypes entTypes)

/-- What the decoder meets at one point: in addition to what is there in `Choice`, the number that is
read, if reading succeeds, and whether the filler of a quantifier is the one that is left out,
`cowl_obj_quant.c:24`, `cowl_data_quant.c:25`. -/
structure Pick extends Choice where
  num : Option Nat := none
  top : Bool := false

/-- Where the decoder is when it meets something: reading a number; reading the header of a literal;
creating a string, an IRI, an entity or an anonymous individual; creating the datatype of a literal;
creating a composite or a vector; a vector growing; the index growing, by something that has been
declared or by an anonymous individual that has not; creating a literal with the given tag or
datatype; creating a sub-property axiom of the given operands, the first of which may be a chain;
telling the handler. -/
inductive Site where
  | num | header | leaf | datatype | alloc | grow | index | anonIndex
  | lit (tag : Option Nat)
  | sub (chain : Bool) (xs : List (Option Nat))
  | handle (given : List Nat)

/-- Something that has been met, with the memory at that time and the references from outside. -/
structure Entry where
  st : St
  others : Nat → Nat
  site : Site
  pick : Pick

/-- `CowlPRTDecoder`, `cowl_prt_decoder.c:26-32`, with `CowlPRTIndex`, `cowl_prt_index.h:17-35`: the
identifiers and the namespaces of the index, and whether the stream or the decoder is in error. The
tables of the index are for encoding. `others` counts the references that belong neither to the
decoder, nor to the index, nor to the vocabulary, nor to objects. `script` is what will be met. -/
structure D where
  st : St
  others : Nat → Nat
  ids : List Nat := []
  nss : List Nat := []
  err : Bool := false
  script : List Pick := []

/-- Outcome of a function: undefined behaviour, or a result. -/
inductive Out (α : Type) where
  | ub
  | go (a : α) (d : D)

/-- Functions of the decoder, with what they have met. -/
def Dec (α : Type) := D → List Entry × Out α

/-- A result without doing anything. -/
def Dec.pure {α : Type} (a : α) : Dec α := fun d => ([], .go a d)

/-- One after the other. -/
def Dec.bind {α β : Type} (p : Dec α) (f : α → Dec β) : Dec β := fun d =>
  match p d with
  | (l, .ub) => (l, .ub)
  | (l, .go a d) => (l ++ (f a d).1, (f a d).2)

instance : Monad Dec where
  pure := Dec.pure
  bind := Dec.bind

/-- Something is met; when the script is over nothing can be read or allocated. -/
def ask (x : Site) : Dec Pick := fun d =>
  ([⟨d.st, d.others, x, d.script.headD {}⟩], .go (d.script.headD {}) { d with script := d.script.tail })

/-- A call that changes the memory. -/
def mem {α : Type} (f : St → Option (St × α)) : Dec α := fun d =>
  match f d.st with
  | none => ([], .ub)
  | some (s, a) => ([], .go a { d with st := s })

/-- `decoder_err`, `cowl_prt_decoder.c:51-52`. -/
def isErr : Dec Bool := fun d => ([], .go d.err d)

/-- `decoder_handle_error`, `cowl_prt_decoder.c:63-71`, with an error; NULL is returned. -/
def fail : Dec (Option Nat) := fun d => ([], .go none { d with err := true })

/-- `handle_null`, `cowl_prt_decoder.c:138-141`. -/
def nn : Option Nat → Dec (Option Nat)
  | some a => pure (some a)
  | none => fail

/-- `cowl_release`. -/
def release (p : Option Nat) : Dec Unit := mem fun s => (s.releaseOpt p).map (·, ())

/-- `cowl_release_all`, `cowl_object.h`. -/
def releaseAll : List (Option Nat) → Dec Unit
  | [] => pure ()
  | p :: l => do
    release p
    releaseAll l

/-- `cowl_retain`. -/
def retain (p : Option Nat) : Dec (Option Nat) :=
  match p with
  | none => pure none
  | some a => mem fun s => (s.retain a).map (·, some a)

/-- The number that is read, or an error. -/
def got : Option Nat → Dec (Option Nat)
  | some n => pure (some n)
  | none => fail

/-- `read_varint`, `read_svarint` and `read_bytes` of one byte, `cowl_prt_decoder.c:82-127`. The sign
of a number makes no difference here. -/
def numAt (x : Site) : Dec (Option Nat) := do
  let e ← isErr
  if e then pure none
  else do
    let c ← ask x
    got c.num

/-- `read_varint`, `cowl_prt_decoder.c:94-110`. -/
def num : Dec (Option Nat) := numAt .num

/-- A number, and what is done with it. -/
def withNum (f : Nat → Dec (Option Nat)) : Dec (Option Nat) := do
  let n ← num
  match n with
  | none => pure none
  | some k => f k

/-- A function of the library that uses objects and returns a string, an IRI, an entity or an anonymous
individual, or NULL. -/
def leaf (x : Site) (uses : List Nat) : Dec (Option Nat) := do
  let c ← ask x
  mem fun s => if uses.all s.live then getLeaf s c.leaf else none

/-- A constructor, as in `Own.St.step`; operands may be NULL. The block is allocated first. -/
def makeRun (s : St) (m : Option Nat) (k : Ctor) (xs : List (Option Nat)) (opt : Option Nat) (u : Nat) : Res :=
  match notNull xs with
  | some fs => s.step (.make m k fs opt u)
  | none => if m.isNone then some (s, none) else none

/-- A call of a constructor. -/
def construct (k : Ctor) (xs : List (Option Nat)) (opt : Option Nat) (u : Nat) : Dec (Option Nat) := do
  let c ← ask .alloc
  mem fun s => makeRun s c.m₁ k xs (if c.top && k.form = .opt then none else opt) u

/-- One or the other. -/
def either {α : Type} (b : Bool) (p q : Dec α) : Dec α := if b then p else q

/-! ## Strings and names -/

/-- `decode_string` and `decode_string_intern`, `cowl_prt_decoder.c:213-223`, with `197-211`. If there
are not enough bytes the result is NULL, as it is if there is no memory. -/
def string : Dec (Option Nat) := withNum fun _ => do
  let r ← leaf .leaf []
  nn r

/-- `id_map_add_decoding`, `cowl_prt_index.c:258-262`, if there is memory. -/
def addId (a : Nat) : Dec Unit := fun d =>
  match d.st.retain a with
  | none => ([], .ub)
  | some s => ([], .go () { d with st := s, ids := d.ids ++ [a] })

/-- `prefix_map_add_decoding`, `cowl_prt_index.c:89-93`, if there is memory. -/
def addNs (a : Nat) : Dec Unit := fun d =>
  match d.st.retain a with
  | none => ([], .ub)
  | some s => ([], .go () { d with st := s, nss := d.nss ++ [a] })

/-- The end of `id_map_get`, `cowl_prt_index.c:282-290`: the individual is released even if the index
could not grow, and is returned all the same. -/
def keepAnon (a : Nat) (ok : Bool) : Dec (Option Nat) :=
  if ok then do
    addId a
    release (some a)
    pure (some a)
  else do
    let _ ← fail
    release (some a)
    pure (some a)

/-- `cowl_anon_ind(NULL)` in `id_map_get`, `cowl_prt_index.c:282-290`. -/
def newAnon : Dec (Option Nat) := do
  let r ← leaf .leaf []
  match r with
  | none => fail
  | some a => do
    let c ← ask .anonIndex
    keepAnon a c.ok

/-- `get_id`, `cowl_prt_decoder.c:225-236`, with `id_map_get`, `cowl_prt_index.c:269-291`. The result
belongs to the index. -/
def getId (k : Nat) : Dec (Option Nat) := fun d =>
  match d.ids[k]? with
  | some a => ([], .go (some a) d)
  | none => if k = d.ids.length then newAnon d else fail d

/-- Whether an object is an IRI, an error if not; `get_id_iri`, `cowl_prt_decoder.c:238-245`. -/
def isIri (a : Nat) : Dec (Option Nat) := fun d =>
  match d.st.cell a with
  | none => ([], .ub)
  | some (.leaf (.prim (.iri _))) => ([], .go (some a) d)
  | some _ => fail d

/-- `cowl_is_individual`, called in `get_individual`, `cowl_prt_decoder.c:293-297`. -/
def isInd (a : Nat) : Dec Bool := fun d =>
  match d.st.cell a with
  | none => ([], .ub)
  | some (.leaf (.prim (.anon _))) => ([], .go true d)
  | some _ => ([], .go false d)

/-- `get_id_iri`, `cowl_prt_decoder.c:238-245`. -/
def getIdIri (k : Nat) : Dec (Option Nat) := do
  let r ← getId k
  match r with
  | none => pure none
  | some a => isIri a

/-- `get_iri`, `cowl_prt_decoder.c:252-255`. -/
def getIri (k : Nat) : Dec (Option Nat) := do
  let r ← getIdIri k
  retain r

/-- `get_iri_or_anon`, `cowl_prt_decoder.c:247-250`. -/
def getIriOrAnon (k : Nat) : Dec (Option Nat) := do
  let r ← getId k
  retain r

/-- An entity with the given IRI, `cowl_class` and so on, and `handle_null`. -/
def entityOf (a : Nat) : Dec (Option Nat) := do
  let r ← leaf .leaf [a]
  nn r

/-- `get_class` and so on, `cowl_prt_decoder.c:257-291`. -/
def getEnt (k : Nat) : Dec (Option Nat) := do
  let r ← getIdIri k
  match r with
  | none => pure none
  | some a => entityOf a

/-- `get_individual`, `cowl_prt_decoder.c:293-297`. -/
def getInd (k : Nat) : Dec (Option Nat) := do
  let r ← getId k
  match r with
  | none => pure none
  | some a => do
    let i ← isInd a
    if i then retain (some a) else entityOf a

/-- `decode_iri`, `cowl_prt_decoder.c:299-303`. -/
def decIri : Dec (Option Nat) := withNum getIri

/-- `decode_iri_or_anon`, `cowl_prt_decoder.c:305-309`. -/
def decIriOrAnon : Dec (Option Nat) := withNum getIriOrAnon

/-- `decode_entity`, `cowl_prt_decoder.c:311-324`, `decode_annot_prop`, `444-448`, `decode_obj_prop`,
`483-487`, `decode_data_prop_exp`, `504-508`, `decode_class`, `519-523`, and `decode_datatype`,
`658-662`. -/
def decEnt : Dec (Option Nat) := withNum getEnt

/-- `decode_individual`, `cowl_prt_decoder.c:477-481`. -/
def decInd : Dec (Option Nat) := withNum getInd

/-- `decode_inv_obj_prop`, `cowl_prt_decoder.c:489-495`. -/
def invProp : Dec (Option Nat) := do
  let p ← decEnt
  match p with
  | none => pure none
  | some a => do
    let r ← construct ⟨.opeInvObjProp, 1, .plain⟩ [some a] none 0
    let r ← nn r
    release (some a)
    pure r

/-- `decode_obj_prop_exp`, `cowl_prt_decoder.c:497-502`. -/
def ope : Dec (Option Nat) := withNum fun k => if k = 0 then invProp else getEnt (k - 1)

/-! ## Literals -/

/-- `cowl_literal`, `cowl_literal.c:117-124`, and `handle_null`. -/
def litOf (value tag : Option Nat) : Dec (Option Nat) :=
  match value with
  | none => fail
  | some v => do
    let c ← ask (.lit tag)
    let r ← mem fun s => litRun s c.toChoice v tag
    nn r

/-- `decode_literal_lang`, `cowl_prt_decoder.c:342-348`. -/
def litLang (value : Option Nat) : Dec (Option Nat) := do
  let l ← string
  match l with
  | none => pure none
  | some l => do
    let r ← litOf value (some l)
    release (some l)
    pure r

/-- The middle of `decode_literal_typed`, `cowl_prt_decoder.c:331-332`. -/
def litDt (value dt : Option Nat) : Dec (Option Nat) :=
  match dt with
  | none => pure none
  | some dt => litOf value (some dt)

/-- `decode_literal_typed`, `cowl_prt_decoder.c:326-336`. That there is no datatype is no error. -/
def litTyped (value : Option Nat) : Dec (Option Nat) := do
  let i ← decIri
  match i with
  | none => pure none
  | some i => do
    let dt ← leaf .datatype [i]
    let r ← litDt value dt
    releaseAll [some i, dt]
    pure r

/-- Several numbers; the first that cannot be read ends it. -/
def nums : Nat → Dec Bool
  | 0 => pure true
  | n + 1 => do
    let k ← num
    match k with
    | none => pure false
    | some _ => nums n

/-- A string made of numbers, `cowl_prt_decoder.c:360-408`. -/
def ofNums (n : Nat) : Dec (Option Nat) := do
  let b ← nums n
  if b then leaf .leaf [] else pure none

/-- `decode_literal_bool`, `cowl_prt_decoder.c:350-358`. -/
def litBool : Dec (Option Nat) := withNum fun b => if b ≤ 1 then leaf .leaf [] else pure none

/-- `decode_literal_value`, `cowl_prt_decoder.c:410-421`, with `350-408`. -/
def litValue (fmt : Nat) : Dec (Option Nat) :=
  match fmt with
  | 0 => string
  | 2 => litBool
  | 3 => ofNums 1
  | 4 => ofNums 1
  | 5 => ofNums 2
  | 6 => ofNums 3
  | _ => pure none

/-- The choice in `decode_literal`, `cowl_prt_decoder.c:433-438`. -/
def litBy (type : Nat) (value : Option Nat) : Dec (Option Nat) :=
  match type with
  | 0 => litOf value none
  | 1 => litLang value
  | 2 => litTyped value
  | _ => pure none

/-- `decode_literal`, `cowl_prt_decoder.c:423-442`. -/
def literal : Dec (Option Nat) := do
  let h ← numAt .header
  match h with
  | none => pure none
  | some h => do
    let v ← litValue (h % 64 / 4)
    let v ← nn v
    let r ← litBy (h % 4) v
    release v
    pure r

/-- `decode_annot_value`, `cowl_prt_decoder.c:450-454`. -/
def annotValue : Dec (Option Nat) := withNum fun k => if k = 0 then literal else getIriOrAnon (k - 1)

/-! ## Vectors and annotations -/

/-- `decode_vector` in error, `cowl_prt_decoder.c:191-194`, with the items so far. -/
def dropItems (xs : List Nat) : Dec (Option Nat) := do
  releaseAll (xs.map some)
  fail

/-- The end of `decode_vector`, `cowl_prt_decoder.c:187-189`; see `many`. -/
def finishVec (xs : List Nat) (c : Pick) : Dec (Option Nat) :=
  match c.ok, c.m₁ with
  | true, some m => do
    let r ← mem fun s => s.vector true (some m) xs
    releaseAll (xs.map some)
    pure r
  | _, _ => dropItems xs

/-- The loop of `decode_vector`, `cowl_prt_decoder.c:183-187`, with `cowl_vector_push`,
`cowl_vector.c:184-191`. Nothing refers to the vector until it is returned, so it is put into memory
then; before, the references it holds count as those of the decoder. -/
def many (item : Dec (Option Nat)) : Nat → List Nat → Dec (Option Nat)
  | 0, xs => do
    let c ← ask .alloc
    finishVec xs c
  | n + 1, xs => do
    let x ← item
    match x with
    | none => dropItems xs
    | some a => do
      let c ← ask .grow
      if c.ok then many item n (a :: xs) else dropItems (a :: xs)

/-- `decode_vector`, `cowl_prt_decoder.c:175-195`. -/
def vector (item : Dec (Option Nat)) : Dec (Option Nat) := withNum fun n => do
  let c ← ask .grow
  if c.ok then many item n [] else fail

/-- `decode_annotation`, `cowl_prt_decoder.c:472-474`: the end of it. -/
def annotEnd (l : List (Option Nat)) (r : Option Nat) : Dec (Option Nat) := do
  releaseAll l
  nn r

/-- `decode_annotation`, `cowl_prt_decoder.c:470-474`: the constructor and the end. -/
def annotMake (iri prop value annots : Option Nat) : Dec (Option Nat) := do
  let r ← construct ⟨.annotation, 2, .annot⟩ [prop, value] annots 0
  annotEnd [annots, value, prop, iri] r

/-- The annotations of an annotation, `cowl_prt_decoder.c:466-471`. -/
def annotAnnots (iri prop value : Option Nat) (p : Option (Dec (Option Nat))) : Dec (Option Nat) :=
  match p with
  | none => annotMake iri prop value none
  | some p => do
    let as ← p
    match as with
    | none => annotEnd [value, prop, iri] none
    | some as => annotMake iri prop value (some as)

/-- `decode_annotation`, `cowl_prt_decoder.c:456-475`, with a bound on the nesting, at which reading
fails. -/
def annotation : Nat → Dec (Option Nat)
  | 0 => fail
  | n + 1 => withNum fun h => do
    let iri ← either (h = 0) decIri (getIri (h - 1))
    match iri with
    | none => annotEnd [] none
    | some i => do
      let prop ← leaf .leaf [i]
      match prop with
      | none => annotEnd [some i] none
      | some p => do
        let value ← annotValue
        match value with
        | none => annotEnd [some p, some i] none
        | some v =>
          annotAnnots (some i) (some p) (some v) (if h = 0 then some (vector (annotation n)) else none)

/-! ## Constructs -/

/-- Operands are decoded one after the other, whether or not there was an error. -/
def operands : List (Dec (Option Nat)) → Dec (List (Option Nat))
  | [] => pure []
  | p :: ps => do
    let x ← p
    let xs ← operands ps
    pure (x :: xs)

/-- The constructor is called if there was no error, `cowl_prt_decoder.c:529` and elsewhere. -/
def unlessErr (p : Dec (Option Nat)) : Dec (Option Nat) := do
  let e ← isErr
  if e then pure none
  else do
    let r ← p
    nn r

/-- The pattern of most decoding functions: operands, an optional last one, the constructor, and
everything is released. -/
def build (k : Ctor) (ps : List (Dec (Option Nat))) (last : Dec (Option Nat)) (u : Nat) : Dec (Option Nat) := do
  let xs ← operands ps
  let a ← last
  let r ← unlessErr (construct k xs a u)
  releaseAll (a :: xs)
  pure r

/-- `build` without an optional operand. -/
def buildPlain (t : OType) (ps : List (Dec (Option Nat))) : Dec (Option Nat) :=
  build ⟨t, ps.length, .plain⟩ ps (pure none) 0

/-- `decode_facet_restr`, `cowl_prt_decoder.c:510-517`: the constructor. -/
def facetOf (iri lit : Option Nat) : Dec (Option Nat) :=
  match iri, lit with
  | some i, some l => do
    let r ← construct ⟨.facetRestr, 2, .plain⟩ [some i, some l] none 0
    nn r
  | _, _ => pure none

/-- `decode_facet_restr`, `cowl_prt_decoder.c:510-517`. -/
def facet : Dec (Option Nat) := do
  let i ← decIri
  let l ← literal
  let r ← facetOf i l
  releaseAll [i, l]
  pure r

/-- `decode_data_range`, `cowl_prt_decoder.c:697-716`, with `664-695`, and a bound on the nesting. -/
def dataRange : Nat → Dec (Option Nat)
  | 0 => fail
  | n + 1 => withNum fun t =>
    if t ≥ 5 then getEnt (t - 5)
    else match drTypes[t + 1]? with
      | some .drDatatypeRestr => buildPlain .drDatatypeRestr [decEnt, vector facet]
      | some .drDataIntersect => buildPlain .drDataIntersect [vector (dataRange n)]
      | some .drDataUnion => buildPlain .drDataUnion [vector (dataRange n)]
      | some .drDataCompl => buildPlain .drDataCompl [dataRange n]
      | some .drDataOneOf => buildPlain .drDataOneOf [vector literal]
      | _ => fail

/-- `decode_obj_card` and `decode_data_card`, `cowl_prt_decoder.c:534-548`, `576-590`. -/
def card (t : OType) (prop filler : Dec (Option Nat)) : Dec (Option Nat) := withNum fun n =>
  build ⟨t, 1, .uint⟩ [prop] (if n % 2 = 1 then filler else pure none) (n / 2)

/-- `decode_cls_exp`, `cowl_prt_decoder.c:625-656`, with `525-623`, and a bound on the nesting. -/
def clsExp : Nat → Dec (Option Nat)
  | 0 => fail
  | n + 1 => withNum fun t =>
    if t ≥ 17 then getEnt (t - 17)
    else match ceTypes[t + 1]? with
      | some .ceObjSome => build ⟨.ceObjSome, 1, .opt⟩ [ope] (clsExp n) 0
      | some .ceObjAll => build ⟨.ceObjAll, 1, .opt⟩ [ope] (clsExp n) 0
      | some .ceObjMinCard => card .ceObjMinCard ope (clsExp n)
      | some .ceObjMaxCard => card .ceObjMaxCard ope (clsExp n)
      | some .ceObjExactCard => card .ceObjExactCard ope (clsExp n)
      | some .ceObjHasValue => buildPlain .ceObjHasValue [ope, decInd]
      | some .ceObjHasSelf => buildPlain .ceObjHasSelf [ope]
      | some .ceDataSome => build ⟨.ceDataSome, 1, .opt⟩ [decEnt] (dataRange n) 0
      | some .ceDataAll => build ⟨.ceDataAll, 1, .opt⟩ [decEnt] (dataRange n) 0
      | some .ceDataMinCard => card .ceDataMinCard decEnt (dataRange n)
      | some .ceDataMaxCard => card .ceDataMaxCard decEnt (dataRange n)
      | some .ceDataExactCard => card .ceDataExactCard decEnt (dataRange n)
      | some .ceDataHasValue => buildPlain .ceDataHasValue [decEnt, literal]
      | some .ceObjIntersect => buildPlain .ceObjIntersect [vector (clsExp n)]
      | some .ceObjUnion => buildPlain .ceObjUnion [vector (clsExp n)]
      | some .ceObjCompl => buildPlain .ceObjCompl [clsExp n]
      | some .ceObjOneOf => buildPlain .ceObjOneOf [vector decInd]
      | _ => fail

/-! ## Axioms -/

/-- `has_annot ? decode_vector(d, annotation_item) : NULL`. -/
def annots (n : Nat) (bit : Bool) : Dec (Option Nat) := if bit then vector (annotation n) else pure none

/-- An operand of an axiom; see `axFields`. -/
def field (n : Nat) : FK → Dec (Option Nat)
  | .ce => clsExp n
  | .dr => dataRange n
  | .ind => decInd
  | .ope => ope
  | .iri => decIri
  | .iriOrAnon => decIriOrAnon
  | .lit => literal
  | .aval => annotValue
  | .ent _ => decEnt
  | .vecCE => vector (clsExp n)
  | .vecInd => vector decInd
  | .vecOpe => vector ope
  | .vecDpe => vector decEnt

/-- `cowl_has_key_axiom` on operands that may be NULL. -/
def hasKeyRun (s : St) (c : Pick) (cls objs datas annot : Option Nat) : Res :=
  match cls with
  | some x => s.step (.hasKey c.m₁ c.m₂ c.m₃ x objs datas annot)
  | none => none

/-- `decode_has_key_axiom`, `cowl_prt_decoder.c:946-955`. -/
def hasKey (n : Nat) (bit : Bool) : Dec (Option Nat) := do
  let x ← clsExp n
  let o ← vector ope
  let p ← vector decEnt
  let a ← annots n bit
  let r ← unlessErr (do
    let c ← ask .alloc
    mem fun s => hasKeyRun s c x o p a)
  releaseAll [a, p, o, x]
  pure r

/-- `cowl_sub_obj_prop_axiom` and `cowl_sub_obj_prop_chain_axiom` on operands that may be NULL. -/
def subRun (s : St) (m : Option Nat) (chain : Bool) (sub sup annot : Option Nat) : Res :=
  match chain, sub, sup with
  | true, some x, some y => s.step (.chain m x y annot)
  | true, _, _ => none
  | false, _, _ => makeRun s m ⟨.aSubObjProp, 2, .annot⟩ [sub, sup] annot 0

/-- `decode_sub_obj_prop_axiom`, `cowl_prt_decoder.c:893-913`. -/
def subObjProp (n : Nat) (chain bit : Bool) : Dec (Option Nat) := do
  let x ← either chain (vector ope) ope
  let y ← ope
  let a ← annots n bit
  let c ← ask (.sub chain [x, y])
  let r ← mem fun s => subRun s c.m₁ chain x y a
  let r ← nn r
  releaseAll [a, y, x]
  pure r

/-- `decode_axiom`, `cowl_prt_decoder.c:1008-1067`, with the functions `718-1006`; `h` is the header of
the frame. -/
def decAxiom (n h : Nat) : Dec (Option Nat) :=
  let t := h % 64 - 9
  let bit := decide (h / 64 % 2 = 1)
  match entTypes[t]? with
  | some _ => build ⟨.aDecl, 1, .annot⟩ [decEnt] (annots n bit) 0
  | none =>
    match axTypes[t - 6 + 1]? with
    | some .aSubObjProp => subObjProp n (decide (h / 128 % 2 = 1)) bit
    | some .aHasKey => hasKey n bit
    | some t =>
      match axFields t with
      | some ks => build ⟨t, ks.length, .annot⟩ (ks.map (field n)) (annots n bit) 0
      | none => fail
    | none => fail

/-! ## Frames -/

/-- Something is done that returns nothing after an error. -/
def failed : Dec Unit := do
  let _ ← fail
  pure ()

/-- `decoder_handle_change`, `cowl_prt_decoder.c:73-80`: the handler gets pointers to the objects, and
does what it likes with its own references. -/
def handle (given : List Nat) : Dec Unit := do
  let c ← ask (.handle given)
  fun d =>
    if given.all d.st.live then
      match hopsRun d.st d.others c.ops with
      | none => ([], .ub)
      | some (s, o) => ([], .go () { d with st := s, others := o, err := d.err || c.ret.isErr })
    else ([], .ub)

/-- An object is told, if there is one, and released; `decode_axiom_frame`,
`cowl_prt_decoder.c:1069-1075`, `decode_ontology_iri`, `1179-1184`, `decode_version_iri`, `1186-1191`,
and the loops of `decode_annotations_frame` and `decode_imports_frame`, `1198-1218`. -/
def tell (p : Dec (Option Nat)) : Dec Unit := do
  let r ← p
  match r with
  | none => pure ()
  | some a => do
    handle [a]
    release (some a)

/-- `decode_axiom_frame`, `cowl_prt_decoder.c:1069-1075`. -/
def axiomFrame (n h : Nat) : Dec Unit := tell (decAxiom n h)

/-- `register_prefix_decl`, `cowl_prt_decoder.c:1077-1085`. -/
def register (prefix_ ns : Nat) : Dec Unit := do
  let c ← ask .index
  if c.ok then do
    addNs ns
    handle [prefix_, ns]
  else failed

/-- The middle of `decode_prefix_decl`, `cowl_prt_decoder.c:1090`. -/
def registerOpt (prefix_ ns : Option Nat) : Dec Unit :=
  match prefix_, ns with
  | some p, some n => register p n
  | _, _ => pure ()

/-- `decode_prefix_decl`, `cowl_prt_decoder.c:1087-1092`. -/
def prefixDecl : Dec Unit := do
  let p ← string
  let n ← string
  registerOpt p n
  releaseAll [p, n]

/-- The loop of `decode_ns_decls`, `cowl_prt_decoder.c:1106-1108`. -/
def nsDecl : Dec Unit := do
  let n ← string
  match n with
  | none => pure ()
  | some a => do
    let c ← ask .index
    either c.ok (addNs a) failed
    release (some a)

/-- `cowl_prt_index_add_primitive`, `cowl_prt_index.c:349-360`, and the error, if it fails; the object
is released. -/
def declare (string id : Option Nat) : Dec Unit :=
  match id with
  | none => do
    failed
    release string
  | some a => do
    let c ← ask .index
    either c.ok (addId a) failed
    releaseAll [string, some a]

/-- The namespace with the given index, `prefix_map_get`, `cowl_prt_index.c:152-155`. -/
def getNs (k : Nat) : Dec (Option Nat) := fun d => ([], .go d.nss[k]? d)

/-- `decode_iri_decl`, `cowl_prt_decoder.c:1120-1142`. -/
def iriDecl : Dec Unit := do
  let k ← num
  match k with
  | none => pure ()
  | some k => do
    let t ← string
    match t with
    | none => pure ()
    | some t => do
      let n ← getNs k
      match n with
      | none => declare (some t) none
      | some n => do
        let i ← leaf .leaf [n, t]
        declare (some t) i

/-- `decode_anon_decl`, `cowl_prt_decoder.c:1152-1161`. -/
def anonDecl : Dec Unit := do
  let t ← string
  match t with
  | none => pure ()
  | some t => do
    let i ← leaf .leaf [t]
    declare (some t) i

/-- `for (i = 0; decoder_ok(d) && i < length; ++i)`. -/
def loop (p : Dec Unit) : Nat → Dec Unit
  | 0 => pure ()
  | n + 1 => do
    let e ← isErr
    if e then pure ()
    else do
      p
      loop p n

/-- A number, and as many items; `cowl_prt_decoder.c:1094-1110`, `1144-1150`, `1163-1169`, `1198-1218`. If
an annotation or an import is NULL the function returns; there has been an error then. -/
def counted (p : Dec Unit) : Dec Unit := do
  let n ← num
  match n with
  | none => pure ()
  | some n => loop p n

/-- The namespaces are taken out of the index. -/
def takeNs : Dec (List Nat) := fun d => ([], .go d.nss { d with nss := [] })

/-- The identifiers are taken out of the index. -/
def takeIds : Dec (List Nat) := fun d => ([], .go d.ids { d with ids := [] })

/-- `prefix_map_deinit`, `cowl_prt_index.c:29-39`. -/
def clearNs : Dec Unit := do
  let l ← takeNs
  releaseAll (l.map some)

/-- `id_map_deinit`, `cowl_prt_index.c:181-187`. -/
def clearIds : Dec Unit := do
  let l ← takeIds
  releaseAll (l.map some)

/-- `prefix_map_add_standard_prefixes`, `cowl_prt_index.c:100-115`; the namespaces of the vocabulary are
given. -/
def addStd : List Nat → Dec Bool
  | [] => pure true
  | a :: l => do
    let c ← ask .index
    if c.ok then do
      addNs a
      addStd l
    else pure false

/-- `prefix_map_init`, `cowl_prt_index.c:117-132`. -/
def initNs (std : List Nat) : Dec Unit := do
  let b ← addStd std
  if b then pure ()
  else do
    clearNs
    failed

/-- `handle_reset_frame`, `cowl_prt_decoder.c:1228-1237`. -/
def reset (std : List Nat) (ns ids : Bool) : Dec Unit := do
  either ns (do
    clearNs
    initNs std) (pure ())
  let e ← isErr
  either (!e && ids) clearIds (pure ())

/-- `decode_iri_version_frame`, `cowl_prt_decoder.c:1193-1196`. -/
def iriVersion (version : Bool) : Dec Unit := do
  tell decIri
  either version (tell decIri) (pure ())

/-- `decode_frame`, `cowl_prt_decoder.c:1245-1266`, after the header `h`; `n` bounds the nesting. The
result tells whether to go on. -/
def frameOf (std : List Nat) (n h : Nat) : Dec Bool := do
  match h % 64 with
  | 0 | 1 => pure true
  | 2 => do
    reset std (h / 64 % 2 = 1) (h / 128 % 2 = 1)
    pure true
  | 3 => pure false
  | 4 => do
    counted (if h / 64 % 2 = 1 then prefixDecl else nsDecl)
    pure true
  | 5 => do
    counted (if h / 64 % 2 = 1 then iriDecl else anonDecl)
    pure true
  | 6 => do
    iriVersion (h / 128 % 2 = 1)
    pure true
  | 7 => do
    counted (tell decIri)
    pure true
  | 8 => do
    counted (tell (annotation n))
    pure true
  | _ => do
    axiomFrame n h
    pure true

/-- `decode_frame`, `cowl_prt_decoder.c:1239-1267`. -/
def frame (std : List Nat) (n : Nat) : Dec Bool := do
  let c ← ask .num
  match c.num with
  | none => pure false
  | some h => frameOf std n h

/-- `decode_frames`, `cowl_prt_decoder.c:1269-1271`; the first argument bounds the number of frames. -/
def frames (std : List Nat) (n : Nat) : Nat → Dec Unit
  | 0 => pure ()
  | k + 1 => do
    let e ← isErr
    if e then pure ()
    else do
      let b ← frame std n
      if b then frames std n k else pure ()

/-- `decode_header`, `cowl_prt_decoder.c:1273-1278`. -/
def header : Dec Unit := do
  let v ← num
  match v with
  | some 1 => pure ()
  | _ => failed

/-- `read_ontology`, `cowl_prt_decoder.c:1280-1294`: `std` are the namespaces of the vocabulary, `n`
bounds the nesting of constructs, and `k` the number of frames. -/
def read (std : List Nat) (n k : Nat) : Dec Unit := do
  initNs std
  let e ← isErr
  either e (pure ()) (do
    header
    frames std n k)
  clearNs
  clearIds

end Cowl.DOwn
