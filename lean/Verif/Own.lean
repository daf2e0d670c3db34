import Verif.Obj
/-!
# Memory of vectors, literals and composites

Models `cowl_get_impl` and the functions around it in `src/cowl_object.c`, the constructors of
`src/cowl_vector.c` and `src/cowl_literal.c`, and the constructors of the public headers, all of
which end in them. Objects are addresses with a reference count. Strings and primitives are
leaves here: what they own is modelled in `Verif/Heap.lean`. `none` is undefined behaviour.
Reference counts do not saturate (they do in `Verif/Flags.lean`). Allocations are given as
arguments: the address of the new block, or none if memory is lacking.
-/
namespace Cowl.Own

/-- What is stored at an address: a leaf, seen as a value; `CowlVector`,
`cowl_vector_private.h:24-27`; `CowlComposite`, `cowl_object_private.h:25-31`, with its object
fields and the trailing number of cardinality restrictions. Literals are composites, too,
`cowl_literal.c:80-84`, whose bit tells that there is a language tag. -/
inductive Cell where
  | leaf (o : Obj)
  | vec (ordered : Bool) (items : List Nat)
  | comp (t : OType) (bit : Bool) (fields : List Nat) (uint : Nat)

/-- The references an object has been given. -/
def Cell.refs : Cell → List Nat
  | .leaf _ => []
  | .vec _ items => items
  | .comp _ _ fields _ => fields

/-- The references that are released when the object is freed: `cowl_vector_free_ex`,
`cowl_vector.c:87-95`; `cowl_literal_free`, `cowl_literal.c:111-115`; and `release_impl`,
`cowl_object.c:162-169`. Fields past the end of the object are undefined behaviour. -/
def Cell.releases : Cell → Option (List Nat)
  | .leaf _ => some []
  | .vec _ items => some items
  | .comp t bit fields _ =>
    let n := if t = .literal then 2 else nFields t bit
    if fields.length < n then none else some (fields.take n)

/-- State of memory. `dom` lists the addresses in use. Two parts are there for the sake of
specification only: `ext` counts the references owned by the client, or by a function of the
library that is running; `lost` counts the blocks nobody can free any more. -/
structure St where
  dom : List Nat
  cell : Nat → Option Cell
  rc : Nat → Nat
  ext : Nat → Nat
  lost : Nat

/-- At the start of the program. -/
def St.start : St := ⟨[], fun _ => none, fun _ => 0, fun _ => 0, 0⟩

/-- There is an object at the address. -/
def St.live (s : St) (a : Nat) : Bool := (s.cell a).isSome

/-- Sum of the reference counts. -/
def St.total (s : St) : Nat := (s.dom.map s.rc).sum

/-- The object is freed. -/
def St.drop (s : St) (a : Nat) : St :=
  { s with dom := s.dom.erase a, cell := fun b => if b = a then none else s.cell b
           rc := fun b => if b = a then 0 else s.rc b }

/-- `cowl_decr_ref`, `cowl_object_private.h:48-51`. -/
def St.decr (s : St) (a : Nat) : St := { s with rc := fun b => if b = a then s.rc b - 1 else s.rc b }

/-- `cowl_release`, `cowl_object.c:171-194`, of several objects one after the other. The fields
of an object that is freed come before the rest of the list, as in the recursion of the code.
The code frees the block after its fields; here it goes first, and using it while its fields are
released is undefined. The first argument bounds the number of steps. -/
def St.relAll : Nat → St → List Nat → Option St
  | _, s, [] => some s
  | 0, _, _ :: _ => none
  | n + 1, s, a :: l =>
    match s.cell a with
    | none => none
    | some c =>
      if s.rc a = 0 then none
      else if s.rc a = 1 then
        match c.releases with
        | none => none
        | some fs => St.relAll n (s.drop a) (fs ++ l)
      else St.relAll n (s.decr a) l

/-- `cowl_release`, `cowl_object.c:171-194`, of a reference that is counted in `ext`. There are
at most as many steps as references. -/
def St.release (s : St) (a : Nat) : Option St :=
  St.relAll s.total { s with ext := fun b => if b = a then s.ext b - 1 else s.ext b } [a]

/-- `cowl_release` of a pointer that may be NULL, `cowl_object.c:172`. -/
def St.releaseOpt (s : St) : Option Nat → Option St
  | none => some s
  | some a => s.release a

/-- `cowl_retain`, `cowl_object.c:157-160`; the new reference goes to the caller. -/
def St.retain (s : St) (a : Nat) : Option St :=
  if s.live a then
    some { s with rc := fun b => if b = a then s.rc b + 1 else s.rc b
                  ext := fun b => if b = a then s.ext b + 1 else s.ext b }
  else none

/-- A new object at `a`, which the caller owns, and `cowl_retain` on everything it refers to. -/
def St.new (s : St) (a : Nat) (c : Cell) : St :=
  { s with dom := a :: s.dom
           cell := fun b => if b = a then some c else s.cell b
           rc := fun b => if b = a then 1 else s.rc b + c.refs.count b
           ext := fun b => if b = a then 1 else s.ext b }

/-- Pointers none of which is NULL. -/
def notNull : List (Option Nat) → Option (List Nat)
  | [] => some []
  | none :: _ => none
  | some a :: l => (notNull l).map (a :: ·)

/-- What a function returns: the state and a pointer. -/
abbrev Res := Option (St × Option Nat)

/-- `cowl_get_impl`, `cowl_object.c:422-433`, and `cowl_get_impl_uint`, `441-459`. The block is
allocated first. Retaining NULL or an object that is gone is undefined. -/
def St.make (s : St) (m : Option Nat) (t : OType) (fields : List (Option Nat)) (opt : Option Nat)
    (uint : Nat) : Res :=
  match m with
  | none => some (s, none)
  | some a =>
    match notNull fields with
    | none => none
    | some fs =>
      if (fs ++ opt.toList).all s.live then
        some (s.new a (.comp t opt.isSome (fs ++ opt.toList) uint), some a)
      else none

/-- `cowl_get_impl_annot`, `cowl_object.c:435-439`: an empty vector counts as none. -/
def St.makeAnnot (s : St) (m : Option Nat) (t : OType) (fields : List (Option Nat))
    (annot : Option Nat) : Res :=
  match annot with
  | none => s.make m t fields none 0
  | some v =>
    match s.cell v with
    | some (.vec _ items) => s.make m t fields (if items.isEmpty then none else some v) 0
    | _ => none

/-- `cowl_vector_from_array`, `cowl_vector.c:64-71`, `cowl_vector_with_args`, `25-35`,
`cowl_vector_with_items`, `73-79`, and `cowl_vector_empty`, `include/cowl_vector.h:120`, all by
way of `cowl_vector` and `cowl_vector_wrap`, `cowl_vector.c:44-62`. `buf` tells whether the
buffer for the items could be allocated; without items there is none. If there is no memory for
the vector itself, or for shrinking the buffer, the buffer is not freed. -/
def St.vector (s : St) (buf : Bool) (m : Option Nat) (items : List Nat) : Res :=
  if !items.isEmpty && !buf then some (s, none)
  else
    match m with
    | none => some ({ s with lost := s.lost + if items.isEmpty then 0 else 1 }, none)
    | some a => if items.all s.live then some (s.new a (.vec false items), some a) else none

/-- `cowl_nary_get_impl`, `cowl_object.c:461-470`. -/
def St.nary (s : St) (buf : Bool) (m₁ m₂ : Option Nat) (t : OType) (items : List Nat) : Res :=
  match s.vector buf m₁ items with
  | none => none
  | some (s, none) => some (s, none)
  | some (s, some v) =>
    match s.make m₂ t [some v] none 0 with
    | none => none
    | some (s, r) => (s.release v).map fun s => (s, r)

/-- The bit is set on a composite: `cowl_set_bit`, `cowl_object_private.h:59-61`. -/
def Cell.setBit : Cell → Cell
  | .leaf o => .leaf o
  | .vec _ items => .vec true items
  | .comp t _ fields uint => .comp t true fields uint

/-- `cowl_set_bit`, `cowl_object_private.h:59-61`, of a pointer that must not be NULL. -/
def St.setBit (s : St) : Option Nat → Option St
  | none => none
  | some a =>
    match s.cell a with
    | none => none
    | some c => some { s with cell := fun b => if b = a then some c.setBit else s.cell b }

/-- `cowl_literal_alloc`, `cowl_literal.c:80-84`. -/
def St.literal (s : St) (m : Option Nat) (value tag : Nat) (isLang : Bool) : Res :=
  match s.make m .literal [some value, some tag] none 0 with
  | none => none
  | some (s, r) => if isLang then (s.setBit r).map fun s => (s, r) else some (s, r)

/-- Argument of `cowl_has_key_axiom`, `cowl_has_key_axiom.c:18-19`: retained, or a new empty
vector. -/
def St.keyArg (s : St) (m : Option Nat) : Option Nat → Res
  | some v => (s.retain v).map fun s => (s, some v)
  | none => s.vector true m []

/-- `cowl_has_key_axiom`, `cowl_has_key_axiom.c:16-24`. -/
def St.hasKey (s : St) (m₁ m₂ m₃ : Option Nat) (cls : Nat) (objs datas annot : Option Nat) : Res :=
  match s.keyArg m₁ objs with
  | none => none
  | some (s, o) =>
    match s.keyArg m₂ datas with
    | none => none
    | some (s, d) =>
      match s.makeAnnot m₃ .aHasKey [some cls, o, d] annot with
      | none => none
      | some (s, r) =>
        match s.releaseOpt o with
        | none => none
        | some s => (s.releaseOpt d).map fun s => (s, r)

/-- `cowl_sub_obj_prop_chain_axiom`, `cowl_sub_obj_prop_axiom.c:15-19`. -/
def St.chain (s : St) (m : Option Nat) (sub super : Nat) (annot : Option Nat) : Res :=
  match s.setBit (some sub) with
  | none => none
  | some s => s.makeAnnot m .aSubObjProp [some sub, some super] annot

/-- `cowl_vector_ordered_empty`, `cowl_vector.c:81-85`. -/
def St.orderedEmpty (s : St) (m : Option Nat) : Res :=
  match s.vector true m [] with
  | none => none
  | some (s, r) => (s.setBit r).map fun s => (s, r)

/-- `cowl_vector_add`, `cowl_vector.c:177-182`; `ok` tells whether there was memory. -/
def St.add (s : St) (ok : Bool) (v x : Nat) : Option St :=
  match s.cell v with
  | some (.vec b items) =>
    if !ok then some s
    else if s.live x then
      some { s with cell := fun c => if c = v then some (.vec b (items ++ [x])) else s.cell c
                    rc := fun c => if c = x then s.rc c + 1 else s.rc c }
    else none
  | _ => none

/-! ## The constructors of the library -/

/-- Which of the functions of `include/cowl_impl.h:33-130` a constructor calls. -/
inductive Form where
  | plain | opt | annot | uint
  deriving DecidableEq

/-- A constructor: object type, number of fields it passes, function it calls. -/
structure Ctor where
  type : OType
  n : Nat
  form : Form
  deriving DecidableEq

/-- Every call of `cowl_get_impl_1` and so on in the public headers and in the sources, but for
those that are modelled on their own (literals, `HasKey`, property chains). Types that the code
computes from an enumeration are all listed: the enumeration is checked before. -/
def ctors : List Ctor := [
  ⟨.ceObjSome, 1, .opt⟩, ⟨.ceObjAll, 1, .opt⟩,                     -- cowl_obj_quant.c:25
  ⟨.ceDataSome, 1, .opt⟩, ⟨.ceDataAll, 1, .opt⟩,                   -- cowl_data_quant.c:26
  ⟨.ceObjIntersect, 1, .plain⟩, ⟨.ceObjUnion, 1, .plain⟩,          -- cowl_nary_cls.h:63
  ⟨.aSubAnnotProp, 2, .annot⟩,                                     -- cowl_sub_annot_prop_axiom.h:53
  ⟨.facetRestr, 2, .plain⟩,                                        -- cowl_facet_restr.h:51
  ⟨.ceObjHasSelf, 1, .plain⟩,                                      -- cowl_obj_has_self.h:50
  ⟨.aSubClass, 2, .annot⟩,                                         -- cowl_sub_cls_axiom.h:53
  ⟨.aDataPropDomain, 2, .annot⟩,                                   -- cowl_data_prop_domain_axiom.h:55
  ⟨.drDataIntersect, 1, .plain⟩, ⟨.drDataUnion, 1, .plain⟩,        -- cowl_nary_data.h:56
  ⟨.opeInvObjProp, 1, .plain⟩,                                     -- cowl_inv_obj_prop.h:49
  ⟨.aSubObjProp, 2, .annot⟩,                                       -- cowl_sub_obj_prop_axiom.h:54
  ⟨.ceObjMinCard, 1, .uint⟩, ⟨.ceObjMaxCard, 1, .uint⟩,            -- cowl_obj_card.h:64
  ⟨.ceObjExactCard, 1, .uint⟩,
  ⟨.aEquivClasses, 1, .annot⟩, ⟨.aDisjClasses, 1, .annot⟩,         -- cowl_nary_cls_axiom.h:58
  ⟨.drDatatypeRestr, 2, .plain⟩,                                   -- cowl_datatype_restr.h:51
  ⟨.ceObjCompl, 1, .plain⟩,                                        -- cowl_obj_compl.h:50
  ⟨.aInvObjProp, 2, .annot⟩,                                       -- cowl_inv_obj_prop_axiom.h:54
  ⟨.aDataPropAssert, 3, .annot⟩, ⟨.aNegDataPropAssert, 3, .annot⟩, -- cowl_data_prop_assert_axiom.h:64, 82
  ⟨.aAnnotPropDomain, 2, .annot⟩,                                  -- cowl_annot_prop_domain_axiom.h:54
  ⟨.aSubDataProp, 2, .annot⟩,                                      -- cowl_sub_data_prop_axiom.h:54
  ⟨.aObjPropAssert, 3, .annot⟩, ⟨.aNegObjPropAssert, 3, .annot⟩,   -- cowl_obj_prop_assert_axiom.h:63, 81
  ⟨.annotation, 2, .annot⟩,                                        -- cowl_annotation.h:54
  ⟨.aAnnotAssert, 3, .annot⟩,                                      -- cowl_annot_assert_axiom.h:56
  ⟨.drDataOneOf, 1, .plain⟩,                                       -- cowl_data_one_of.h:49
  ⟨.aObjPropRange, 2, .annot⟩,                                     -- cowl_obj_prop_range_axiom.h:55
  ⟨.aAnnotPropRange, 2, .annot⟩,                                   -- cowl_annot_prop_range_axiom.h:53
  ⟨.aFuncObjProp, 1, .annot⟩, ⟨.aInvFuncObjProp, 1, .annot⟩,       -- cowl_obj_prop_char_axiom.h:80
  ⟨.aReflObjProp, 1, .annot⟩, ⟨.aIrreflObjProp, 1, .annot⟩,
  ⟨.aSymmObjProp, 1, .annot⟩, ⟨.aAsymmObjProp, 1, .annot⟩,
  ⟨.aTransObjProp, 1, .annot⟩,
  ⟨.ceDataHasValue, 2, .plain⟩,                                    -- cowl_data_has_value.h:52
  ⟨.aDecl, 1, .annot⟩,                                             -- cowl_decl_axiom.h:52
  ⟨.ceObjOneOf, 1, .plain⟩,                                        -- cowl_obj_one_of.h:49
  ⟨.aSameInd, 1, .annot⟩, ⟨.aDiffInd, 1, .annot⟩,                  -- cowl_nary_ind_axiom.h:59
  ⟨.aDisjUnion, 2, .annot⟩,                                        -- cowl_disj_union_axiom.h:53
  ⟨.drDataCompl, 1, .plain⟩,                                       -- cowl_data_compl.h:50
  ⟨.aEquivDataProp, 1, .annot⟩, ⟨.aDisjDataProp, 1, .annot⟩,       -- cowl_nary_data_prop_axiom.h:59
  ⟨.aEquivObjProp, 1, .annot⟩, ⟨.aDisjObjProp, 1, .annot⟩,         -- cowl_nary_obj_prop_axiom.h:59
  ⟨.ceObjHasValue, 2, .plain⟩,                                     -- cowl_obj_has_value.h:52
  ⟨.aClassAssert, 2, .annot⟩,                                      -- cowl_cls_assert_axiom.h:55
  ⟨.aObjPropDomain, 2, .annot⟩,                                    -- cowl_obj_prop_domain_axiom.h:55
  ⟨.aDatatypeDef, 2, .annot⟩,                                      -- cowl_datatype_def_axiom.h:55
  ⟨.aFuncDataProp, 1, .annot⟩,                                     -- cowl_func_data_prop_axiom.h:52
  ⟨.ceDataMinCard, 1, .uint⟩, ⟨.ceDataMaxCard, 1, .uint⟩,          -- cowl_data_card.h:64
  ⟨.ceDataExactCard, 1, .uint⟩,
  ⟨.aDataPropRange, 2, .annot⟩ ]                                   -- cowl_data_prop_range_axiom.h:55

/-- The types passed to `cowl_nary_get_impl`, `cowl_nary_cls.h:94, 117`,
`cowl_nary_data.h:80, 103`, `cowl_nary_cls_axiom.h:84, 108`, `cowl_nary_ind_axiom.h:84, 108`,
`cowl_nary_data_prop_axiom.h:85, 110`, `cowl_nary_obj_prop_axiom.h:85, 110`. -/
def naryTypes : List OType := [
  .ceObjIntersect, .ceObjUnion, .drDataIntersect, .drDataUnion, .aEquivClasses, .aDisjClasses,
  .aSameInd, .aDiffInd, .aEquivDataProp, .aDisjDataProp, .aEquivObjProp, .aDisjObjProp ]

/-! ## Calls of a client -/

/-- A call, with the allocations it makes. `opt` is the optional field, or the annotations.
`add` is what `cowl_ontology_add_annot` does with the vector of an ontology,
`cowl_ontology.c:444-447`; `ordered` is how such a vector comes to be, `cowl_ontology.c:157-159`.
`leaf` is a string or a primitive the client has got by other functions. -/
inductive Op where
  | leaf (m : Nat) (o : Obj)
  | make (m : Option Nat) (k : Ctor) (fields : List Nat) (opt : Option Nat) (uint : Nat)
  | vector (buf : Bool) (m : Option Nat) (items : List Nat)
  | nary (buf : Bool) (m₁ m₂ : Option Nat) (t : OType) (items : List Nat)
  | literal (m : Option Nat) (value tag : Nat) (isLang : Bool)
  | hasKey (m₁ m₂ m₃ : Option Nat) (cls : Nat) (objs datas annot : Option Nat)
  | chain (m : Option Nat) (sub super : Nat) (annot : Option Nat)
  | ordered (m : Option Nat)
  | add (ok : Bool) (v x : Nat)
  | retain (a : Nat)
  | release (a : Nat)

/-- Effect of a call. -/
def St.step (s : St) : Op → Res
  | .leaf m o => some (s.new m (.leaf o), some m)
  | .make m k fields opt uint =>
    match k.form with
    | .plain => s.make m k.type (fields.map some) none 0
    | .opt => s.make m k.type (fields.map some) opt 0
    | .annot => s.makeAnnot m k.type (fields.map some) opt
    | .uint => s.make m k.type (fields.map some) opt uint
  | .vector buf m items => s.vector buf m items
  | .nary buf m₁ m₂ t items => s.nary buf m₁ m₂ t items
  | .literal m value tag isLang => s.literal m value tag isLang
  | .hasKey m₁ m₂ m₃ cls objs datas annot => s.hasKey m₁ m₂ m₃ cls objs datas annot
  | .chain m sub super annot => s.chain m sub super annot
  | .ordered m => s.orderedEmpty m
  | .add ok v x => (s.add ok v x).map fun s => (s, none)
  | .retain a => (s.retain a).map fun s => (s, some a)
  | .release a => (s.release a).map fun s => (s, none)

/-! ## Objects as values -/

/-- Several optional values, all of which are there. -/
def allSome {α} : List (Option α) → Option (List α)
  | [] => some []
  | none :: _ => none
  | some a :: l => (allSome l).map (a :: ·)

/-- The value of a composite whose fields have the given values. -/
def compView (t : OType) (bit : Bool) (fs : List Obj) (uint : Nat) : Option Obj :=
  if t = .literal then
    match bit, fs with
    | true, [.str v, .str l] => some (.lit v (.lang l))
    | false, [.str v, .prim (.ent .datatype i)] => some (.lit v (.dt i))
    | _, _ => none
  else some (.comp t bit fs uint)

/-- The value of the object at an address, as in `Verif/Obj.lean`; `none` if it is nested deeper
than the bound, or refers to nothing. -/
def St.view (s : St) : Nat → Nat → Option Obj
  | 0, _ => none
  | n + 1, a =>
    match s.cell a with
    | none => none
    | some (.leaf o) => some o
    | some (.vec b items) => (allSome (items.map fun x => s.view n x)).map (Obj.vec b)
    | some (.comp t b fields u) =>
      (allSome (fields.map fun x => s.view n x)).bind fun fs => compView t b fs u

end Cowl.Own
