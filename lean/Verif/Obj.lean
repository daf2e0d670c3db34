import Verif.OType
/-!
# Objects: construction, equality, hash

Models `src/cowl_object.c` (construction, `cowl_equals`, `cowl_hash`),
`src/cowl_vector.c` (equality, hash), `src/cowl_literal.c` (equality, hash),
`src/cowl_axiom.c` (`cowl_axiom_equals`).

Primitives (IRIs, entities, anonymous individuals) are canonical: while alive,
two of them are the same pointer iff they have the same content. That is proved
separately for the instance tables (C04), so here a primitive *is* its content
and pointer comparison is equality of contents. Tables are handled in
`Verif.Table`; they never occur inside OWL constructs. Null members are not modelled.
-/
namespace Cowl

/-- `CowlIRI`: namespace and remainder, `cowl_iri_private.h`. -/
structure Iri where
  ns : Str
  rem : Str
  deriving DecidableEq, Repr

/-- `CowlEntityType`, `include/cowl_entity_type.h`, in declaration order. -/
inductive EntKind where
  | cls | datatype | objProp | dataProp | annotProp | namedInd
  deriving DecidableEq, Repr

/-- Primitives: IRI, entity, anonymous individual. -/
inductive Prim where
  | iri (i : Iri)
  | ent (k : EntKind) (i : Iri)
  | anon (id : Str)
  deriving DecidableEq, Repr

/-- Object type of the entities of a kind (`COWL_PRIMITIVE` initialisers of the
entity headers; inverse of `cowl_entity_get_type`, `cowl_entity.c:120-129`). -/
def EntKind.otype : EntKind → OType
  | .cls => .ceClass
  | .datatype => .drDatatype
  | .objProp => .opeObjProp
  | .dataProp => .dpeDataProp
  | .annotProp => .annotProp
  | .namedInd => .iNamed

/-- `cowl_get_type` on primitives, `cowl_object.c:196-198`. -/
def Prim.otype : Prim → OType
  | .iri _ => .iri
  | .ent k _ => k.otype
  | .anon _ => .iAnonymous

/-- Second field of a literal, `cowl_literal.c:80-84`: the interned language
tag (flag bit set) or the datatype (flag bit clear). -/
inductive LitTag where
  | lang (s : Str)
  | dt (i : Iri)
  deriving DecidableEq, Repr

/-- `CowlObject` and its subtypes. `comp` is `CowlComposite`
(`cowl_object_private.h:25-31`): type, optional-field bit, the object fields
(the optional one last) and the trailing unsigned field of cardinality
restrictions. `other` stands for ontologies, prefix maps, readers and writers,
which are compared by address only. -/
inductive Obj where
  | str (s : Str)
  | vec (ordered : Bool) (items : List Obj)
  | lit (value : Str) (tag : LitTag)
  | prim (p : Prim)
  | other (t : OType) (addr : Nat)
  | comp (t : OType) (bit : Bool) (fields : List Obj) (uint : Nat)
  deriving Repr

/-- `cowl_get_type`, `cowl_object.c:196-198`. -/
def Obj.otype : Obj → OType
  | .str _ => .string
  | .vec _ _ => .vector
  | .lit _ _ => .literal
  | .prim p => p.otype
  | .other t _ => t
  | .comp t _ _ _ => t

/-- Number of object fields, the optional one included:
`type_flag_field_count(flags)` plus one if the bit is set
(`cowl_object.c:318-323`, `359-361`, `411`). -/
def nFields (t : OType) (bit : Bool) : Nat := t.fieldCount + (if bit then 1 else 0)

/-! ## Construction -/

/-- `cowl_get_impl`, `cowl_object.c:422-433`. -/
def getImpl (t : OType) (fields : List Obj) (opt : Option Obj) : Obj :=
  match opt with
  | none => .comp t false fields 0
  | some o => .comp t true (fields ++ [o]) 0

/-- `cowl_get_impl_annot`, `cowl_object.c:435-439`: an empty annotation vector
counts as none. `annot` is the vector, as ordered bit and items. -/
def getImplAnnot (t : OType) (fields : List Obj) (annot : Option (Bool × List Obj)) : Obj :=
  match annot with
  | none => getImpl t fields none
  | some (o, xs) => if xs.length = 0 then getImpl t fields none else getImpl t fields (some (.vec o xs))

/-- `cowl_get_impl_uint`, `cowl_object.c:441-459`. -/
def getImplUint (t : OType) (fields : List Obj) (val : Nat) (opt : Option Obj) : Obj :=
  match opt with
  | none => .comp t false fields val
  | some o => .comp t true (fields ++ [o]) val

/-! ## Equality -/

mutual
/-- `cowl_equals`, `cowl_object.c:302-337`, with `cowl_vector_equals`,
`cowl_vector.c:112-130`, and `cowl_literal_equals`, `cowl_literal.c:174-177`.

`eqv false a b` is `cowl_equals(a, b)`; `eqv true a b` is `cowl_equals(b, a)`.
The second mode exists because `uvec_contains(rhs, item)` (`cowl_vector.c:122`)
compares with the vector's item on the left, and the recursion must follow the
first argument; `Obj.equals_vec` below gives the direct form. -/
def Obj.eqv (flip : Bool) : Obj → Obj → Bool
  | .str a, .str b => a == b
  | .vec o xs, .vec o' ys =>
    if (if flip then o' else o) then
      -- cowl_vector_equals_order: uvec_equals compares counts, then items in order
      eqvPrefix flip xs.length xs ys && xs.length == ys.length
    else if flip then
      -- cowl_vector_equals_no_order(b, a)
      ys.length == xs.length && ys.all fun y => (eqvRows false xs).any fun p => p y
    else
      -- cowl_vector_equals_no_order(a, b)
      xs.length == ys.length && (eqvRows true xs).all fun p => ys.any fun y => p y
  | .lit v t, .lit v' t' => t == t' && v == v'
  | .prim p, .prim q => p == q
  | .other t a, .other t' b => t == t' && a == b
  | .comp t b fs u, .comp t' b' fs' u' =>
    t == t' && b == b' && eqvPrefix flip (nFields t b) fs fs' && (!t.flags.card || u == u')
  | _, _ => false

/-- Loop over the first `n` fields, `cowl_object.c:328-330`. -/
def eqvPrefix (flip : Bool) (n : Nat) : List Obj → List Obj → Bool
  | x :: xs, ys =>
    match n, ys with
    | 0, _ => true
    | _ + 1, [] => false
    | n + 1, y :: ys => x.eqv flip y && eqvPrefix flip n xs ys
  | [], _ => n == 0

/-- The comparison functions of each item of a vector. -/
def eqvRows (flip : Bool) : List Obj → List (Obj → Bool)
  | [] => []
  | x :: xs => x.eqv flip :: eqvRows flip xs
end

/-- `cowl_equals`, `cowl_object.c:302-337`. -/
def Obj.equals (a b : Obj) : Bool := a.eqv false b

/-- `cowl_axiom_equals`, `cowl_axiom.c:22-37`, with `cowl_get_fields`,
`cowl_object.c:482-485`. Defined on composites; other objects are not axioms. -/
def axiomEquals (a b : Obj) (annotations : Bool) : Bool :=
  match a, b with
  | .comp t bit fs _, .comp t' bit' fs' _ =>
    if t != t' then false else
    let n := nFields t (annotations && bit)
    let n' := nFields t' (annotations && bit')
    if n != n' then false else eqvPrefix false n fs fs'
  | _, _ => false

/-! ## Hash -/

/-- The mixing functions of ulib and the addresses of primitives are abstract:
`combine` is `ulib_hash_combine`, `str` is `ustring_hash`, `ptr` is
`ulib_hash_alloc_ptr` on a primitive (a function of its identity), `optr` the
same on opaque objects, `langPtr` the same on interned strings. -/
structure Hasher where
  combine : UInt32 → UInt32 → UInt32
  str : Str → UInt32
  ptr : Prim → UInt32
  optr : Nat → UInt32
  langPtr : Str → UInt32

mutual
/-- `cowl_hash`, `cowl_object.c:344-375`, with `cowl_vector_hash`,
`cowl_vector.c:132-152`, and `cowl_literal_hash`, `cowl_literal.c:179-184`. -/
def Obj.hash (H : Hasher) : Obj → UInt32
  | .str s => H.str s
  | .vec o xs => if o then hashOrd H xs 0 else hashUnord H xs 0
  | .lit v t =>
    H.combine (H.combine (H.combine 6151 (UInt32.ofNat OType.literal.code)) (H.str v))
      (match t with | .lang s => H.langPtr s | .dt i => H.ptr (.ent .datatype i))
  | .prim p => H.ptr p
  | .other _ a => H.optr a
  | .comp t b fs u =>
    let h := hashPrefix H (nFields t b) fs (H.combine 6151 (UInt32.ofNat t.code))
    if t.flags.card then H.combine h (UInt32.ofNat u) else h

/-- Field loop, `cowl_object.c:366-368`. -/
def hashPrefix (H : Hasher) (n : Nat) : List Obj → UInt32 → UInt32
  | x :: xs, h =>
    match n with
    | 0 => h
    | n + 1 => hashPrefix H n xs (H.combine h (x.hash H))
  | [], h => h

/-- `cowl_vector_ordered_hash`, `cowl_vector.c:132-139`. -/
def hashOrd (H : Hasher) : List Obj → UInt32 → UInt32
  | [], h => h
  | x :: xs, h => hashOrd H xs (H.combine h (x.hash H))

/-- `cowl_vector_unordered_hash`, `cowl_vector.c:141-147`. -/
def hashUnord (H : Hasher) : List Obj → UInt32 → UInt32
  | [], h => h
  | x :: xs, h => hashUnord H xs (h ^^^ x.hash H)
end

end Cowl
