import Verif.UintText
import Verif.PrefixMap
import Verif.Literal
/-!
# Writer of the functional syntax: objects

Models `write_obj` of `src/formats/functional/writer/cowl_func_writer.c` and the
functions it calls. Stream errors are not modelled: the result is the text passed to
the stream.

`gp` is the lookup `cowl_prefix_map_get_prefix` in the prefix map of the encoder, by
text; it answers `none` if the encoder has no map. The first lookup brings the reverse
table up to date and later ones do not change it, so one function serves for the whole
text (`getPrefix_stable`).

Undefined behaviour is in `writeDefined`; the value of `writeObj` means nothing where
that is false.
-/
namespace Cowl.Func

/-- `write_full_iri`, `cowl_func_writer.c:162-166`. -/
def writeFullIri (i : Iri) : Str := 60 :: (i.ns ++ i.rem) ++ [62]

/-- `write_iri`, `cowl_func_writer.c:174-184`, with `write_short_iri`, `168-172`. -/
def writeIri (gp : Str → Option Str) (i : Iri) : Str :=
  if 0 < i.rem.length then
    match gp i.ns with
    | some p => p ++ 58 :: i.rem
    | none => writeFullIri i
  else writeFullIri i

/-- `write_literal_value`, `cowl_func_writer.c:190-201`: the value as a C string, with
a backslash before quotes and backslashes. -/
def escape : Str → Str
  | [] => []
  | c :: s =>
    if c = 0 then []
    else if c = 34 ∨ c = 92 then 92 :: c :: escape s
    else c :: escape s

/-- Tag of a literal, `cowl_func_writer.c:208-215`. -/
def writeTag (gp : Str → Option Str) (t : LitTag) : Str :=
  if litDatatype t = rdfLangString then 64 :: (litLang t).getD []
  else if litDatatype t = xsdString then []
  else 94 :: 94 :: writeIri gp (litDatatype t)

/-- `write_literal`, `cowl_func_writer.c:203-216`. -/
def writeLiteral (gp : Str → Option Str) (v : Str) (t : LitTag) : Str :=
  34 :: escape v ++ 34 :: writeTag gp t

/-- Texts separated by spaces: loops of `write_fields`, `cowl_func_writer.c:77-86`, and
`write_uvec`, `129-140`. -/
def joinSp : List Str → Str
  | [] => []
  | [x] => x
  | x :: y :: l => x ++ 32 :: joinSp (y :: l)

/-- Text followed by a space if there is one: `cowl_func_writer.c:98-102`, `232-235`,
`276-279`, `300-303`. -/
def thenSp : Option Str → Str
  | none => []
  | some a => a ++ [32]

/-- `write_object_type` on a valid type, `cowl_func_writer.c:67-69`,
`cowl_writer.c:192-203`. -/
def typeName (t : OType) : Str := ascii t.name

/-- The text of a composite from the texts `ws` of all its fields:
`write_construct`, `cowl_func_writer.c:106-111`; `write_construct_uint`, `113-120`;
`write_annot_construct`, `122-127`; `write_declaration`, `227-243`; `write_obj_quant`,
`245-252`; `write_data_quant`, `254-261`; `write_sub_obj_prop`, `270-293`, with
`write_obj_prop_chain`, `263-268`; `write_has_key`, `295-317`; `write_facet_restr`,
`319-321`; the choice between them is in `write_obj`, `386-429`. -/
def assemble (gp : Str → Option Str) (t : OType) (bit : Bool) (fs : List Obj) (ws : List Str)
    (u : Nat) : Str :=
  let fields := ws.take t.fieldCount
  let opt := if bit then ws[t.fieldCount]? else none
  let first := ws[0]?.getD []
  let second := ws[1]?.getD []
  match t with
  | .facetRestr => joinSp (fields ++ opt.toList)
  | .aDecl =>
    typeName t ++ 40 :: (thenSp opt ++
      (match fs[0]? with
       | some o => typeName o.otype ++ 40 :: (first ++ [41])
       | none => []) ++ [41])
  | .aSubObjProp =>
    typeName t ++ 40 :: (thenSp opt ++
      ((match fs[0]? with
       | some (.vec _ _) => ascii "ObjectPropertyChain" ++ 40 :: (first ++ [41])
       | _ => first) ++ 32 :: second) ++ [41])
  | .aHasKey =>
    typeName t ++ 40 :: (thenSp opt ++
      (first ++ 32 :: 40 :: (second ++ 41 :: 32 :: 40 :: (ws[2]?.getD [] ++ [41]))) ++ [41])
  | .ceObjSome | .ceObjAll =>
    typeName t ++ 40 :: (first ++ 32 :: (opt.getD (writeIri gp owlThing)) ++ [41])
  | .ceDataSome | .ceDataAll =>
    typeName t ++ 40 :: (first ++ 32 :: (opt.getD (writeIri gp rdfsLiteral)) ++ [41])
  | .ceObjMinCard | .ceObjMaxCard | .ceObjExactCard
  | .ceDataMinCard | .ceDataMaxCard | .ceDataExactCard =>
    typeName t ++ 40 :: (uintToStr (UInt32.ofNat u) ++ 32 :: joinSp (fields ++ opt.toList) ++ [41])
  | _ =>
    if t = .annotation ∨ t.isAxiom then typeName t ++ 40 :: (thenSp opt ++ joinSp fields ++ [41])
    else typeName t ++ 40 :: (joinSp (fields ++ opt.toList) ++ [41])

mutual
/-- `write_obj`, `cowl_func_writer.c:386-429`, with `write_vector`, `142-144`,
`write_anon_ind`, `218-221`, and `write_entity`, `223-225`. Ontologies, prefix maps,
readers and writers are written as debug text with their address, which is left out
here. -/
def writeObj (gp : Str → Option Str) : Obj → Str
  | .str s => s
  | .vec _ xs => joinSp (writeList gp xs)
  | .lit v t => writeLiteral gp v t
  | .prim (.iri i) => writeIri gp i
  | .prim (.ent _ i) => writeIri gp i
  | .prim (.anon id) => 95 :: 58 :: id
  | .other _ _ => []
  | .comp t bit fs u => assemble gp t bit fs (writeList gp fs) u

/-- The texts of the members of a list of objects. -/
def writeList (gp : Str → Option Str) : List Obj → List Str
  | [] => []
  | x :: xs => writeObj gp x :: writeList gp xs
end

/-- `write_sub_obj_prop` passes what is not a vector to `write_entity`,
`cowl_func_writer.c:283-287`, which reads it as an entity. -/
def subPropDefined : List Obj → Bool
  | .vec _ _ :: _ => true
  | .prim (.ent _ _) :: _ => true
  | _ => false

mutual
/-- Whether `write_obj` has defined behaviour. It has not if the sub-property of a
sub-object-property axiom is an inverse property (`cowl_func_writer.c:286`), or if a
literal has datatype rdf:langString but no language (`cowl_func_writer.c:211`,
`cowl_writer.c:177-179`: the language is NULL). -/
def writeDefined : Obj → Bool
  | .lit _ t => t != .dt rdfLangString
  | .vec _ xs => writeDefinedList xs
  | .comp t _ fs _ => (t != .aSubObjProp || subPropDefined fs) && writeDefinedList fs
  | _ => true

/-- All members of a list. -/
def writeDefinedList : List Obj → Bool
  | [] => true
  | x :: xs => writeDefined x && writeDefinedList xs
end

/-- `func_write`, `cowl_func_writer.c:431-437`, and the object part of
`func_write_axiom`, `448-455`; `none` is undefined behaviour. -/
def funcWrite (gp : Str → Option Str) (o : Obj) : Option Str :=
  if writeDefined o then some (writeObj gp o) else none

/-- The lookup of a prefix map, as text: `cowl_prefix_map_get_prefix`,
`cowl_prefix_map.c:129-131`. -/
def lookup (m : Prefix.PMap) (n : Str) : Option Str := (m.getPrefix n).2.map Prefix.SRef.txt

/-- Looking up a prefix does not change the answers of later lookups. -/
theorem getPrefix_stable (m : Prefix.PMap) (n n' : Str) : lookup (m.getPrefix n).1 n' = lookup m n' := by
  have h : m.updateReverse.updateReverse = m.updateReverse := by
    cases hd : m.dirty <;> simp [Prefix.PMap.updateReverse, hd]
  simp only [lookup, Prefix.PMap.getPrefix, h]

end Cowl.Func
