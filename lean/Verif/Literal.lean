import Verif.Iter
/-!
# Literals, quantifiers, names

Models `src/cowl_literal.c`, `src/cowl_obj_quant.c`, `src/cowl_data_quant.c`,
`include/cowl_obj_card.h` and the IRI queries of `src/cowl_object.c`.
Allocation failure is not modelled. Interned strings and entities are compared by
address in C and by content here (justified by C04).
-/
namespace Cowl

/-! ## Literals -/

/-- `ulib_str_to_lower` (ulib): ASCII lower case. -/
def lowerByte (c : UInt8) : UInt8 := if 65 ≤ c ∧ c ≤ 90 then c + 32 else c

/-- `ulib_str_to_lower` on a whole string. -/
def lower (s : Str) : Str := s.map lowerByte

/-- Third parameter of `cowl_literal`: nothing, a language string, or a datatype. -/
inductive LitArg where
  | none
  | lang (s : Str)
  | dt (i : Iri)

/-- Result of a constructor: a literal, or undefined behaviour. -/
inductive LitRes where
  | lit (value : Str) (tag : LitTag)
  | ub
  deriving DecidableEq

/-- `ustring_index_of_last` (ulib): index of the last occurrence, the length if there is none. -/
def indexOfLast (s : Str) (c : UInt8) : Nat :=
  match s.reverse.findIdx? (· == c) with
  | some i => s.length - 1 - i
  | none => s.length

/-- `is_lang_datatype`, `cowl_literal.c:75-78`. -/
def isLangDatatype (i : Iri) : Bool := i == rdfLangString || i == rdfPlainLiteral

/-- `cowl_literal_string_alloc`, `cowl_literal.c:86-88`. -/
def literalString (value : Str) : LitRes := .lit value (.dt xsdString)

/-- `cowl_literal_lang_alloc`, `cowl_literal.c:90-96`, with `internalize_lang`,
`59-73`: both branches store the lower-case form. -/
def literalLang (value lang : Str) : LitRes :=
  if lang.length = 0 then literalString value else .lit value (.lang (lower lang))

/-- `cowl_literal_parse_lang_alloc`, `cowl_literal.c:98-105`, with `parse_lang`,
`31-57`. Without a language part `lang` is `NULL`, and `cowl_literal_alloc` passes
it to `cowl_retain`, which dereferences it (`cowl_object.c:157-160`, `422-429`). -/
def literalParseLang (value : Str) : LitRes :=
  let langIdx := indexOfLast value 64 + 1
  if langIdx ≥ value.length then .ub
  else .lit (value.take (langIdx - 1)) (.lang (lower (value.drop langIdx)))

/-- `cowl_literal`, `cowl_literal.c:117-124`. -/
def literal (value : Str) : LitArg → LitRes
  | .none => literalString value
  | .lang l => literalLang value l
  | .dt i => if isLangDatatype i then literalParseLang value else .lit value (.dt i)

/-- `cowl_literal_plain`, `cowl_literal.c:126-132`. -/
def literalPlain (value : Str) : LitRes := literalString value

/-- `cowl_literal_typed`, `cowl_literal.c:134-140`: no special treatment of
language datatypes. -/
def literalTyped (value : Str) (i : Iri) : LitRes := .lit value (.dt i)

/-- `cowl_literal_get_datatype`, `cowl_literal.c:160-163`. -/
def litDatatype : LitTag → Iri
  | .lang _ => rdfLangString
  | .dt i => i

/-- `cowl_literal_get_lang`, `cowl_literal.c:169-172`. -/
def litLang : LitTag → Option Str
  | .lang l => some l
  | .dt _ => none

/-! ## Quantifiers and cardinality restrictions -/

/-- `if (filler == <default>) filler = NULL`, `cowl_obj_quant.c:24`, `cowl_data_quant.c:25`. -/
def dropDefault (d : Prim) : Option Obj → Option Obj
  | some (.prim p) => if p = d then none else some (.prim p)
  | f => f

/-- `cowl_obj_quant`, `cowl_obj_quant.c:22-26`; 0 is `COWL_QT_SOME`, 1 is `COWL_QT_ALL`. -/
def objQuant (qt : Nat) (prop : Obj) (filler : Option Obj) : Option Obj :=
  if qt ≥ 2 then none else
  some (getImpl (if qt = 0 then .ceObjSome else .ceObjAll) [prop]
    (dropDefault (.ent .cls owlThing) filler))

/-- `cowl_get_opt_field`, `cowl_object.c:495-498`. -/
def getOptField : Obj → Option Obj
  | .comp t bit fs _ => if bit then fs[t.fieldCount]? else none
  | _ => none

/-- `cowl_obj_quant_get_filler`, `cowl_obj_quant.c:28-31`. -/
def objQuantFiller (o : Obj) : Obj := (getOptField o).getD (.prim (.ent .cls owlThing))

/-- `cowl_obj_quant_get_prop`, `include/cowl_obj_quant.h:104-106`. -/
def restrProp : Obj → Option Obj
  | .comp _ _ fs _ => fs[0]?
  | _ => none

/-- `cowl_data_quant`, `cowl_data_quant.c:22-27`. -/
def dataQuant (qt : Nat) (prop : Obj) (range : Option Obj) : Option Obj :=
  if qt ≥ 2 then none else
  some (getImpl (if qt = 0 then .ceDataSome else .ceDataAll) [prop]
    (dropDefault (.ent .datatype rdfsLiteral) range))

/-- `cowl_data_quant_get_range`, `cowl_data_quant.c:29-32`. -/
def dataQuantRange (o : Obj) : Obj := (getOptField o).getD (.prim (.ent .datatype rdfsLiteral))

/-- `cowl_obj_card`, `include/cowl_obj_card.h`; 0 min, 1 max, 2 exact. -/
def objCard (ct : Nat) (prop : Obj) (filler : Option Obj) (n : Nat) : Option Obj :=
  match ct with
  | 0 => some (getImplUint .ceObjMinCard [prop] n filler)
  | 1 => some (getImplUint .ceObjMaxCard [prop] n filler)
  | 2 => some (getImplUint .ceObjExactCard [prop] n filler)
  | _ => none

/-- `cowl_get_uint_field`, `cowl_object.c:500-506`. -/
def getUint : Obj → Nat
  | .comp _ _ _ u => u
  | _ => 0

/-! ## Queries by IRI -/

/-- `cowl_has_iri_string`, `cowl_object.c:248-260`. -/
def hasIriString (o : Obj) (s : Str) : Bool :=
  match o.iri? with
  | none => false
  | some i =>
    if s.length != i.ns.length + i.rem.length then false
    else if !(i.rem.isSuffixOf s) then false
    else i.ns.isPrefixOf s

end Cowl
