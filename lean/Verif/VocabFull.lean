import Verif.Vocab
import Verif.Literal
/-!
# Vocabularies in full

Models `src/cowl_owl_vocab.c`, `src/cowl_rdf_vocab.c`, `src/cowl_rdfs_vocab.c`,
`src/cowl_xml_vocab.c` and `src/cowl_xsd_vocab.c` with their headers: the members of
the structures, what the initialisers put there, what the validators look at and
what the destructors free; and the predicates on reserved terms of
`src/cowl_vocab.c`, `src/cowl_iri.c`, `src/cowl_entity.c` and `src/cowl_object.c`.

A member is named by its part of the structure and its name there. An IRI is its
namespace and remainder, and an entity is its kind and IRI (C04, C44).
-/
namespace Cowl.Voc

/-- Parts of the vocabulary structures. -/
inductive Sec where
  | ns | prefix | iri | cls | dt | objProp | dataProp | annotProp | xmlnsNs | xmlnsPrefix
  deriving DecidableEq, Repr

/-- A member: part of the structure, and name (none for the strings). -/
abbrev Member := Sec × String

/-- One vocabulary. `strings`: `cowl_string_vocab` and `cowl_string_vocab_intern`;
`iris`: member and remainder given to `cowl_iri_vocab` with the namespace;
`ents`: member, kind of the constructor, and member of the IRI it is given;
macros of `cowl_vocab_private.h:34-60`. -/
structure Def where
  members : List Member
  strings : List (Sec × String)
  iris : List (String × String)
  ents : List (Sec × String × EntKind × String)
  checked : List Member
  freed : List Member

/-- Members of `CowlOWLVocab` and its parts, `include/cowl_owl_vocab.h:30-164`. -/
def owlMembers : List Member :=
    [(.ns, ""), (.prefix, ""), (.iri, "backward_comp"), (.iri, "bottom_data_prop"),
     (.iri, "bottom_obj_prop"), (.iri, "deprecated"), (.iri, "incompatible"), (.iri, "nothing"),
     (.iri, "prior_version"), (.iri, "rational"), (.iri, "real"), (.iri, "version_info"),
     (.iri, "thing"), (.iri, "top_data_prop"), (.iri, "top_obj_prop"), (.cls, "thing"),
     (.cls, "nothing"), (.dt, "rational"), (.dt, "real"), (.objProp, "top_obj_prop"),
     (.objProp, "bottom_obj_prop"), (.dataProp, "top_data_prop"),
     (.dataProp, "bottom_data_prop"), (.annotProp, "backward_comp"), (.annotProp, "deprecated"),
     (.annotProp, "incompatible"), (.annotProp, "prior_version"), (.annotProp, "version_info")]

/-- `cowl_owl_vocab_init`, `cowl_owl_vocab.c:33-84`; `cowl_owl_vocab_validate`,
`17-31`; `cowl_owl_vocab_deinit`, `86-123`. -/
def owlDef : Def :=
  { members := owlMembers
    strings :=
      [(.ns, "http://www.w3.org/2002/07/owl#"), (.prefix, "owl")]
    iris :=
      [("thing", "Thing"), ("nothing", "Nothing"), ("top_obj_prop", "topObjectProperty"),
       ("bottom_obj_prop", "bottomObjectProperty"), ("top_data_prop", "topDataProperty"),
       ("bottom_data_prop", "bottomDataProperty"), ("backward_comp", "backwardCompatibleWith"),
       ("deprecated", "deprecated"), ("incompatible", "incompatibleWith"),
       ("prior_version", "priorVersion"), ("rational", "rational"), ("real", "real"),
       ("version_info", "versionInfo")]
    ents :=
      [(.cls, "thing", .cls, "thing"), (.cls, "nothing", .cls, "nothing"),
       (.dt, "rational", .datatype, "rational"), (.dt, "real", .datatype, "real"),
       (.objProp, "top_obj_prop", .objProp, "top_obj_prop"),
       (.objProp, "bottom_obj_prop", .objProp, "bottom_obj_prop"),
       (.dataProp, "top_data_prop", .dataProp, "top_data_prop"),
       (.dataProp, "bottom_data_prop", .dataProp, "bottom_data_prop"),
       (.annotProp, "backward_comp", .annotProp, "backward_comp"),
       (.annotProp, "deprecated", .annotProp, "deprecated"),
       (.annotProp, "incompatible", .annotProp, "incompatible"),
       (.annotProp, "prior_version", .annotProp, "prior_version"),
       (.annotProp, "version_info", .annotProp, "version_info")]
    checked :=
    [(.ns, ""), (.prefix, ""), (.iri, "thing"), (.iri, "nothing"), (.iri, "top_obj_prop"),
     (.iri, "bottom_obj_prop"), (.iri, "top_data_prop"), (.iri, "bottom_data_prop"),
     (.iri, "backward_comp"), (.iri, "deprecated"), (.iri, "incompatible"),
     (.iri, "prior_version"), (.iri, "rational"), (.iri, "real"), (.iri, "version_info"),
     (.cls, "thing"), (.cls, "nothing"), (.dt, "rational"), (.dt, "real"),
     (.objProp, "top_obj_prop"), (.objProp, "bottom_obj_prop"), (.dataProp, "top_data_prop"),
     (.dataProp, "bottom_data_prop"), (.annotProp, "backward_comp"), (.annotProp, "deprecated"),
     (.annotProp, "incompatible"), (.annotProp, "prior_version"), (.annotProp, "version_info")]
    freed :=
    [(.ns, ""), (.prefix, ""), (.iri, "thing"), (.iri, "nothing"), (.iri, "top_obj_prop"),
     (.iri, "bottom_obj_prop"), (.iri, "top_data_prop"), (.iri, "bottom_data_prop"),
     (.iri, "backward_comp"), (.iri, "deprecated"), (.iri, "incompatible"),
     (.iri, "prior_version"), (.iri, "rational"), (.iri, "real"), (.iri, "version_info"),
     (.cls, "thing"), (.cls, "nothing"), (.dt, "rational"), (.dt, "real"),
     (.objProp, "top_obj_prop"), (.objProp, "bottom_obj_prop"), (.dataProp, "top_data_prop"),
     (.dataProp, "bottom_data_prop"), (.annotProp, "backward_comp"), (.annotProp, "deprecated"),
     (.annotProp, "incompatible"), (.annotProp, "prior_version"), (.annotProp, "version_info")] }

/-- Members of `CowlRDFVocab` and its parts, `include/cowl_rdf_vocab.h:26-71`. -/
def rdfMembers : List Member :=
    [(.ns, ""), (.prefix, ""), (.iri, "lang_range"), (.iri, "lang_string"),
     (.iri, "plain_literal"), (.iri, "xml_literal"), (.dt, "lang_string"),
     (.dt, "plain_literal"), (.dt, "xml_literal")]

/-- `cowl_rdf_vocab_init`, `cowl_rdf_vocab.c:36-60`; `cowl_rdf_vocab_validate`,
`18-34`; `cowl_rdf_vocab_deinit`, `62-79`. The loops run over all pointers of the parts. -/
def rdfDef : Def :=
  let all := fun s => rdfMembers.filter fun m => m.1 == s
  { members := rdfMembers
    strings :=
      [(.ns, "http://www.w3.org/1999/02/22-rdf-syntax-ns#"), (.prefix, "rdf")]
    iris :=
      [("lang_range", "langRange"), ("lang_string", "langString"),
       ("plain_literal", "PlainLiteral"), ("xml_literal", "XMLLiteral")]
    ents :=
      [(.dt, "lang_string", .datatype, "lang_string"),
       (.dt, "plain_literal", .datatype, "plain_literal"),
       (.dt, "xml_literal", .datatype, "xml_literal")]
    checked :=
    [(.ns, ""), (.prefix, "")] ++ all .iri ++ all .dt
    freed :=
    [(.ns, ""), (.prefix, "")] ++ all .iri ++ all .dt }

/-- Members of `CowlRDFSVocab` and its parts, `include/cowl_rdfs_vocab.h:27-89`. -/
def rdfsMembers : List Member :=
    [(.ns, ""), (.prefix, ""), (.iri, "comment"), (.iri, "defined_by"), (.iri, "label"),
     (.iri, "literal"), (.iri, "see_also"), (.dt, "literal"), (.annotProp, "comment"),
     (.annotProp, "defined_by"), (.annotProp, "label"), (.annotProp, "see_also")]

/-- `cowl_rdfs_vocab_init`, `cowl_rdfs_vocab.c:26-53`; `cowl_rdfs_vocab_validate`,
`17-24`; `cowl_rdfs_vocab_deinit`, `55-72`. -/
def rdfsDef : Def :=
  { members := rdfsMembers
    strings :=
      [(.ns, "http://www.w3.org/2000/01/rdf-schema#"), (.prefix, "rdfs")]
    iris :=
      [("comment", "comment"), ("defined_by", "isDefinedBy"), ("label", "label"),
       ("literal", "Literal"), ("see_also", "seeAlso")]
    ents :=
      [(.dt, "literal", .datatype, "literal"), (.annotProp, "comment", .annotProp, "comment"),
       (.annotProp, "defined_by", .annotProp, "defined_by"),
       (.annotProp, "label", .annotProp, "label"),
       (.annotProp, "see_also", .annotProp, "see_also")]
    checked :=
    [(.ns, ""), (.prefix, ""), (.iri, "comment"), (.iri, "defined_by"), (.iri, "label"),
     (.iri, "literal"), (.iri, "see_also"), (.dt, "literal"), (.annotProp, "comment"),
     (.annotProp, "defined_by"), (.annotProp, "label"), (.annotProp, "see_also")]
    freed :=
    [(.ns, ""), (.prefix, ""), (.iri, "comment"), (.iri, "defined_by"), (.iri, "label"),
     (.iri, "literal"), (.iri, "see_also"), (.dt, "literal"), (.annotProp, "comment"),
     (.annotProp, "defined_by"), (.annotProp, "label"), (.annotProp, "see_also")] }

/-- Members of `CowlXMLVocab` and its parts, `include/cowl_xml_vocab.h:24-38`. -/
def xmlMembers : List Member :=
    [(.ns, ""), (.prefix, ""), (.xmlnsNs, ""), (.xmlnsPrefix, "")]

/-- `cowl_xml_vocab_init`, `cowl_xml_vocab.c:22-33`; `cowl_xml_vocab_validate`,
`17-20`; `cowl_xml_vocab_deinit`, `35-41`. -/
def xmlDef : Def :=
  { members := xmlMembers
    strings :=
      [(.ns, "http://www.w3.org/XML/1998/namespace"), (.prefix, "xml"),
       (.xmlnsNs, "http://www.w3.org/2000/xmlns/"), (.xmlnsPrefix, "xmlns")]
    iris :=
      []
    ents :=
      []
    checked :=
    [(.ns, ""), (.prefix, ""), (.xmlnsNs, ""), (.xmlnsPrefix, "")]
    freed :=
    [(.ns, ""), (.prefix, ""), (.xmlnsNs, ""), (.xmlnsPrefix, "")] }

/-- Members of `CowlXSDVocab` and its parts, `include/cowl_xsd_vocab.h:26-384`. -/
def xsdMembers : List Member :=
    [(.ns, ""), (.prefix, ""), (.iri, "any_atomic_type"), (.iri, "any_simple_type"),
     (.iri, "any_type"), (.iri, "any_uri"), (.iri, "base64_binary"), (.iri, "boolean"),
     (.iri, "byte"), (.iri, "date"), (.iri, "date_time"), (.iri, "date_timestamp"),
     (.iri, "day_time_duration"), (.iri, "decimal"), (.iri, "xsd_double"), (.iri, "duration"),
     (.iri, "entities"), (.iri, "entity"), (.iri, "xsd_float"), (.iri, "g_day"),
     (.iri, "g_month"), (.iri, "g_month_day"), (.iri, "g_year"), (.iri, "g_year_month"),
     (.iri, "hex_binary"), (.iri, "id"), (.iri, "id_ref"), (.iri, "id_refs"), (.iri, "xsd_int"),
     (.iri, "integer"), (.iri, "language"), (.iri, "xsd_long"), (.iri, "name"),
     (.iri, "ncname"), (.iri, "negative_int"), (.iri, "nmtoken"), (.iri, "nmtokens"),
     (.iri, "non_negative_int"), (.iri, "non_positive_int"), (.iri, "norm_string"),
     (.iri, "notation"), (.iri, "positive_int"), (.iri, "q_name"), (.iri, "xsd_short"),
     (.iri, "string"), (.iri, "time"), (.iri, "token"), (.iri, "unsigned_byte"),
     (.iri, "unsigned_int"), (.iri, "unsigned_long"), (.iri, "unsigned_short"),
     (.iri, "year_month_duration"), (.iri, "length"), (.iri, "min_length"),
     (.iri, "max_length"), (.iri, "pattern"), (.iri, "min_inclusive"), (.iri, "min_exclusive"),
     (.iri, "max_inclusive"), (.iri, "max_exclusive"), (.iri, "total_digits"),
     (.iri, "fraction_digits"), (.dt, "any_atomic_type"), (.dt, "any_simple_type"),
     (.dt, "any_type"), (.dt, "any_uri"), (.dt, "base64_binary"), (.dt, "boolean"),
     (.dt, "byte"), (.dt, "date"), (.dt, "date_time"), (.dt, "date_timestamp"),
     (.dt, "day_time_duration"), (.dt, "decimal"), (.dt, "xsd_double"), (.dt, "duration"),
     (.dt, "entities"), (.dt, "entity"), (.dt, "xsd_float"), (.dt, "g_day"), (.dt, "g_month"),
     (.dt, "g_month_day"), (.dt, "g_year"), (.dt, "g_year_month"), (.dt, "hex_binary"),
     (.dt, "id"), (.dt, "id_ref"), (.dt, "id_refs"), (.dt, "xsd_int"), (.dt, "integer"),
     (.dt, "language"), (.dt, "xsd_long"), (.dt, "name"), (.dt, "ncname"),
     (.dt, "negative_int"), (.dt, "nmtoken"), (.dt, "nmtokens"), (.dt, "non_negative_int"),
     (.dt, "non_positive_int"), (.dt, "norm_string"), (.dt, "notation"), (.dt, "positive_int"),
     (.dt, "q_name"), (.dt, "xsd_short"), (.dt, "string"), (.dt, "time"), (.dt, "token"),
     (.dt, "unsigned_byte"), (.dt, "unsigned_int"), (.dt, "unsigned_long"),
     (.dt, "unsigned_short"), (.dt, "year_month_duration")]

/-- `cowl_xsd_vocab_init`, `cowl_xsd_vocab.c:36-163`; `cowl_xsd_vocab_validate`,
`18-34`; `cowl_xsd_vocab_deinit`, `165-182`. The loops run over all pointers of the parts. -/
def xsdDef : Def :=
  let all := fun s => xsdMembers.filter fun m => m.1 == s
  { members := xsdMembers
    strings :=
      [(.ns, "http://www.w3.org/2001/XMLSchema#"), (.prefix, "xsd")]
    iris :=
      [("any_atomic_type", "anyAtomicType"), ("any_simple_type", "anySimpleType"),
       ("any_type", "anyType"), ("any_uri", "anyURI"), ("base64_binary", "base64Binary"),
       ("boolean", "boolean"), ("byte", "byte"), ("date", "date"), ("date_time", "dateTime"),
       ("date_timestamp", "dateTimeStamp"), ("day_time_duration", "dayTimeDuration"),
       ("decimal", "decimal"), ("xsd_double", "double"), ("duration", "duration"),
       ("entities", "ENTITIES"), ("entity", "ENTITY"), ("xsd_float", "float"),
       ("g_day", "gDay"), ("g_month", "gMonth"), ("g_month_day", "gMonthDay"),
       ("g_year", "gYear"), ("g_year_month", "gYearMonth"), ("hex_binary", "hexBinary"),
       ("id", "ID"), ("id_ref", "IDREF"), ("id_refs", "IDREFS"), ("xsd_int", "int"),
       ("integer", "integer"), ("language", "language"), ("xsd_long", "long"), ("name", "Name"),
       ("ncname", "NCName"), ("negative_int", "negativeInteger"), ("nmtoken", "NMTOKEN"),
       ("nmtokens", "NMTOKENS"), ("non_negative_int", "nonNegativeInteger"),
       ("non_positive_int", "nonPositiveInteger"), ("norm_string", "normalizedString"),
       ("notation", "NOTATION"), ("positive_int", "positiveInteger"), ("q_name", "QName"),
       ("xsd_short", "short"), ("string", "string"), ("time", "time"), ("token", "token"),
       ("unsigned_byte", "unsignedByte"), ("unsigned_int", "unsignedInt"),
       ("unsigned_long", "unsignedLong"), ("unsigned_short", "unsignedShort"),
       ("year_month_duration", "yearMonthDuration"), ("length", "length"),
       ("min_length", "minLength"), ("max_length", "maxLength"), ("pattern", "pattern"),
       ("min_inclusive", "minInclusive"), ("min_exclusive", "minExclusive"),
       ("max_inclusive", "maxInclusive"), ("max_exclusive", "maxExclusive"),
       ("total_digits", "totalDigits"), ("fraction_digits", "fractionDigits")]
    ents :=
      [(.dt, "any_atomic_type", .datatype, "any_atomic_type"),
       (.dt, "any_simple_type", .datatype, "any_simple_type"),
       (.dt, "any_type", .datatype, "any_type"), (.dt, "any_uri", .datatype, "any_uri"),
       (.dt, "base64_binary", .datatype, "base64_binary"),
       (.dt, "boolean", .datatype, "boolean"), (.dt, "byte", .datatype, "byte"),
       (.dt, "date", .datatype, "date"), (.dt, "date_time", .datatype, "date_time"),
       (.dt, "date_timestamp", .datatype, "date_timestamp"),
       (.dt, "day_time_duration", .datatype, "day_time_duration"),
       (.dt, "decimal", .datatype, "decimal"), (.dt, "xsd_double", .datatype, "xsd_double"),
       (.dt, "duration", .datatype, "duration"), (.dt, "entities", .datatype, "entities"),
       (.dt, "entity", .datatype, "entity"), (.dt, "xsd_float", .datatype, "xsd_float"),
       (.dt, "g_day", .datatype, "g_day"), (.dt, "g_month", .datatype, "g_month"),
       (.dt, "g_month_day", .datatype, "g_month_day"), (.dt, "g_year", .datatype, "g_year"),
       (.dt, "g_year_month", .datatype, "g_year_month"),
       (.dt, "hex_binary", .datatype, "hex_binary"), (.dt, "id", .datatype, "id"),
       (.dt, "id_ref", .datatype, "id_ref"), (.dt, "id_refs", .datatype, "id_refs"),
       (.dt, "xsd_int", .datatype, "xsd_int"), (.dt, "integer", .datatype, "integer"),
       (.dt, "language", .datatype, "language"), (.dt, "xsd_long", .datatype, "xsd_long"),
       (.dt, "name", .datatype, "name"), (.dt, "ncname", .datatype, "ncname"),
       (.dt, "negative_int", .datatype, "negative_int"), (.dt, "nmtoken", .datatype, "nmtoken"),
       (.dt, "nmtokens", .datatype, "nmtokens"),
       (.dt, "non_negative_int", .datatype, "non_negative_int"),
       (.dt, "non_positive_int", .datatype, "non_positive_int"),
       (.dt, "norm_string", .datatype, "norm_string"), (.dt, "notation", .datatype, "notation"),
       (.dt, "positive_int", .datatype, "positive_int"), (.dt, "q_name", .datatype, "q_name"),
       (.dt, "xsd_short", .datatype, "xsd_short"), (.dt, "string", .datatype, "string"),
       (.dt, "time", .datatype, "time"), (.dt, "token", .datatype, "token"),
       (.dt, "unsigned_byte", .datatype, "unsigned_byte"),
       (.dt, "unsigned_int", .datatype, "unsigned_int"),
       (.dt, "unsigned_long", .datatype, "unsigned_long"),
       (.dt, "unsigned_short", .datatype, "unsigned_short"),
       (.dt, "year_month_duration", .datatype, "year_month_duration")]
    checked :=
    [(.ns, ""), (.prefix, "")] ++ all .iri ++ all .dt
    freed :=
    [(.ns, ""), (.prefix, "")] ++ all .iri ++ all .dt }

/-- The vocabularies in the order of `cowl_vocab_init`, `cowl_vocab.c:31-46`. -/
def defs : List Def := [owlDef, rdfDef, rdfsDef, xmlDef, xsdDef]

/-- What a member points to. -/
inductive Val where
  | str (s : Str)
  | prim (p : Prim)
  deriving DecidableEq, Repr

/-- The string put into a part. -/
def Def.string (d : Def) (s : Sec) : Option Str := (d.strings.lookup s).map ascii

/-- The IRI of a member of the IRI part: `cowl_iri_vocab`, `cowl_vocab_private.h:38`. -/
def Def.iri (d : Def) (n : String) : Option Iri :=
  (d.iris.lookup n).bind fun r => (d.string .ns).map fun ns => ⟨ns, ascii r⟩

/-- The value of a member after the initialiser has run with enough memory. -/
def Def.val (d : Def) (m : Member) : Option Val :=
  match m.1 with
  | .iri => (d.iri m.2).map fun i => .prim (.iri i)
  | .ns | .prefix | .xmlnsNs | .xmlnsPrefix => (d.string m.1).map .str
  | s =>
    (d.ents.find? fun e => e.1 == s && e.2.1 == m.2).bind fun e =>
      (d.iri e.2.2.2).map fun i => .prim (.ent e.2.2.1 i)

/-- The validator, given which members are null: `cowl_owl_vocab.c:17-31`,
`cowl_rdf_vocab.c:18-34`, `cowl_rdfs_vocab.c:17-24`, `cowl_xml_vocab.c:17-20`,
`cowl_xsd_vocab.c:18-34`. -/
def Def.validate (d : Def) (null : Member → Bool) : Ret :=
  if d.checked.all fun m => !null m then .ok else .errMem

/-- `cowl_iri_is_reserved`, `cowl_iri.c:168-170`. -/
def iriIsReserved (i : Iri) : Bool := isReservedNs i.ns

/-- `cowl_entity_is_reserved`, `cowl_entity.c:135-137`. -/
def entIsReserved (_ : EntKind) (i : Iri) : Bool := iriIsReserved i

/-- `cowl_is_reserved`, `cowl_object.c:339-342`, with `cowl_get_iri`, `237-242`
(ontologies excluded). -/
def objIsReserved (o : Obj) : Bool :=
  match o.iri? with
  | none => false
  | some i => iriIsReserved i

/-- `cowl_get_ns`, `cowl_object.c:262-265`. -/
def getNs (o : Obj) : Option Str := o.iri?.map Iri.ns

/-- `cowl_get_rem`, `cowl_object.c:267-270`. -/
def getRem (o : Obj) : Option Str := o.iri?.map Iri.rem

end Cowl.Voc
