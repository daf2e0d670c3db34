import Verif.VocabFull
import Verif.XmlSpec
/-!
# Specification of the vocabularies

For each member the term it stands for, as in the comments of the headers, which
follow the reserved vocabulary of OWL 2. (The header calls `owl:versionInfo`
`owl:version_info`.)
-/
namespace Cowl.VocSpec
open Voc

/-- What the members of the OWL vocabulary stand for, `include/cowl_owl_vocab.h`. -/
def owlDoc : List (Sec × String × String) :=
  [(.iri, "backward_comp", "owl:backwardCompatibleWith"),
   (.iri, "bottom_data_prop", "owl:bottomDataProperty"),
   (.iri, "bottom_obj_prop", "owl:bottomObjectProperty"),
   (.iri, "deprecated", "owl:deprecated"), (.iri, "incompatible", "owl:incompatibleWith"),
   (.iri, "nothing", "owl:Nothing"), (.iri, "prior_version", "owl:priorVersion"),
   (.iri, "rational", "owl:rational"), (.iri, "real", "owl:real"),
   (.iri, "version_info", "owl:versionInfo"), (.iri, "thing", "owl:Thing"),
   (.iri, "top_data_prop", "owl:topDataProperty"),
   (.iri, "top_obj_prop", "owl:topObjectProperty"), (.cls, "thing", "owl:Thing"),
   (.cls, "nothing", "owl:Nothing"), (.dt, "rational", "owl:rational"),
   (.dt, "real", "owl:real"), (.objProp, "top_obj_prop", "owl:topObjectProperty"),
   (.objProp, "bottom_obj_prop", "owl:bottomObjectProperty"),
   (.dataProp, "top_data_prop", "owl:topDataProperty"),
   (.dataProp, "bottom_data_prop", "owl:bottomDataProperty"),
   (.annotProp, "backward_comp", "owl:backwardCompatibleWith"),
   (.annotProp, "deprecated", "owl:deprecated"),
   (.annotProp, "incompatible", "owl:incompatibleWith"),
   (.annotProp, "prior_version", "owl:priorVersion"),
   (.annotProp, "version_info", "owl:versionInfo")]

/-- What the members of the RDF vocabulary stand for, `include/cowl_rdf_vocab.h`. -/
def rdfDoc : List (Sec × String × String) :=
  [(.iri, "lang_range", "rdf:langRange"), (.iri, "lang_string", "rdf:langString"),
   (.iri, "plain_literal", "rdf:PlainLiteral"), (.iri, "xml_literal", "rdf:XMLLiteral"),
   (.dt, "lang_string", "rdf:langString"), (.dt, "plain_literal", "rdf:PlainLiteral"),
   (.dt, "xml_literal", "rdf:XMLLiteral")]

/-- What the members of the RDFS vocabulary stand for, `include/cowl_rdfs_vocab.h`. -/
def rdfsDoc : List (Sec × String × String) :=
  [(.iri, "comment", "rdfs:comment"), (.iri, "defined_by", "rdfs:isDefinedBy"),
   (.iri, "label", "rdfs:label"), (.iri, "literal", "rdfs:Literal"),
   (.iri, "see_also", "rdfs:seeAlso"), (.dt, "literal", "rdfs:Literal"),
   (.annotProp, "comment", "rdfs:comment"), (.annotProp, "defined_by", "rdfs:isDefinedBy"),
   (.annotProp, "label", "rdfs:label"), (.annotProp, "see_also", "rdfs:seeAlso")]

/-- What the members of the XSD vocabulary stand for, `include/cowl_xsd_vocab.h`. -/
def xsdDoc : List (Sec × String × String) :=
  [(.iri, "any_atomic_type", "xsd:anyAtomicType"),
   (.iri, "any_simple_type", "xsd:anySimpleType"), (.iri, "any_type", "xsd:anyType"),
   (.iri, "any_uri", "xsd:anyURI"), (.iri, "base64_binary", "xsd:base64Binary"),
   (.iri, "boolean", "xsd:boolean"), (.iri, "byte", "xsd:byte"), (.iri, "date", "xsd:date"),
   (.iri, "date_time", "xsd:dateTime"), (.iri, "date_timestamp", "xsd:dateTimeStamp"),
   (.iri, "day_time_duration", "xsd:dayTimeDuration"), (.iri, "decimal", "xsd:decimal"),
   (.iri, "xsd_double", "xsd:double"), (.iri, "duration", "xsd:duration"),
   (.iri, "entities", "xsd:ENTITIES"), (.iri, "entity", "xsd:ENTITY"),
   (.iri, "xsd_float", "xsd:float"), (.iri, "g_day", "xsd:gDay"),
   (.iri, "g_month", "xsd:gMonth"), (.iri, "g_month_day", "xsd:gMonthDay"),
   (.iri, "g_year", "xsd:gYear"), (.iri, "g_year_month", "xsd:gYearMonth"),
   (.iri, "hex_binary", "xsd:hexBinary"), (.iri, "id", "xsd:ID"), (.iri, "id_ref", "xsd:IDREF"),
   (.iri, "id_refs", "xsd:IDREFS"), (.iri, "xsd_int", "xsd:int"),
   (.iri, "integer", "xsd:integer"), (.iri, "language", "xsd:language"),
   (.iri, "xsd_long", "xsd:long"), (.iri, "name", "xsd:Name"), (.iri, "ncname", "xsd:NCName"),
   (.iri, "negative_int", "xsd:negativeInteger"), (.iri, "nmtoken", "xsd:NMTOKEN"),
   (.iri, "nmtokens", "xsd:NMTOKENS"), (.iri, "non_negative_int", "xsd:nonNegativeInteger"),
   (.iri, "non_positive_int", "xsd:nonPositiveInteger"),
   (.iri, "norm_string", "xsd:normalizedString"), (.iri, "notation", "xsd:NOTATION"),
   (.iri, "positive_int", "xsd:positiveInteger"), (.iri, "q_name", "xsd:QName"),
   (.iri, "xsd_short", "xsd:short"), (.iri, "string", "xsd:string"), (.iri, "time", "xsd:time"),
   (.iri, "token", "xsd:token"), (.iri, "unsigned_byte", "xsd:unsignedByte"),
   (.iri, "unsigned_int", "xsd:unsignedInt"), (.iri, "unsigned_long", "xsd:unsignedLong"),
   (.iri, "unsigned_short", "xsd:unsignedShort"),
   (.iri, "year_month_duration", "xsd:yearMonthDuration"), (.iri, "length", "xsd:length"),
   (.iri, "min_length", "xsd:minLength"), (.iri, "max_length", "xsd:maxLength"),
   (.iri, "pattern", "xsd:pattern"), (.iri, "min_inclusive", "xsd:minInclusive"),
   (.iri, "min_exclusive", "xsd:minExclusive"), (.iri, "max_inclusive", "xsd:maxInclusive"),
   (.iri, "max_exclusive", "xsd:maxExclusive"), (.iri, "total_digits", "xsd:totalDigits"),
   (.iri, "fraction_digits", "xsd:fractionDigits"),
   (.dt, "any_atomic_type", "xsd:anyAtomicType"), (.dt, "any_simple_type", "xsd:anySimpleType"),
   (.dt, "any_type", "xsd:anyType"), (.dt, "any_uri", "xsd:anyURI"),
   (.dt, "base64_binary", "xsd:base64Binary"), (.dt, "boolean", "xsd:boolean"),
   (.dt, "byte", "xsd:byte"), (.dt, "date", "xsd:date"), (.dt, "date_time", "xsd:dateTime"),
   (.dt, "date_timestamp", "xsd:dateTimeStamp"),
   (.dt, "day_time_duration", "xsd:dayTimeDuration"), (.dt, "decimal", "xsd:decimal"),
   (.dt, "xsd_double", "xsd:double"), (.dt, "duration", "xsd:duration"),
   (.dt, "entities", "xsd:ENTITIES"), (.dt, "entity", "xsd:ENTITY"),
   (.dt, "xsd_float", "xsd:float"), (.dt, "g_day", "xsd:gDay"), (.dt, "g_month", "xsd:gMonth"),
   (.dt, "g_month_day", "xsd:gMonthDay"), (.dt, "g_year", "xsd:gYear"),
   (.dt, "g_year_month", "xsd:gYearMonth"), (.dt, "hex_binary", "xsd:hexBinary"),
   (.dt, "id", "xsd:ID"), (.dt, "id_ref", "xsd:IDREF"), (.dt, "id_refs", "xsd:IDREFS"),
   (.dt, "xsd_int", "xsd:int"), (.dt, "integer", "xsd:integer"),
   (.dt, "language", "xsd:language"), (.dt, "xsd_long", "xsd:long"), (.dt, "name", "xsd:Name"),
   (.dt, "ncname", "xsd:NCName"), (.dt, "negative_int", "xsd:negativeInteger"),
   (.dt, "nmtoken", "xsd:NMTOKEN"), (.dt, "nmtokens", "xsd:NMTOKENS"),
   (.dt, "non_negative_int", "xsd:nonNegativeInteger"),
   (.dt, "non_positive_int", "xsd:nonPositiveInteger"),
   (.dt, "norm_string", "xsd:normalizedString"), (.dt, "notation", "xsd:NOTATION"),
   (.dt, "positive_int", "xsd:positiveInteger"), (.dt, "q_name", "xsd:QName"),
   (.dt, "xsd_short", "xsd:short"), (.dt, "string", "xsd:string"), (.dt, "time", "xsd:time"),
   (.dt, "token", "xsd:token"), (.dt, "unsigned_byte", "xsd:unsignedByte"),
   (.dt, "unsigned_int", "xsd:unsignedInt"), (.dt, "unsigned_long", "xsd:unsignedLong"),
   (.dt, "unsigned_short", "xsd:unsignedShort"),
   (.dt, "year_month_duration", "xsd:yearMonthDuration")]

/-- All of them. -/
def doc : List (Sec × String × String) := owlDoc ++ rdfDoc ++ rdfsDoc ++ xsdDoc

/-- The kind of the entities in a part; none for the IRIs. -/
def kindOf : Sec → Option EntKind
  | .cls => some .cls
  | .dt => some .datatype
  | .objProp => some .objProp
  | .dataProp => some .dataProp
  | .annotProp => some .annotProp
  | _ => none

/-- The reserved namespaces of OWL 2 with their prefixes. -/
def standard : List (String × String) :=
  [("owl", "http://www.w3.org/2002/07/owl#"), ("rdf", "http://www.w3.org/1999/02/22-rdf-syntax-ns#"),
   ("rdfs", "http://www.w3.org/2000/01/rdf-schema#"), ("xsd", "http://www.w3.org/2001/XMLSchema#")]

/-- The text begins with a reserved namespace. -/
def InReserved (s : Str) : Prop := ∃ e ∈ standard, ∃ r, s = ascii e.2 ++ r

/-- The text is a reserved namespace followed by a local name or nothing. -/
def ReservedName (s : Str) : Prop :=
  ∃ e ∈ standard, ∃ r, s = ascii e.2 ++ r ∧ (r = [] ∨ XmlSpec.LocalName r)

/-- `v` is the object that `pre:name` stands for, as an IRI or an entity of the kind. -/
def Means (v : Val) (k : Option EntKind) (short : Str) : Prop :=
  ∃ e ∈ standard, ∃ name, short = ascii e.1 ++ ascii ":" ++ name ∧
    v = .prim (match k with
      | none => .iri ⟨ascii e.2, name⟩
      | some k => .ent k ⟨ascii e.2, name⟩)

end Cowl.VocSpec
