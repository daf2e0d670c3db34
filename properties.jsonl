{"id": "C01", "title": "Reference counting keeps type and lifetime right", "statement": "For every object and every sequence of cowl_retain/cowl_release calls, cowl_get_type keeps returning the type the object was created with, its per-object flag is unchanged, and the object is destroyed at exactly the release that balances the creation and all retains, as long as the number of outstanding references fits the counter.", "quantifier": "every object type, every initial flag, every finite retain/release sequence", "why_tests_cant": "count, flag and type share one machine word; only an arithmetic argument over every count shows there is no interference, and the failing count is 2^24.", "anchors": ["src/cowl_object_flags.h", "src/cowl_object_private.h", "src/cowl_object.c:cowl_retain", "src/cowl_object.c:cowl_release"]}
{"id": "C02", "title": "IRI namespace/remainder split is lossless and canonical", "statement": "For every non-empty IRI string, cowl_iri_from_string yields a namespace and a remainder whose concatenation is the original string, where the remainder is the longest suffix that is empty or an XML local name (name-start character followed by name characters).", "quantifier": "every byte string of every length", "why_tests_cant": "the split is decided byte by byte scanning backwards; correctness needs every string.", "anchors": ["src/cowl_xml_utils.c:cowl_xml_ns_length", "src/cowl_iri.c:cowl_iri_from_string"]}
{"id": "C03", "title": "IRI identity does not depend on how the IRI was assembled", "statement": "For every prefix and suffix, cowl_iri(prefix, suffix) is the same IRI object as cowl_iri_from_string(prefix ++ suffix), so cowl_equals on IRIs coincides with equality of their full strings.", "quantifier": "every pair of strings (prefix, suffix)", "why_tests_cant": "the unit test checks five splits of one IRI; the two code paths take different scans depending on where the split falls.", "anchors": ["src/cowl_iri.c:cowl_iri", "src/cowl_iri.c:cowl_iri_from_string", "test/src/cowl_iri_tests.c:cowl_test_iri_equals"]}
{"id": "C04", "title": "Instance tables are canonical for every history", "statement": "At every point of every history of constructing, retaining and releasing interned objects (strings, IRIs, entities, anonymous individuals), constructing an object whose content equals that of a live one returns that same object, distinct live objects have distinct content, and a table never refers to a freed object.", "quantifier": "every interleaving of get/retain/release on any keys", "why_tests_cant": "needs an invariant over unbounded histories, including free/re-create cycles.", "anchors": ["src/cowl_string.c", "src/cowl_iri.c", "src/cowl_entity.c", "src/cowl_anon_ind.c"]}
{"id": "C05", "title": "cowl_equals is an equivalence relation", "statement": "For all objects a, b, c: cowl_equals(a,a); cowl_equals(a,b) implies cowl_equals(b,a); cowl_equals(a,b) and cowl_equals(b,c) imply cowl_equals(a,c).", "quantifier": "every triple of objects of arbitrary nesting depth and width", "why_tests_cant": "needs induction on term structure; failures require particular vector shapes (duplicates, mixed ordering).", "anchors": ["src/cowl_object.c:cowl_equals", "src/cowl_vector.c:cowl_vector_equals", "src/cowl_table.c:cowl_table_equals"]}
{"id": "C06", "title": "Equal objects have equal hashes", "statement": "For all objects a and b, cowl_equals(a,b) implies cowl_hash(a) == cowl_hash(b).", "quantifier": "every pair of objects of arbitrary nesting depth and width", "why_tests_cant": "a violation silently breaks hash containers for rare shapes only.", "anchors": ["src/cowl_object.c:cowl_hash", "src/cowl_vector.c:cowl_vector_hash"]}
{"id": "C07", "title": "Axiom comparison with and without annotations", "statement": "cowl_axiom_equals(a,b,true) agrees with cowl_equals(a,b); cowl_axiom_equals(a,b,false) holds iff the axioms have the same type and pairwise equal operands, whatever their annotations.", "quantifier": "every pair of axioms of every type with any annotations", "why_tests_cant": "37 axiom shapes, optional annotations on each side.", "anchors": ["src/cowl_axiom.c:cowl_axiom_equals", "src/cowl_object.c:cowl_equals_impl"]}
{"id": "C08", "title": "Table equality compares all entries", "statement": "cowl_table_equals(a,b) holds iff the tables have the same count and map every key to equal values.", "quantifier": "every pair of tables", "why_tests_cant": "an early return is invisible on tables whose first entries agree.", "anchors": ["src/cowl_table.c:cowl_table_equals"]}
{"id": "C09", "title": "Axiom operand positions", "statement": "cowl_axiom_iterate_operands(a,pos) visits exactly the operands of a that sit at a requested position, with vector operands expanded to their items, never its annotations; cowl_axiom_has_operand and cowl_axiom_has_operand_with_iri hold iff one of the visited operands equals the argument / carries the IRI.", "quantifier": "every axiom type, operand list and position mask", "why_tests_cant": "position depends on the operand count of each of the 37 axiom types combined with 8 masks.", "anchors": ["src/cowl_axiom.c:cowl_axiom_iterate_operands", "src/cowl_axiom.c:cowl_axiom_has_operand"]}
{"id": "C10", "title": "Primitive iteration visits exactly the primitives that occur", "statement": "cowl_iterate_primitives(o, flags) visits a primitive iff its kind is selected by flags and it occurs in o (including the implicit owl:Thing/rdfs:Literal filler of quantifiers), and stops with the iterator's code at the first visit for which the iterator asks to stop.", "quantifier": "every object of arbitrary nesting, every flag mask, every iterator", "why_tests_cant": "needs structural induction over nested class expressions.", "anchors": ["src/cowl_primitive.c", "src/cowl_object.c:cowl_iterate_primitives"]}
{"id": "C11", "title": "Axiom store holds exactly what was added and not removed", "statement": "After every history of cowl_ontology_add_axiom and cowl_ontology_remove_axiom, cowl_ontology_iterate_axioms visits each currently held axiom exactly once, cowl_ontology_axiom_count equals the number visited, and the per-type counts and iterations partition them by type.", "quantifier": "every operation history", "why_tests_cant": "invariant over unbounded histories of additions and swap-removals.", "anchors": ["src/cowl_ontology.c:cowl_ontology_add_axiom", "src/cowl_ontology.c:cowl_ontology_iterate_axioms", "src/cowl_ontology.c:cowl_ontology_axiom_count"]}
{"id": "C12", "title": "has_axiom is membership", "statement": "At every reachable ontology state, cowl_ontology_has_axiom(o,a) is true iff the ontology holds an axiom equal to a, whichever of its indices the query happens to scan.", "quantifier": "every reachable ontology and every axiom", "why_tests_cant": "the smallest of several indices is chosen per query; all choices must agree.", "anchors": ["src/cowl_ontology.c:cowl_ontology_has_axiom"]}
{"id": "C13", "title": "Axioms for a primitive", "statement": "cowl_ontology_iterate_axioms_for_primitive(o,p) visits every held axiom that references p and no other, each exactly once, and cowl_ontology_axiom_count_for_primitive returns their number.", "quantifier": "every reachable ontology and primitive", "why_tests_cant": "multiplicity errors appear only for axioms mentioning a primitive more than once.", "anchors": ["src/cowl_ontology.c:cowl_ontology_iterate_axioms_for_primitive", "src/cowl_ontology.c:cowl_ontology_axiom_count_for_primitive"]}
{"id": "C14", "title": "Filtered iteration is sound and complete", "statement": "cowl_ontology_iterate_axioms_matching visits exactly the held axioms whose type is selected, that reference all the filter's primitives and that satisfy its closure.", "quantifier": "every reachable ontology, every filter (types, primitives, closure)", "why_tests_cant": "the implementation rewrites the filter around the smallest index; wrong for filters the tests do not build.", "anchors": ["src/cowl_ontology.c:cowl_ontology_iterate_axioms_matching", "src/cowl_axiom_filter_private.h"]}
{"id": "C15", "title": "Removing an axiom removes it", "statement": "If cowl_ontology_remove_axiom(o,a) returns true then the ontology holds exactly one axiom fewer, namely one equal to a, and all other axioms stay; if it returns false the ontology is unchanged and held no axiom equal to a.", "quantifier": "every reachable ontology and axiom", "why_tests_cant": "equal-but-distinct axiom objects and several copies are needed to see a failure.", "anchors": ["src/cowl_ontology.c:cowl_ontology_remove_axiom"]}
{"id": "C16", "title": "Bulk removal removes exactly the matching axioms", "statement": "cowl_ontology_remove_axioms_matching removes exactly the axioms the filter matches and returns their number, and performs no out-of-bounds access while doing so.", "quantifier": "every reachable ontology and filter", "why_tests_cant": "the index is mutated while it is scanned.", "anchors": ["src/cowl_ontology.c:cowl_ontology_remove_axioms_matching"]}
{"id": "C17", "title": "Primitive membership and count", "statement": "At every reachable state cowl_ontology_has_primitive(o,p) is true iff some held axiom or ontology annotation references p, and cowl_ontology_primitive_count / iterate_primitives agree with it.", "quantifier": "every history of add/remove axiom/annotation", "why_tests_cant": "requires removal histories.", "anchors": ["src/cowl_ontology.c:cowl_ontology_has_primitive", "src/cowl_ontology.c:cowl_ontology_iterate_primitives"]}
{"id": "C18", "title": "Imports behave as a set", "statement": "After every history of add_import/remove_import, has_import(i) is true iff the last operation on i was an add, import_count is the number of such IRIs, and iterate_imports visits each once.", "quantifier": "every operation history", "why_tests_cant": "unbounded histories with repeated additions.", "anchors": ["src/cowl_ontology.c:cowl_ontology_add_import", "src/cowl_ontology.c:cowl_ontology_remove_import"]}
{"id": "C19", "title": "Ontology annotations", "statement": "add_annot makes the annotation visible to get_annot/iterate_annot; remove_annot returns true iff an equal annotation was present and removes one such annotation, leaving the others.", "quantifier": "every history of annotation operations", "why_tests_cant": "equal-but-distinct annotation objects.", "anchors": ["src/cowl_ontology.c:cowl_ontology_add_annot", "src/cowl_ontology.c:cowl_ontology_remove_annot", "src/cowl_vector.c"]}
{"id": "C20", "title": "Ontology IRI and version setters", "statement": "After set_iri(x) get_iri returns x until the next set_iri, independently of the version; likewise for the version; the ontology owns one reference to its current IRI/version and none to previous ones, and setting the value it already has is harmless.", "quantifier": "every sequence of setter calls", "why_tests_cant": "lifetime of the old value depends on the caller's references.", "anchors": ["src/cowl_ontology.c:cowl_ontology_set_iri", "src/cowl_ontology.c:cowl_ontology_set_version"]}
{"id": "C21", "title": "Related constructs", "statement": "cowl_ontology_iterate_related(o,p,types,pos) visits, for each held axiom of a selected type having p as an operand, the operands of that axiom at pos other than p, and nothing else.", "quantifier": "every reachable ontology, primitive, mask and position", "why_tests_cant": "interaction between index multiplicity and operand positions.", "anchors": ["src/cowl_ontology.c:cowl_ontology_iterate_related"]}
{"id": "C22", "title": "Prefix map is a last-write-wins map with fixed standard prefixes", "statement": "For every history of register/unregister/merge calls, get_ns(prefix) returns the namespace of the last effective registration; with overwrite=false an existing prefix is left alone and COWL_NO is returned; the owl/rdf/rdfs/xsd prefixes always denote their standard namespaces.", "quantifier": "every operation history", "why_tests_cant": "unbounded histories; standard-prefix collisions.", "anchors": ["src/cowl_prefix_map.c"]}
{"id": "C23", "title": "Reverse prefix lookup is the inverse of forward lookup", "statement": "Whenever cowl_prefix_map_get_prefix(ns) returns a prefix p, get_ns(p) is ns; and it returns some prefix whenever one is registered for ns.", "quantifier": "every operation history", "why_tests_cant": "the reverse map is rebuilt lazily; overwriting between lookups is the interesting case.", "anchors": ["src/cowl_prefix_map.c:cowl_prefix_map_get_prefix", "src/cowl_prefix_map.c:update_reverse_map"]}
{"id": "C24", "title": "Short IRI expansion", "statement": "Resolving 'prefix:name' against a prefix map yields the IRI whose full string is get_ns(prefix) ++ name, and fails iff the prefix is not registered.", "quantifier": "every prefix map and every short IRI", "why_tests_cant": "string slicing at the first colon for all strings.", "anchors": ["src/cowl_prefix_map.c:cowl_prefix_map_parse_short_iri", "src/cowl_prefix_map.c:cowl_prefix_map_get_iri"]}
{"id": "C25", "title": "Literal construction", "statement": "A literal built from a value and a datatype / language / nothing reports that value, that datatype (xsd:string when none, rdf:langString when a language is given) and that language in lower case; equality of literals is equality of value, datatype and case-folded language.", "quantifier": "every value, datatype and language tag", "why_tests_cant": "the rdf:PlainLiteral form re-splits the value at '@'.", "anchors": ["src/cowl_literal.c"]}
{"id": "C26", "title": "Quantifier fillers round-trip", "statement": "cowl_obj_quant_get_filler/cowl_data_quant_get_range return the filler given at construction, also when it is owl:Thing / rdfs:Literal or omitted (default), and two restrictions with explicit and omitted default filler are equal.", "quantifier": "every property and filler", "why_tests_cant": "normalisation of default fillers happens at construction and is undone on access.", "anchors": ["src/cowl_obj_quant.c", "src/cowl_data_quant.c"]}
{"id": "C27", "title": "Object type names", "statement": "cowl_object_type_from_string(cowl_object_type_to_string(t)) returns t for each object type, and every other string maps to the invalid marker.", "quantifier": "every object type and every string", "why_tests_cant": "binary/linear table lookup must be right for every row and every non-row.", "anchors": ["src/cowl_object_type.c"]}
{"id": "C28", "title": "Numbers in cardinality restrictions survive text", "statement": "Parsing the decimal text written for an unsigned integer gives the integer back, for all representable integers; text that is not a decimal number of that range is rejected.", "quantifier": "every 32-bit value and every digit string", "why_tests_cant": "wrap-around only shows beyond the range the tests use.", "anchors": ["src/cowl_cstring.c:cowl_str_to_uint", "src/cowl_cstring.c:cowl_str_from_uint"]}
{"id": "C29", "title": "String escaping round-trips in functional syntax", "statement": "For every string, the quoted text emitted by the functional-syntax writer is read back by the functional-syntax lexer as one quoted string with the same content, and the text that follows is untouched.", "quantifier": "every byte string and every continuation", "why_tests_cant": "needs every placement of quotes and backslashes.", "anchors": ["src/formats/functional/writer/cowl_func_writer.c:write_literal_value", "src/formats/functional/reader/cowl_functional.l:QSTRING", "src/cowl_cstring.c"]}
{"id": "C30", "title": "IRIs round-trip in functional syntax", "statement": "For every IRI and prefix map, the text the writer emits for the IRI (full or abbreviated) is tokenised and resolved by the reader to an IRI with the same full string.", "quantifier": "every IRI and every prefix map", "why_tests_cant": "abbreviation depends on the map and on characters of the remainder.", "anchors": ["src/formats/functional/writer/cowl_func_writer.c:write_iri", "src/formats/functional/reader/cowl_functional.l"]}
{"id": "C31", "title": "Axioms and expressions round-trip in functional syntax", "statement": "Parsing the token sequence written for any axiom/class expression/data range yields an equal one.", "quantifier": "every axiom and expression of arbitrary nesting", "why_tests_cant": "needs structural induction over all constructors.", "anchors": ["src/formats/functional/writer/cowl_func_writer.c", "src/formats/functional/reader/cowl_functional.y"]}
{"id": "C32", "title": "ProtocOWL constructs round-trip", "statement": "Decoding the bytes encoded for any axiom/class expression/data range/annotation, with encoder and decoder indices in agreement, yields an equal construct and consumes exactly the encoded bytes.", "quantifier": "every construct of arbitrary nesting, every continuation of the stream", "why_tests_cant": "bit-packed headers (type | annotation bit | utility bit, cardinality<<1|filler, id offsets) must not collide for any values.", "anchors": ["src/formats/protocowl/writer/cowl_prt_encoder.c", "src/formats/protocowl/reader/cowl_prt_decoder.c", "src/formats/protocowl/cowl_prt_constants.h"]}
{"id": "C33", "title": "ProtocOWL encoder and decoder indices stay in agreement", "statement": "For every sequence of added prefixes, namespaces, IRIs and anonymous individuals interleaved with flushes and resets, the index the encoder emits for a name is the position at which the decoder stored that name after replaying the emitted declaration frames, and distinct names get distinct indices.", "quantifier": "every interleaving of additions, flushes and resets", "why_tests_cant": "the encoder partitions its vector and moves entries; agreement is an invariant over histories.", "anchors": ["src/formats/protocowl/cowl_prt_index.c", "src/formats/protocowl/reader/cowl_prt_decoder.c"]}
{"id": "C34", "title": "ProtocOWL literals round-trip", "statement": "A literal written in ProtocOWL is read back as an equal literal (same lexical value, datatype, language).", "quantifier": "every literal", "why_tests_cant": "compact numeric encodings apply only to particular lexical forms.", "anchors": ["src/formats/protocowl/writer/cowl_prt_encoder.c:encode_literal_header_value", "src/formats/protocowl/reader/cowl_prt_decoder.c"]}
{"id": "C35", "title": "ProtocOWL ontologies round-trip", "statement": "Writing an ontology in ProtocOWL and reading it back produces the same ontology IRI, version, imports, annotations and axioms.", "quantifier": "every ontology", "why_tests_cant": "whole-document composition of index, header and construct encodings.", "anchors": ["src/formats/protocowl/writer/cowl_prt_encoder.c:write_ontology", "src/formats/protocowl/reader/cowl_prt_decoder.c"]}
{"id": "C36", "title": "ProtocOWL streaming is transparent", "statement": "For every index size, the stream written incrementally (header, axioms one by one, footer) decodes to the same ontology as the one-shot encoding.", "quantifier": "every index size, every axiom sequence", "why_tests_cant": "flush and reset points depend on the index size and content.", "anchors": ["src/formats/protocowl/writer/cowl_prt_encoder.c:stream_encoder_flush_if_needed"]}
{"id": "C37", "title": "Omitting anonymous ids is harmless", "statement": "With encode_anon=false the decoded ontology equals the original up to a renaming of anonymous individuals.", "quantifier": "every ontology", "why_tests_cant": "depends on the order in which anonymous individuals are indexed versus first used.", "anchors": ["src/formats/protocowl/writer/cowl_prt_encoder.c:encode_id_decls", "src/formats/protocowl/reader/cowl_prt_decoder.c"]}
{"id": "C38", "title": "Encoding failures are reported", "statement": "If writing an ontology in ProtocOWL hits an error, the write call returns an error code.", "quantifier": "every ontology and failure point", "why_tests_cant": "error paths are not exercised by tests.", "anchors": ["src/formats/protocowl/writer/cowl_prt_encoder.c:write_ontology", "src/formats/protocowl/writer/cowl_prt_encoder.c:encoder_reset"]}
{"id": "C39", "title": "Malformed ProtocOWL input is rejected, never undefined", "statement": "For every byte stream, decoding terminates and either succeeds or returns an error; it never dereferences an invalid object or index.", "quantifier": "every byte string", "why_tests_cant": "input space of all byte strings.", "anchors": ["src/formats/protocowl/reader/cowl_prt_decoder.c"]}
{"id": "C40", "title": "Replaying an ontology through a change handler rebuilds it", "statement": "cowl_change_handler_handle_ontology applied to a handler for an empty ontology produces an ontology with the same prefixes, IRI, version, imports, annotations and axioms; a failing handler stops the replay with its code.", "quantifier": "every ontology and handler", "why_tests_cant": "order and early-stop behaviour for all contents.", "anchors": ["src/cowl_change_handler.c"]}
{"id": "C41", "title": "Collecting iterators", "statement": "cowl_iterator_vec collects exactly the visited objects in order; cowl_iterator_set collects exactly the set of visited objects; cowl_iterator_count counts visits; cowl_iterator_contains stops iff the object is visited.", "quantifier": "every sequence of visited objects", "why_tests_cant": "repeated objects in the visited sequence.", "anchors": ["src/cowl_iterator.c"]}
{"id": "C42", "title": "Vector operations", "statement": "For every history of cowl_vector_add/remove, cowl_vector_contains(v,x) is true iff an equal item is present, count is the number of items and remove takes out one equal item if there is one.", "quantifier": "every operation history", "why_tests_cant": "equal-but-distinct objects; order flag.", "anchors": ["src/cowl_vector.c"]}
{"id": "C43", "title": "Axiom type masks", "statement": "For every mask, cowl_axiom_flags_foreach_type enumerates exactly the types in the mask in increasing order; add/remove/has_type obey set laws; has_all/has_no types agree with them.", "quantifier": "every 64-bit mask and type", "why_tests_cant": "2^64 masks.", "anchors": ["include/cowl_axiom_flags.h", "include/cowl_primitive_flags.h"]}
{"id": "C44", "title": "Entities are determined by kind and IRI", "statement": "Two entities are equal iff they have the same kind and the same IRI; punned entities (same IRI, different kind) are distinct; cowl_entity_get_iri returns the IRI used at construction.", "quantifier": "every kind and IRI and every history", "why_tests_cant": "identity is pointer identity through an instance table.", "anchors": ["src/cowl_entity.c"]}
{"id": "C45", "title": "Functional-syntax documents round-trip", "statement": "Reading the document the functional writer produces for an ontology yields the same ontology IRI, version, imports, annotations and axioms.", "quantifier": "every ontology", "why_tests_cant": "whole-document composition.", "anchors": ["src/formats/functional/writer/cowl_func_writer.c", "src/formats/functional/reader/cowl_functional.y"]}
{"id": "C46", "title": "Errors from readers reach the caller", "statement": "A read call returns an ontology iff the return code is not an error, and the error of the failing stage (open, parse, handler) is the one reported.", "quantifier": "every reader outcome", "why_tests_cant": "combinations of failures of the stages.", "anchors": ["src/cowl_reader.c"]}
{"id": "C47", "title": "Axiom references by position", "statement": "cowl_axiom_has_primitive(a,p,pos) holds iff p occurs in an operand of a at a requested position, or, for the ANY position, anywhere in a including its annotations.", "quantifier": "every axiom, primitive and position mask", "why_tests_cant": "combines nested occurrence with position masks for all axiom shapes.", "anchors": ["src/cowl_axiom.c:cowl_axiom_has_primitive"]}
{"id": "C48", "title": "Primitives of a table", "statement": "cowl_has_primitive(table,p) holds iff p occurs in one of the table's keys or values.", "quantifier": "every table", "why_tests_cant": "depends on where in the table the occurrence sits.", "anchors": ["src/cowl_table.c:cowl_table_iterate_primitives"]}
{"id": "C49", "title": "Query by full IRI string", "statement": "cowl_has_iri_string(o,s) holds iff o is an IRI or entity whose full IRI (namespace followed by remainder) is s.", "quantifier": "every object and string", "why_tests_cant": "overlapping prefix and suffix matches for arbitrary strings.", "anchors": ["src/cowl_object.c:cowl_has_iri_string"]}
{"id": "C50", "title": "Ontologies own what they hold", "statement": "At every reachable state the ontology owns exactly one reference per held axiom, annotation and import, whatever the history of additions and removals, and freeing it releases exactly these.", "quantifier": "every operation history", "why_tests_cant": "leaks and over-releases need particular removal histories.", "anchors": ["src/cowl_ontology.c:cowl_ontology_free", "src/cowl_ontology.c:remove_and_unindex", "src/cowl_ontology.c:vector_ptr_remove"]}
{"id": "C53", "title": "Removal through a change handler", "statement": "Applying the removal of a part to an ontology through its change handler removes exactly that part, and the code it returns tells whether something was removed.", "quantifier": "every ontology and part", "why_tests_cant": "the codes are only wrong for particular kinds of part, and collateral removals need two prefixes of one namespace.", "anchors": ["src/cowl_change_handler.c"]}
{"id": "C51", "title": "Prefix maps keep their strings alive", "statement": "No sequence of calls on a prefix map, with strings that the caller owns, touches a string that was freed; the map owns exactly the strings its table refers to, every call leaves the references of everybody else alone, and freeing the map gives back what it owns.", "quantifier": "every history of calls on a prefix map and on the heap", "why_tests_cant": "the reverse table owns nothing, so the faults need a namespace that only the map owns, a reverse table that was built before, and a removal or an overwriting registration after it.", "anchors": ["src/cowl_prefix_map.c", "src/cowl_table.c"]}
{"id": "C52", "title": "Nothing may follow a functional-syntax document", "statement": "A functional-syntax document followed by anything but white space and comments is rejected.", "quantifier": "every document and every trailing text", "why_tests_cant": "most trailing text is rejected; acceptance needs trailing bytes that the lexer takes for the end of the input, such as NUL.", "anchors": ["src/formats/functional/reader/cowl_functional.l", "src/formats/functional/reader/cowl_functional.y"]}
{"id": "C55", "title": "Prefixes survive ProtocOWL", "statement": "Writing an ontology in ProtocOWL and reading it back into a new ontology registers every prefix of the original with the same namespace, and no other prefix.", "quantifier": "every ontology and prefix map", "why_tests_cant": "the index of the encoder is keyed by namespace and starts with the standard ones, so prefixes that share a namespace or use a standard one need not be written.", "anchors": ["src/formats/protocowl/cowl_prt_index.c:prefix_map_add_encoding", "src/formats/protocowl/writer/cowl_prt_encoder.c:populate_index"]}
{"id": "C54", "title": "ProtocOWL update streams are applied", "statement": "A ProtocOWL stream of a header and axioms, where control frames switch between additions and removals or reset the index, when read into an ontology has the effect of these additions and removals in their order.", "quantifier": "every header, sequence of axioms and control frames, index size and target ontology", "why_tests_cant": "writer and reader must agree on the index across resets and mode changes, and the change handler must find the axioms to be removed, which are decoded as new objects.", "anchors": ["src/formats/protocowl/writer/cowl_prt_encoder.c:cowl_writer_protocowl_write_remove_frame", "src/formats/protocowl/reader/cowl_prt_decoder.c:decode_frame", "src/cowl_change_handler.c:remove_from_ontology", "src/cowl_ontology.c:cowl_ontology_remove_axiom"]}
{"id": "C57", "title": "The ProtocOWL reader tells the same to every handler", "statement": "For any input, which changes the ProtocOWL reader tells a change handler and in which order does not depend on the handler, except that nothing is told after the first change that the handler does not accept; the code of that call is then the result of the reader.", "quantifier": "every input and handler", "why_tests_cant": "any function of the decoder could call the handler after an error or drop its code.", "anchors": ["src/formats/protocowl/reader/cowl_prt_decoder.c:decoder_handle_change", "src/formats/protocowl/reader/cowl_prt_decoder.c:decode_axiom_frame"]}
{"id": "C56", "title": "Documents cut short are noticed", "statement": "Reading a ProtocOWL document that was cut short ends with an error, and what the handler was told before is the beginning of what the whole document tells.", "quantifier": "for all documents, all places to cut", "why_tests_cant": "Files are truncated by full disks and broken connections; a reader that accepts the rest silently loses axioms.", "anchors": ["src/formats/protocowl/reader/cowl_prt_decoder.c:1239-1271", "src/formats/protocowl/writer/cowl_prt_encoder.c:736-748"]}
{"id": "C58", "title": "Documents streamed by a functional writer", "statement": "However a functional writer was used before, what it writes for a header, a sequence of axioms and a footer is a document; reading it tells the contents of that header and then these axioms, in order. The writer keeps the prefix map of the header alive as long as it needs it, and releases it exactly once.", "quantifier": "every history of headers, axioms and footers, interleaved with operations of the caller on prefix maps", "why_tests_cant": "the writer keeps a pointer to the map of the last header; a stale pointer gives undeclared prefixes or a use after free.", "anchors": ["src/formats/functional/writer/cowl_func_writer.c:55-59", "src/formats/functional/writer/cowl_func_writer.c:439-469"]}
{"id": "C59", "title": "Writing an ontology piece by piece", "statement": "Writing an ontology with a writer that has no function for whole ontologies calls its functions for the header, then for every axiom once, then for the footer, up to the first call whose code is not OK; that code is the result. Without one of these functions nothing is called and the result is an error.", "quantifier": "every writer implementation, ontology and state of the stream", "why_tests_cant": "a dropped code reports an incomplete document as written.", "anchors": ["src/cowl_writer.c:92-156"]}
{"id": "C60", "title": "The last error of a reader describes its last read", "statement": "After a read, the code of the last error of the reader is the result of the read. If the read failed, message and location of the last error are about this failure; if it succeeded, there are none. Nothing is left over from earlier reads.", "quantifier": "every sequence of errors in the decoder and of states of the stream, every earlier error; every text and handler for functional syntax", "why_tests_cant": "programs print the last error to their users; stale or missing errors mislead them.", "anchors": ["src/formats/protocowl/reader/cowl_prt_decoder.c:34-69", "src/formats/protocowl/reader/cowl_prt_decoder.c:1280-1294", "src/formats/functional/reader/cowl_functional.y:62-124", "src/cowl_reader.c:58-68"]}
{"id": "C61", "title": "The text of an error", "statement": "The text of an error consists of the name of its code, the message if there is one, and in parentheses the line, column and byte as far as they are known, with commas between them; the location can be told from the text. Codes that are no errors have no text.", "quantifier": "every error", "why_tests_cant": "an off-by-one in the commas or a location that is left out makes messages unreadable for tools.", "anchors": ["src/cowl_writer.c:cowl_write_error", "src/cowl_ret.c:cowl_ret_to_string", "src/cowl_error.c:cowl_error"]}
{"id": "C62", "title": "The functional reader tells the same to every handler", "statement": "For any text, which changes the functional reader tells a change handler and in which order does not depend on the handler, except that nothing is told after the first change that the handler does not accept; the code of that call is then the result of the reader.", "quantifier": "every text and handler", "why_tests_cant": "any action of the grammar could call the handler after a refusal or drop its code.", "anchors": ["src/formats/functional/reader/cowl_functional.y:323-380", "src/formats/functional/reader/cowl_func_reader.c:func_read"]}
{"id": "C63", "title": "The library is started and ended without loss", "statement": "Whatever sequence of cowl_init, cowl_deinit, cowl_set_reader, cowl_set_writer and of creating, retaining and releasing readers and writers a program performs, nothing is undefined, every reference count is the number of references held by the program and by the library, every global object exists while the library is initialised, and nothing but what the program holds is left when it is not.", "quantifier": "every sequence of calls, also with failing allocations", "why_tests_cant": "a failed initialisation must undo its earlier stages; a default that is replaced must be released exactly once.", "anchors": ["src/cowl_config.c:cowl_init", "src/cowl_config.c:cowl_deinit", "src/cowl_config.c:cowl_set_reader", "src/cowl_vocab.c:cowl_vocab_init", "src/cowl_string.c:cowl_string_api_init"]}
{"id": "C64", "title": "A document in functional syntax that is cut short is not accepted as another one", "statement": "If the functional reader accepts a text, then whatever text follows it is no part of the document: the reader tells the handler the same about the longer text, and accepts or rejects it. So if a document and a beginning of it are both accepted, they are the same document.", "quantifier": "every text, every text after it, every handler and state of it", "why_tests_cant": "files that were written or sent in part must not pass for complete ones.", "anchors": ["src/formats/functional/reader/cowl_functional.l", "src/formats/functional/reader/cowl_functional.y", "src/formats/functional/reader/cowl_func_reader.c:func_read"]}
{"id": "C65", "title": "What is told about a beginning of a text is told about the text", "statement": "All that the functional reader tells a handler about a text that is cut short, it tells about the whole text as well, in the same order and before anything else.", "quantifier": "every text and every beginning of it", "why_tests_cant": "a reader that has told an axiom cannot take it back; what is kept of a document that failed to load must be in the document.", "anchors": ["src/formats/functional/reader/cowl_functional.y:297-380", "src/formats/functional/reader/cowl_functional.l"]}
{"id": "C66", "title": "Objects own what they refer to", "statement": "While there is memory, a client that passes objects it can get to and releases only references it owns never runs into undefined behaviour; an object is in memory if and only if the client can get to it from something it owns; its count is the number of references to it; and if the client has released everything, no memory is in use.", "quantifier": "every history of calls of the constructors, retain and release, over vectors, literals and all kinds of expressions and axioms", "why_tests_cant": "every object shares its parts with others; a count that is off by one is a leak or a use after free.", "anchors": ["src/cowl_object.c:157-194", "src/cowl_object.c:422-476", "src/cowl_vector.c:25-110", "src/cowl_literal.c:80-115", "src/cowl_has_key_axiom.c", "include/cowl_impl.h"]}
{"id": "C67", "title": "Lack of memory does no harm to objects", "statement": "Whatever allocations fail, no call of a constructor is undefined, and one that returns NULL has changed no object and no count, and has lost no memory.", "quantifier": "every history of calls and every choice of allocations that fail", "why_tests_cant": "constructors promise NULL on error; on devices with little memory that happens.", "anchors": ["src/cowl_object.c:422-470", "src/cowl_vector.c:25-85", "src/cowl_literal.c:80-84", "src/cowl_has_key_axiom.c", "src/cowl_sub_obj_prop_axiom.c"]}
{"id": "C68", "title": "Objects do not change", "statement": "No call changes the value of an object that is there before and after it, so that equality and hash of objects stay the same.", "quantifier": "every history of calls, every object", "why_tests_cant": "objects are shared and are keys of hash tables; the documentation calls them immutable.", "anchors": ["src/cowl_sub_obj_prop_axiom.c:15-19", "src/cowl_ontology.c:157-159", "src/cowl_ontology.c:444-447", "src/cowl_vector.c:177-182"]}
{"id": "C69", "title": "Numbers of entities", "statement": "If entities are given numbers, an entity keeps its number as long as the library runs, and is found by it; two entities have the same number if and only if they have the same type and IRI; the numbers in use are those below the number of entities, and other numbers give NULL; what cannot be created for lack of memory takes no number.", "quantifier": "every history of creating, retaining and releasing entities, with any allocations failing", "why_tests_cant": "applications index arrays by these numbers.", "anchors": ["src/cowl_entity.c:41-106", "src/cowl_entity.c:139-149", "include/cowl_entity.h:71-100"]}
{"id": "C70", "title": "What the statistics tool prints", "statement": "The tool prints, for every ontology, one name and one value for each of 45 statistics, with names that are all different and the same for every ontology; the CSV header and the CSV row have as many columns, and each value reads back as the number; the count of axioms is the sum of the counts by type; the values are the numbers of axioms, of axioms of each type and of distinct primitives of each kind in the ontology; the format argument selects the output, and unknown formats are rejected.", "quantifier": "every ontology built by additions, every argument", "why_tests_cant": "benchmarks and scripts read the columns by name.", "anchors": ["tools/src/stats.c:37-115", "tools/src/stats.c:131-208"]}
{"id": "C71", "title": "Instance tables and lack of memory", "statement": "Whatever allocations fail, no call that creates or interns a string, an IRI, an entity or an anonymous individual is undefined; one that returns NULL has left every object, every count and every reference as they were; one that returns an object returns the one with the value that was asked for, as if there were enough memory; there never are two objects with the same value; an object is in memory if and only if the client can get to it; and a generated anonymous individual has an id that no other one has.", "quantifier": "every history of legal calls and every choice of allocations that fail", "why_tests_cant": "the tables hold keys that are put in before the object exists; what is left of them after a failure would be found by later calls.", "anchors": ["src/cowl_string.c:24-118", "src/cowl_iri.c:47-158", "src/cowl_entity.c:59-106", "src/cowl_anon_ind.c:47-134"]}
{"id": "C72", "title": "Strings own their texts", "statement": "Whatever allocations fail, no call on strings reads or frees memory that is not there; each text buffer is owned exactly once, by the client or by one string, so that a raw string that is given away is either in the string that is returned or freed, also if NULL is returned, and one that is copied stays with the client; a string that is returned has the text that was asked for, and keeps it; interned strings with the same text are the same; a string released for its raw string yields its text; and if the client has given up all it owned, nothing is left when the library is closed.", "quantifier": "every history of calls, of every combination of options, and every choice of allocations that fail, where empty raw strings given to cowl_string own no memory", "why_tests_cant": "the header documents who owns raw strings for each option; each path of the code has to free or keep the buffer accordingly.", "anchors": ["src/cowl_string.c:24-107", "src/cowl_string.c:151-247", "include/cowl_string.h:35-65", "include/cowl_string.h:108-135"]}
{"id": "C73", "title": "Failed additions leave the contents of an ontology alone", "statement": "An addition of an axiom, an annotation or an import that returns OK has done all it does when there is enough memory; one that fails reports lack of memory, and leaves the ontology as it was, including its index of primitives and the references it holds.", "quantifier": "every ontology, every object added and every choice of allocations that fail; and every history of additions, some of which fail", "why_tests_cant": "an axiom is indexed before it is stored, so that a failure in between has to be undone.", "anchors": ["src/cowl_ontology.c:444-540", "src/cowl_vector.c:81-85", "src/cowl_vector.c:176-190"]}
{"id": "C74", "title": "The vocabularies hold the documented terms", "statement": "After initialisation, each member of the OWL, RDF, RDFS and XSD vocabularies is the term that its header documents: an IRI in the standard namespace, or the entity of the right kind with that IRI; no two members are the same object; the IRI is the one that is found by the text of the term, and by its short form with the standard prefix; a member that could not be made is noticed, and each member is freed once.", "quantifier": "every member of every vocabulary, and every set of members that could not be made", "why_tests_cant": "tables of more than two hundred entries, repeated in headers, initialisers, validators and destructors.", "anchors": ["src/cowl_owl_vocab.c:17-123", "src/cowl_rdf_vocab.c:18-79", "src/cowl_rdfs_vocab.c:17-72", "src/cowl_xml_vocab.c:17-41", "src/cowl_xsd_vocab.c:18-182", "include/cowl_owl_vocab.h:30-164", "include/cowl_xsd_vocab.h:26-384"]}
{"id": "C75", "title": "Reserved terms", "statement": "An object is reported as reserved iff it is an IRI or an entity with an IRI that begins with the namespace of owl, rdf, rdfs or xsd; in particular all terms of the vocabularies are.", "quantifier": "every object, and every text from which an IRI is made", "why_tests_cant": "the predicate compares only the namespace, which depends on where the text was split.", "anchors": ["src/cowl_vocab.c:57-83", "src/cowl_iri.c:168-170", "src/cowl_entity.c:135-137", "src/cowl_object.c:339-342"]}
{"id": "C76", "title": "Constructs are taken apart as they were put together", "statement": "Every OWL 2 construct that is built with the constructors of the library is taken apart by the type predicates and accessors into the same construct; hence different constructs are different objects. Objects bear the name of their construct, predicates on categories hold of the constructs of the category only, and constructors that are told the type by a number reject numbers outside the enumeration.", "quantifier": "every axiom, class expression, data range and annotation, however nested, and every number", "why_tests_cant": "about 170 inline functions that differ by a type or an index only, over enumerations that must be in the same order.", "anchors": ["include/cowl_axiom.h:54-68", "include/cowl_obj_card.h:60-167", "include/cowl_nary_cls.h:60-155", "include/cowl_obj_prop_char_axiom.h:76-196", "include/cowl_data_prop_assert_axiom.h:61-145", "include/cowl_axiom_type.h:19-156", "src/cowl_object.c:200-235", "src/cowl_object.c:272-278", "src/cowl_object.c:422-506", "src/cowl_annot_value.c:15-21", "src/cowl_primitive.c:15-26", "src/cowl_has_key_axiom.c:16-24"]}
{"id": "C77", "title": "Errors of the functional reader say where the document is wrong", "statement": "If a document in functional syntax is rejected, then the error is a syntax error, and its line is that of the first word that cannot be in its place: what precedes the word can be completed to a document that is accepted, but not if the word follows. If the word is an abbreviated IRI where an IRI can be, then the message names it.", "quantifier": "every text and prefix map", "why_tests_cant": "the line is all that users are told about a syntax error.", "anchors": ["src/formats/functional/reader/cowl_functional.l:42", "src/formats/functional/reader/cowl_functional.l:81-223", "src/formats/functional/reader/cowl_functional.y:90-124", "src/formats/functional/reader/cowl_functional.y:276-293", "src/formats/functional/reader/cowl_functional.y:297-380", "src/formats/functional/reader/cowl_functional.y:492-1282"]}
{"id": "C78", "title": "The functional reader gives back what it takes", "statement": "Whatever document the reader is given and however reading ends, every reference the parser has taken and every buffer the scanner has handed to it is given back, and no object is used after it is freed.", "quantifier": "every sequence of shifts and reductions by the 210 rules of the grammar, every behaviour of change handlers and every history of calls before", "why_tests_cant": "leaks at each of the places where reading can end show only if every one of them is reached with each kind of symbol on the stack.", "anchors": ["src/formats/functional/reader/cowl_functional.y:84-135", "src/formats/functional/reader/cowl_functional.y:137-265", "src/formats/functional/reader/cowl_functional.y:276-1447", "src/formats/functional/reader/cowl_functional.l:193-223", "src/cowl_literal.c:31-124", "src/cowl_vector.c:184-191"]}
{"id": "C79", "title": "The ProtocOWL reader gives back what it takes", "statement": "Whatever bytes the reader is given, wherever memory runs out and whatever the handler does with its own references, every reference the decoder and its index have taken is given back once, and no object is used after it is freed.", "quantifier": "every sequence of numbers read, every outcome of every allocation, every behaviour of change handlers and every history of calls before", "why_tests_cant": "each of some sixty decoding functions releases its parts by hand, on paths taken only when input is cut short or memory runs out.", "anchors": ["src/formats/protocowl/reader/cowl_prt_decoder.c:73-1294", "src/formats/protocowl/cowl_prt_index.c:29-39", "src/formats/protocowl/cowl_prt_index.c:89-132", "src/formats/protocowl/cowl_prt_index.c:181-193", "src/formats/protocowl/cowl_prt_index.c:258-291", "src/cowl_literal.c:31-124"]}
{"id": "C80", "title": "Failures while functional syntax is read are not taken for its end", "statement": "If the stream fails or memory for the scanner runs out before a document in functional syntax has been read, the reader returns that error, and what it has told its handler before belongs to the document.", "quantifier": "every text, every division of it into reads, every point of failure of the stream, every outcome of each request for memory of the scanner, and every handler", "why_tests_cant": "the scanner tells the parser of a failure in the same way as of the end of the text; a test would have to inject failures at every byte.", "anchors": ["src/formats/functional/reader/cowl_func_reader.c:28-43", "src/formats/functional/reader/cowl_functional.l:29-41", "src/formats/functional/reader/cowl_functional.l:193-215"]}
{"id": "C81", "title": "Prefix maps survive lack of memory", "statement": "A call on a prefix map that fails for lack of memory leaves the map with the meaning it had, and later lookups in both directions work as though the call had not been made.", "quantifier": "every history of creations, registrations, removals, merges and lookups, every outcome of each request for memory, every iteration order of the tables", "why_tests_cant": "the two tables of a map are brought in line by need, so that a failure may be seen only by a much later lookup.", "anchors": ["src/cowl_prefix_map.c:57-123", "src/cowl_prefix_map.c:129-161", "src/cowl_prefix_map.c:181-243"]}
{"id": "C82", "title": "The index of the ProtocOWL encoder owns what it refers to", "statement": "Whatever the encoder adds to its index, flushes and resets, and whichever requests for memory fail, the index looks up nothing it has no reference to, releases only references it took, and has given back all of them when it is deinitialised.", "quantifier": "every sequence of additions, flushes and resets, every equality of names, every outcome of each request for memory", "why_tests_cant": "a name goes into a table, a vector and possibly a second table before it is retained, and each of the three may fail; the vector is what references are released by.", "anchors": ["src/formats/protocowl/cowl_prt_index.c:25-256", "src/formats/protocowl/cowl_prt_index.c:295-379", "src/formats/protocowl/writer/cowl_prt_encoder.c:69-116"]}
{"id": "C83", "title": "Conversion between formats preserves ontologies", "statement": "Writing an ontology in one of the built-in formats and reading it into a new ontology, any number of times and with any formats, succeeds and gives an ontology with the same IRI, version, imports, annotations and axioms.", "quantifier": "every ontology, every finite series of conversions, every order of hash tables", "why_tests_cant": "each format has a round trip of its own, but what one reader builds must again be something the other writer can express, including prefix maps and the names the index reports.", "anchors": ["src/cowl_writer.c:92-131", "src/cowl_reader.c:54-86", "src/formats/functional/reader/cowl_func_reader.c:28-43", "src/formats/protocowl/writer/cowl_prt_encoder.c:736-748", "src/formats/protocowl/reader/cowl_prt_decoder.c:1280-1294"]}
{"id": "C84", "title": "Failures while ProtocOWL is written incrementally", "statement": "Whatever request for memory or output fails while a ProtocOWL document is written by header, axioms, control frames and footer, nothing is undefined, and what a call that returned OK was given is in the document once the footer has returned OK.", "quantifier": "every header, sequence of calls, size of the index, point of failure, and previous use of the writer", "why_tests_cant": "the encoder buffers what it is given, and its error state is overwritten by later steps; a lost error is a document that lacks something without anyone being told.", "anchors": ["src/formats/protocowl/writer/cowl_prt_encoder.c:57-89", "src/formats/protocowl/writer/cowl_prt_encoder.c:726-734", "src/formats/protocowl/writer/cowl_prt_encoder.c:750-890", "src/formats/protocowl/writer/cowl_prt_encoder.c:930-957"]}
{"id": "C85", "title": "Collections hold a reference to each object they store", "statement": "Whatever a client does with the collecting iterators, vectors and tables, and whichever requests for memory fail, nothing is undefined, and the reference count of every object is the number of references that the client and its collections hold.", "quantifier": "every history of collecting with or without retain, wrapping, adding, retaining and releasing (with or without the elements), and every pattern of failing allocations", "why_tests_cant": "clients gather query results with these iterators; a missing retain is a dangling pointer, a missing release a leak.", "anchors": ["src/cowl_iterator.c:18-74", "src/cowl_table.c:39-78", "src/cowl_vector.c:44-62", "src/cowl_vector.c:87-105", "src/cowl_vector.c:177-191"]}
{"id": "C86", "title": "Failures of the stream while ProtocOWL is read", "statement": "If the stream fails before a ProtocOWL document has been read, an error is returned, nothing is undefined, and all that the handler was told is in the document.", "quantifier": "every input and every place where the stream fails; every handler", "why_tests_cant": "documents come over networks; a part of one must not be taken for the whole.", "anchors": ["src/formats/protocowl/reader/cowl_prt_decoder.c:82-127", "src/formats/protocowl/reader/cowl_prt_decoder.c:1239-1294"]}
{"id": "C87", "title": "The functional reader accepts the language of its grammar", "statement": "If a document in functional syntax is read without an error, its tokens are a sentence of the grammar of cowl_functional.y. A sentence is read without an error by a handler that accepts everything, unless one of its names is not resolved or empty, or a literal is undefined (C25). A syntax error is at the first token that no sentence can continue with. The actions of the grammar make objects of the types that the reader makes, of the values in the order of the text.", "quantifier": "every text, prefix map and handler; the whole grammar", "why_tests_cant": "the reader is modelled by recursive functions, but the program is a table of rules: both must mean the same.", "anchors": ["src/formats/functional/reader/cowl_functional.y:276-1447"]}
{"id": "C88", "title": "The scanner of functional syntax follows its patterns", "statement": "At each place of a text the scanner applies, of all rules of cowl_functional.l whose pattern matches there, the one with the longest match, and of several the first. In a quoted string it does so with the rules of that start condition. The tokens, with their values, are those that the actions give to the matched texts. Together with C87: a document that is read without an error is one whose tokens by these rules are a sentence of the grammar.", "quantifier": "every text; all patterns and rules of the scanner", "why_tests_cant": "the scanner is modelled by functions on runs of characters, but the program is a list of regular expressions: both must mean the same.", "anchors": ["src/formats/functional/reader/cowl_functional.l:57-223"]}
{"id": "C89", "title": "The functional reader accepts the syntax of the OWL 2 standard", "statement": "The sentences of the grammar of cowl_functional.y are the documents of the complete grammar of functional-style syntax in the OWL 2 structural specification (appendix A).", "quantifier": "every sequence of tokens; all rules of both grammars", "why_tests_cant": "ontologies come from other tools that write by the standard; and documents that only this library reads are of little use.", "anchors": ["src/formats/functional/reader/cowl_functional.y:276-1447"]}
{"id": "C90", "title": "The functional writer writes documents of the OWL 2 standard", "statement": "The text that the functional writer writes for an ontology is, as tokens of the scanner, a document of the complete grammar of functional-style syntax in the OWL 2 structural specification (appendix A).", "quantifier": "every ontology, with any prefixes, names, imports, annotations and axioms", "why_tests_cant": "other tools read what is written by the grammar of the standard, not by that of this library, which is more permissive in one place.", "anchors": ["src/formats/functional/writer/cowl_func_writer.c:97-455", "src/cowl_writer.c:92-121"]}
{"id": "C91", "title": "The functional reader hands over constructs of OWL 2 only", "statement": "Whatever the text, accepted or not, each axiom and annotation that the functional reader hands to its handler is an axiom or annotation of the structural specification of OWL 2: operands of the right kinds, as many as required, literals in normal form. So reading any text into an ontology in use gives an ontology in use, with what it held before followed by what was handed over.", "quantifier": "every text, every handler, every ontology reached by legal use, every prefix map", "why_tests_cant": "objects are untyped in C (CowlAny); the constructors check nothing, so only the grammar stands between a text and an ill-typed axiom on which accessors and iteration would be undefined.", "anchors": ["src/formats/functional/reader/cowl_functional.y:276-1448", "src/formats/functional/reader/cowl_func_reader.c:28-43", "src/cowl_change_handler.c:30-70"]}
{"id": "C92", "title": "The ProtocOWL reader hands over constructs of OWL 2 only", "statement": "Whatever the input, accepted or not, each axiom and annotation in the changes that the ProtocOWL reader hands to its handler is an axiom or annotation of the structural specification of OWL 2: operands of the right kinds, as many as required, literals in normal form. So reading any input into an ontology in use gives an ontology in use, whose contents are those it had with the changes in the input made in order.", "quantifier": "every input, every ontology reached by legal use, every lawful ulib", "why_tests_cant": "binary input is not checked by a grammar; indices and type bytes of a hostile file decide which constructors are called on which untyped objects, and an ill-typed axiom in an ontology makes later accesses undefined.", "anchors": ["src/formats/protocowl/reader/cowl_prt_decoder.c:175-195", "src/formats/protocowl/reader/cowl_prt_decoder.c:456-1067", "src/formats/protocowl/reader/cowl_prt_decoder.c:1239-1294", "src/cowl_change_handler.c:30-70"]}
{"id": "C93", "title": "An ontology read from functional syntax can be written in it and read again", "statement": "If the functional reader accepts a text, then the ontology that results can be written in functional syntax, the reader accepts what is written, and the ontology read from it has the same IRI, version, imports, annotations, axioms, and prefixes.", "quantifier": "every text; the ontology that results from reading it", "why_tests_cant": "opening a file and saving it is the most ordinary use of the library; unlike the round trips of C30 and C45, nothing is assumed about the ontology except that it was read, so the guarantees of the scanner and the parser have to match the needs of the writer.", "anchors": ["src/formats/functional/reader/cowl_functional.l:57-223", "src/formats/functional/reader/cowl_functional.y:276-1448", "src/formats/functional/writer/cowl_func_writer.c:60-463", "src/cowl_iri.c:147-178", "src/cowl_literal.c:27-110"]}
{"id": "C94", "title": "ProtocOWL brings literals into a normal form that is stable", "statement": "There is a normal form for the values of literals such that every ontology, written in ProtocOWL and read into a new one, has the same IRI, version, imports, annotations and axioms, apart from its literals, which are in normal form. The normal form of a normal form is itself, so a second round changes nothing. It changes only booleans and numbers of XML Schema: integers that ulib can parse become the decimal text of their value. The values that are left alone are exactly those for which C34 is proved (canonical texts, and texts that are not numbers).", "quantifier": "every ontology whose literals come from cowl_literal, whose IRIs are split as C02 says, with a version only if there is an IRI, and with sizes below 2^32; every order of the primitives; every ulib that keeps its contract; in particular every text of a literal", "why_tests_cant": "C35 excludes ontologies with other texts of numbers: nothing was known about them, neither that the rest survives, nor that conversions stop changing them.", "anchors": ["src/formats/protocowl/writer/cowl_prt_encoder.c:176-359", "src/formats/protocowl/reader/cowl_prt_decoder.c:326-442"]}
{"id": "C95", "title": "Readers and writers are made and released without losing memory", "statement": "Making, retaining and releasing readers and writers never leads to undefined behaviour, and when the last one is released no memory that they needed is left, also if there was no memory for some of them.", "quantifier": "every sequence of operations on existing readers and writers of the four kinds that the library has and of the caller's own; every outcome of the allocations", "why_tests_cant": "a reader or writer has a context that only its free function releases, so a constructor that fails half way must give the context back, and a free function must get along with what the constructor made.", "anchors": ["src/cowl_reader.c:29-52", "src/cowl_writer.c:40-55", "src/formats/functional/reader/cowl_func_reader.c:45-66", "src/formats/protocowl/reader/cowl_prt_decoder.c:1296-1317", "src/formats/functional/writer/cowl_func_writer.c:465-483", "src/formats/protocowl/writer/cowl_prt_encoder.c:892-909"]}
{"id": "C96", "title": "An ontology read from ProtocOWL can be written in it and read again", "statement": "Whatever the input, if an ontology was read from it, then writing the ontology succeeds, and reading what was written gives the same IRI, version, imports, annotations and axioms.", "quantifier": "every input, also those that are rejected half way and those that remove things; every set of default prefixes; every order in which the writer walks the primitives; every ontology that is read into, new", "why_tests_cant": "services that edit ontologies read, write and read them again; what the reader lets in must be something the writer can write.", "anchors": ["src/formats/protocowl/reader/cowl_prt_decoder.c:1269-1294", "src/formats/protocowl/writer/cowl_prt_encoder.c:736-748", "src/cowl_change_handler.c:18-116"]}
{"id": "C97", "title": "An ontology read from functional syntax can be written in ProtocOWL and read again", "statement": "If an ontology was read from a text in functional syntax, then writing it in ProtocOWL succeeds, and reading what was written gives the same IRI, version, imports, annotations and axioms.", "quantifier": "every text, accepted or not; every set of default prefixes; every order in which the writer walks the primitives", "why_tests_cant": "ProtocOWL is the compact form in which ontologies are sent on; nothing that can be said in functional syntax may be lost in it.", "anchors": ["src/formats/functional/reader/cowl_func_reader.c:28-43", "src/formats/protocowl/writer/cowl_prt_encoder.c:736-748", "src/formats/protocowl/reader/cowl_prt_decoder.c:1269-1294"]}
{"id": "C98", "title": "Asking a loaded ontology and watching the document give the same answer", "statement": "The example program that loads an ontology and asks for the atomic subclasses of a class, and the example program that watches the document go by as a stream, fail for the same documents and print the same classes.", "quantifier": "every text in functional syntax, every class, every set of default prefixes", "why_tests_cant": "The documentation offers both as ways of doing the same; the stream is meant to save memory, not to change the answer.", "anchors": ["examples/src/02_query.c:22-55", "examples/src/06_istream.c:24-64", "include/cowl_ontology.h:448-451", "src/cowl_ontology.c:399-425"]}
{"id": "C99", "title": "The recursive query for subclasses ends and prints the classes below", "statement": "The example program that asks for subclasses recursively ends, and prints exactly the classes that the axioms put below the given one in one or more steps.", "quantifier": "every ontology whose axioms are constructs of OWL 2, every class, every depth of the stack", "why_tests_cant": "It is the pattern offered for walking a hierarchy; OWL allows classes that are below each other.", "anchors": ["examples/src/03_recursive_query.c:28-39", "examples/src/03_recursive_query.c:57-58", "src/cowl_ontology.c:399-425"]}
{"id": "C100", "title": "The advanced query prints the axioms it asks for", "statement": "The example program that asks for the subclass and equivalence axioms that mention both a class and a property prints exactly those axioms, each once.", "quantifier": "every ontology that can be reached by adding and removing axioms, every class and property", "why_tests_cant": "It shows how queries are composed from filters and iterators; the iterators must not lose answers.", "anchors": ["examples/src/04_advanced_query.c:47-57", "src/cowl_iterator.c:29-31", "src/cowl_ontology.c:303-390"]}
{"id": "C101", "title": "An ontology that was edited is written with the edits and nothing else", "statement": "If an ontology is read from a text, axioms are added, and it is written, then the text is accepted, and gives the ontology that was read together with the axioms added.", "quantifier": "every text in functional syntax, every list of axioms that text can express, every set of default prefixes", "why_tests_cant": "Editing an ontology file is what the example program shows; other parts of the file must survive.", "anchors": ["examples/src/05_editing.c:36-96", "src/formats/functional/writer/cowl_func_writer.c:357-384", "src/cowl_ontology.c:534-540"]}
{"id": "C102", "title": "Streaming a document writes what the program says", "statement": "The example program that streams an ontology does nothing undefined, although it releases the prefix map before the axioms are written; the document is accepted by the reader, which is told the prefixes, the IRI, the import and the axioms of the program, in order.", "quantifier": "every set of default prefixes that a document can declare, every reader with the same default prefixes, every handler that accepts everything", "why_tests_cant": "The streaming interface leaves it to the caller that the parts form a document; the writer must keep the map alive.", "anchors": ["examples/src/07_ostream.c:40-116", "src/formats/functional/writer/cowl_func_writer.c:43-59", "src/formats/functional/writer/cowl_func_writer.c:439-484"]}
{"id": "C103", "title": "Literals own their strings and datatypes, and give them back", "statement": "Whatever calls a client makes on strings and literals, and whatever allocations fail, nothing undefined happens; a literal that is returned has the value and tag asked for and keeps them; a call that returns NULL leaves the memory as it was; literals are equal exactly if value and tag are; and nothing is left when the client has given up all it owned.", "quantifier": "every history of calls on strings, literals and datatypes that a client may make, every outcome of every allocation, every hash function", "why_tests_cant": "Tags are compared by address, so that equality depends on the interning of strings, and references are counted by hand on every path.", "anchors": ["src/cowl_literal.c:31-177", "src/cowl_string.c:39-107", "src/cowl_string.c:157-181", "src/cowl_object.c:157-197", "src/cowl_object.c:422-433"]}
{"id": "C104", "title": "The text of an object is whole, and tells what the object is", "statement": "The functions that turn objects into text give the whole text or none, and none only for lack of memory; the text of an IRI or of an axiom is read as that IRI or axiom; objects that differ have different texts, and equal ones the same; without a default writer for objects the text names the type.", "quantifier": "every object, every default writer for functional syntax and way in which it writes, every amount of memory", "why_tests_cant": "These texts are what users and logs see; a text that is cut or ambiguous misleads them.", "anchors": ["src/cowl_object.c:280-300", "src/cowl_writer.c:163-203", "src/cowl_iri.c:172-178", "src/cowl_error.c:33-35", "src/formats/functional/writer/cowl_func_writer.c:386-437"]}
{"id": "C105", "title": "IRIs and anonymous individuals own their strings, whatever allocations fail", "statement": "However a client makes, retains and releases IRIs, anonymous individuals and strings, and whatever allocations fail: every call is well-defined; an object is in memory exactly while references to it are held, and so are its strings and their buffers; a constructor gives the object with the texts asked for, one object for each text, or NULL and then leaves no trace; once everything is released nothing is left.", "quantifier": "every history of calls that keeps to the documentation, every pattern of failing allocations, every hash function", "why_tests_cant": "IRIs and individuals are pooled and shared by all entities; a wrong count on one of their strings is a use after free or a leak.", "anchors": ["src/cowl_iri.c:25-166", "src/cowl_anon_ind.c:24-138", "src/cowl_string.c:24-192"]}
{"id": "C106", "title": "The example programs print the ontology or say why not", "statement": "The program of 01_errors.c ends with success exactly if it has printed the whole ontology that the document says; otherwise it writes one message, which for a text that is no document tells the place of the error and for a file that cannot be read the reason; 00_base.c prints the same, and says if the ontology could not be read.", "quantifier": "every document, every result of opening, reading and closing the file, every failure of the output, lack of memory for the objects made by the programs", "why_tests_cant": "These are the programs users copy; they show how errors are meant to be handled.", "anchors": ["examples/src/00_base.c:20-41", "examples/src/01_errors.c:20-82", "src/cowl_reader.c:64-109", "src/cowl_writer.c:205-243"]}
{"id": "C107", "title": "The packed header behaves like a type, a bit and an unbounded count", "statement": "Whatever a program does with the headers of its objects (make, retain, release, set and test the bit, get type and count, free), the packed words give it the same results as a header that keeps type, bit and an unbounded count apart.", "quantifier": "every program, which may go on as the results tell it; every width of the word above 8; objects of every type, any number of them", "why_tests_cant": "The other proofs about memory take reference counts to be natural numbers; this says when that is right.", "anchors": ["src/cowl_object_flags.h:52-68", "src/cowl_object_private.h:33-66", "src/cowl_object.c:157-198"]}
{"id": "C108", "title": "What the library takes for equal means the same", "statement": "Axioms, class expressions and data ranges that cowl_equals (or, for axioms, cowl_axiom_equals without annotations) takes for equal have the same meaning in the direct semantics of OWL 2; an axiom that cowl_ontology_has_axiom says the ontology has follows from the ontology.", "quantifier": "all constructs of OWL 2, all interpretations", "why_tests_cant": "Equality is what decides membership, removal and lookup; a wrong answer changes what an ontology says.", "anchors": ["src/cowl_object.c:302-337", "src/cowl_vector.c:112-130", "src/cowl_axiom.c:22-37", "src/cowl_ontology.c:222-225"]}
{"id": "C109", "title": "The answers of the queries follow from the ontology", "statement": "Every class expression visited by the queries for the subclasses, superclasses, equivalent and disjoint classes of a class, or for the types of an individual, is in that relation in all interpretations in which the ontology holds; those that an axiom puts there are all visited, but for the class itself.", "quantifier": "all ontologies of OWL 2 axioms, all classes and individuals, all interpretations, all callbacks", "why_tests_cant": "These functions are the query interface of the library; reasoning on top of it relies on their answers being consequences.", "anchors": ["include/cowl_ontology.h:440-506", "src/cowl_ontology.c:398-424", "examples/src/03_recursive_query.c:20-60"]}
{"id": "C110", "title": "ProtocOWL keeps the meaning of an ontology", "statement": "An ontology written in ProtocOWL and read into a new one holds in the same interpretations of OWL 2 as before, provided these give the same value to different texts of the same number; so it has the same consequences.", "quantifier": "all ontologies that fit (C94), all interpretations that respect numbers, all behaviours of ulib within its contract", "why_tests_cant": "The format replaces the texts of numbers by binary forms (C94); this is harmless only if what is read back is the same number.", "anchors": ["src/formats/protocowl/writer/cowl_prt_encoder.c:176-359", "src/formats/protocowl/reader/cowl_prt_decoder.c:350-440"]}
{"id": "C111", "title": "Leaving out the names of anonymous individuals keeps the meaning", "statement": "An ontology written in ProtocOWL without the names of anonymous individuals and read into a new one holds in the same interpretations of OWL 2 as before, for some choice of things for the anonymous individuals.", "quantifier": "all ontologies that fit (C94), with texts of numbers kept, all interpretations, all orders of the primitives, all behaviours of ulib within its contract", "why_tests_cant": "The writer may drop these names because OWL gives them no meaning outside the document; that is right only if the reader invents names that keep distinct individuals distinct.", "anchors": ["src/formats/protocowl/writer/cowl_prt_encoder.c", "src/formats/protocowl/reader/cowl_prt_decoder.c"]}
{"id": "C112", "title": "The functional reader reads what a document says, however it is spelled", "statement": "If a text is a document of the OWL 2 functional-style syntax, in any of its spellings, the reader accepts it and tells the handler exactly the prefixes, IRI, version, imports, annotations and axioms that the document says, in order; the ontology read has the meaning of the document's axioms.", "quantifier": "all documents of any size, all spellings of IRIs (in full, or abbreviated with any prefix) and of literals, any white space and comments, all handlers that accept, all default prefixes", "why_tests_cant": "Documents come from other programs, which abbreviate IRIs and write literals in their own way; reading back what the library itself wrote (C45) says nothing about them.", "anchors": ["src/formats/functional/reader/cowl_functional.y", "src/formats/functional/reader/cowl_functional.l", "src/cowl_literal.c", "src/cowl_iri.c", "src/cowl_prefix_map.c"]}
{"id": "C113", "title": "What the functional reader accepts, the text says", "statement": "If the functional reader accepts a text, the text is a document of the OWL 2 functional-style syntax, and what the handler was told is exactly what that document says, in order; an ontology read from it has the meaning of the document's axioms. Other texts are rejected.", "quantifier": "all texts, all handlers, all default prefixes", "why_tests_cant": "A reader that accepts a text that is no document, or reads from it something that it does not say, turns mistakes in a file silently into knowledge; this is the converse of C112.", "anchors": ["src/formats/functional/reader/cowl_functional.y", "src/formats/functional/reader/cowl_functional.l", "src/cowl_literal.c", "src/cowl_iri.c", "src/cowl_prefix_map.c"]}
{"id": "C114", "title": "What the functional writer writes says the ontology", "statement": "The text that is written for an ontology is a document of the OWL 2 functional-style syntax that says its prefixes, IRI, version, imports, annotations and axioms, neither more nor less; the ontology holds in an interpretation exactly if the axioms that the text says do.", "quantifier": "all ontologies, after any history of calls, all default prefixes of the program that reads", "why_tests_cant": "Written documents are read by other programs. That the library's own reader gets back what was written (C45) does not exclude that both misread the standard in the same way.", "anchors": ["src/formats/functional/writer/cowl_func_writer.c", "src/cowl_prefix_map.c", "src/cowl_ontology.c"]}
{"id": "C115", "title": "The primitives that are found settle what is said", "statement": "If two interpretations with the same things and values agree about every primitive that the program finds in an axiom, the axiom holds in both or in neither; likewise for ontologies and the primitives that the ontology reports. If an ontology holds and one primitive is then read otherwise, it still holds exactly if the axioms do that are visited for this primitive.", "quantifier": "all axioms, all interpretations and other readings of the vocabulary, all ontologies after any history of calls, all primitives", "why_tests_cant": "Module extraction, incremental reasoning and change impact start from the primitives of axioms and the axioms of primitives. A primitive that is missed, such as a default filler that the object does not keep, makes them unsound.", "anchors": ["src/cowl_object.c", "src/cowl_primitive.c", "src/cowl_ontology.c", "src/cowl_obj_quant.c", "src/cowl_data_quant.c"]}
{"id": "C116", "title": "A document that is read and written says the same", "statement": "If a text is accepted by the functional reader and the ontology read from it is written, in functional-style syntax or in ProtocOWL, what is written says the same as the text: the same IRI, version, imports, annotations and axioms, and the axioms hold in the same interpretations.", "quantifier": "all texts, all default prefixes, all orders in which ProtocOWL lists primitives", "why_tests_cant": "This is what users of a converter or formatter rely on, from one end to the other: neither end is judged by the program's own idea of an ontology, but by the standard's syntax and meaning.", "anchors": ["src/formats/functional/reader/cowl_functional.y", "src/formats/functional/writer/cowl_func_writer.c", "src/formats/protocowl/writer/cowl_prt_encoder.c", "src/formats/protocowl/reader/cowl_prt_decoder.c", "src/cowl_ontology.c"]}
{"id": "C117", "title": "What differs is told apart", "statement": "Constructs that differ are objects that differ. A text in functional-style syntax says one document, and of texts that say different documents the reader tells the handler different things and loads different ontologies. Ontologies that are written as the same text, or as the same bytes of ProtocOWL, have the same contents.", "quantifier": "all constructs, all documents and their texts, all pairs of ontologies, all orders in which ProtocOWL lists primitives", "why_tests_cant": "That reading and writing lose nothing means that no two contents share a representation: users compare, hash, cache and sign the files, and compare objects in place of constructs.", "anchors": ["src/formats/functional/reader/cowl_functional.y", "src/formats/functional/writer/cowl_func_writer.c", "src/formats/protocowl/writer/cowl_prt_encoder.c", "src/formats/protocowl/reader/cowl_prt_decoder.c", "src/cowl_ontology.c"]}
{"id": "C118", "title": "A series of conversions says the same", "statement": "If a text in functional-style syntax is accepted, and what was read from it is written and read any number of times, in any mixture of functional-style syntax and ProtocOWL, then every step succeeds, and the text in functional-style syntax that is written at the end says, by the syntax of the standard, the same IRI, version, imports, annotations and axioms as the first text, and declares its prefixes.", "quantifier": "all texts that say a document, all series of conversions, all orders in which ProtocOWL lists primitives, all default prefixes", "why_tests_cant": "This is what a user who converts files relies on: the first and the last text are judged by the standard, and all of the program is between them.", "anchors": ["src/formats/functional/reader/cowl_functional.y", "src/formats/functional/writer/cowl_func_writer.c", "src/formats/protocowl/writer/cowl_prt_encoder.c", "src/formats/protocowl/reader/cowl_prt_decoder.c", "src/cowl_ontology.c", "src/cowl_prefix_map.c"]}
{"id": "C119", "title": "The text of a table lists its entries", "statement": "The text of a set or map, as the functional writer gives it, lists the entries of the table in its order, each once, with key and value, and nothing else: the entries can be read off it, and different tables have different texts. In particular the text of the table of a prefix map tells every prefix and its namespace.", "quantifier": "all tables, whether sets or maps, with any keys and with values or without, and NULL", "why_tests_cant": "It is what programs print when they show prefixes or sets of constructs; the loop counts with unsigned numbers and subtracts one from the count, which is zero for an empty table.", "anchors": ["src/formats/functional/writer/cowl_func_writer.c", "src/cowl_table.c", "src/cowl_prefix_map.c"]}
{"id": "C120", "title": "Documents read into one ontology are all in it", "statement": "If texts in functional-style syntax are read into one ontology, one after another, and all are accepted, the ontology has the axioms, annotations and imports that the texts say, in their order, and no others; it holds in an interpretation exactly if all axioms of all texts do; its IRI and version are those of the last document that has an IRI; and a prefix stands for what it was last declared to stand for.", "quantifier": "all lists of texts, all default prefixes, all interpretations", "why_tests_cant": "The handler of an ontology may be given to a reader again and again, to load an ontology and what it imports; prefixes of one document must not leak into the names of another, and axioms must not be lost.", "anchors": ["src/cowl_reader.c", "src/cowl_change_handler.c", "src/formats/functional/reader/cowl_functional.y", "src/formats/functional/reader/cowl_func_reader.c", "src/cowl_ontology.c", "src/cowl_prefix_map.c"]}
{"id": "C121", "title": "An ontology can be added to another one, and taken out again", "statement": "If an ontology is added to another one through its change handler, the other one has the axioms, annotations and imports of both; the IRI, version and prefixes of the first, and its own where the first has none; and it holds in an interpretation exactly if both held. If the first is then removed through the handler, the other one has the axioms, annotations and imports that it had before.", "quantifier": "all ontologies with any history, if objects of the two at one address are the same; all interpretations", "why_tests_cant": "cowl_change_handler_handle_ontology is the way to merge ontologies, and the only one to undo it; what is left behind by a removal goes on being asserted.", "anchors": ["src/cowl_change_handler.c", "include/cowl_change_handler.h", "include/cowl_change.h", "src/cowl_ontology.c", "src/cowl_prefix_map.c"]}
{"id": "C122", "title": "A primitive can be taken out of an ontology", "statement": "If the axioms that mention a primitive are removed, with a filter or by collecting the axioms for the primitive and removing each, then exactly these axioms are gone. What is left was said before, and whether it holds does not depend on what the primitive stands for. The ontology does not find the primitive any more, unless its annotations mention it; nor does an ontology that is read from the text that is then written.", "quantifier": "all ontologies with any history, all primitives, however often axioms mention them; all interpretations and all other readings of the primitive", "why_tests_cant": "Renaming, modularisation and privacy depend on it: a program that removes an entity must neither leave statements about it behind nor lose others.", "anchors": ["src/cowl_ontology.c", "src/cowl_axiom_filter_private.h", "src/formats/functional/writer/cowl_func_writer.c", "src/formats/functional/reader/cowl_functional.y"]}
{"id": "C123", "title": "A document can be sifted as it goes by", "statement": "What a functional writer is given piece by piece, a header and axioms, is said by the text it writes, in the syntax of the standard and in the order given. In particular, a program without an ontology, whose handler writes the header of the document that is read and then the axioms that satisfy a condition, succeeds for every text that is accepted, does nothing undefined and leaves no memory behind; and what it writes says the IRI, version, imports and annotations that the first text says, and exactly those of its axioms that satisfy the condition, in their order.", "quantifier": "all texts that are accepted, all conditions, all default prefixes, all interpretations; for streams all histories of the writer", "why_tests_cant": "Stream processing is what the library is made for on small devices: a document that does not fit into memory is filtered by a handler and a writer.", "anchors": ["src/formats/functional/reader/cowl_functional.y", "src/formats/functional/writer/cowl_func_writer.c", "src/cowl_writer.c", "src/cowl_change_handler.c", "src/cowl_prefix_map.c"]}
{"id": "C124", "title": "A document can be converted as it goes by", "statement": "A program without an ontology, whose handler collects the header of a text in functional syntax and gives it and then each axiom to a ProtocOWL writer with an index of any size, succeeds for every text that is accepted. A program without an ontology that reads these bytes and in the same way writes functional syntax, leaving out axioms it does not want, succeeds as well, does nothing undefined and leaves no memory behind. The last text says the IRI, version, imports and annotations that the first says, and exactly the wanted axioms, in some order; so it has the same meaning if all are wanted.", "quantifier": "all texts that are accepted, all sizes of the index, all conditions on axioms, all default prefixes, all interpretations", "why_tests_cant": "This is how a device converts a document that does not fit into its memory; all four halves of the library's streaming interfaces have to fit together.", "anchors": ["src/formats/functional/reader/cowl_functional.y", "src/formats/functional/writer/cowl_func_writer.c", "src/formats/protocowl/writer/cowl_prt_encoder.c", "src/formats/protocowl/reader/cowl_prt_decoder.c", "src/cowl_change_handler.c", "src/cowl_writer.c"]}
{"id": "C125", "title": "The layout of ProtocOWL", "statement": "The bytes of each axiom, class expression, data range, annotation, literal and document are those of a layout given construct by construct with explicit numbers: the first byte of each kind of axiom with the bits for annotations and chains, the number of each kind of expression, the offsets that tell names from expressions, the formats of literal values, the bytes of each frame and the order of frames. Writing succeeds exactly if every name has an index. The reader reads the bytes of the layout as the axiom they lay out.", "quantifier": "all constructs of OWL 2, all ontologies made of them, all indices, all codings of numbers", "why_tests_cant": "The format is exchanged between devices that may run different versions. If writer and reader change together, documents still make the round trip, but stored documents and other programs break.", "anchors": ["src/formats/protocowl/cowl_prt_constants.h", "src/formats/protocowl/writer/cowl_prt_encoder.c", "src/formats/protocowl/reader/cowl_prt_decoder.c", "include/cowl_object_type.h", "include/cowl_axiom_type.h"]}
{"id": "C126", "title": "What the ProtocOWL reader accepts, the bytes say", "statement": "Whenever the reader hands over an axiom, a class expression, a data range or an annotation, the bytes it read say exactly that construct, by a grammar given construct by construct with explicit numbers: which numbers, bytes, texts and names follow each other, how bits of the first byte announce chains and annotations, how values of literals are spelled. If reading a document ends well, the document says, frame by frame, exactly the entries that the handler was given, in this order, each as an addition or a removal.", "quantifier": "all byte sequences, all codings of numbers, all states of the index, all constructs of OWL 2", "why_tests_cant": "A device acts on what it reads. An axiom that the sender did not send, or one that lost a part, must not be handed over.", "anchors": ["src/formats/protocowl/reader/cowl_prt_decoder.c", "src/formats/protocowl/cowl_prt_index.c", "src/formats/protocowl/cowl_prt_constants.h"]}
{"id": "C127", "title": "What the bytes say, the ProtocOWL reader accepts", "statement": "If the bytes say an axiom, a class expression, a data range, an annotation or a document, the reader reads exactly that, without an error. With C126: reading a document ends well exactly if the document says something, and the handler is given what it says. The bytes say at most one thing.", "quantifier": "all byte strings, all indices, all codings of numbers that the library may use; numbers need not be coded as short as possible", "why_tests_cant": "A document written by another program, or by another version, must not be turned down or read as something else when it follows the format.", "anchors": ["src/formats/protocowl/reader/cowl_prt_decoder.c", "src/formats/protocowl/cowl_prt_index.c", "src/formats/protocowl/cowl_prt_constants.h"]}
{"id": "C128", "title": "What the ProtocOWL writers write says what they were given", "statement": "The bytes that a ProtocOWL writer produces for an ontology, for a header and axioms handed over one by one, or for a stream of updates say exactly that, in the meaning of bytes that C126 and C127 use, and say nothing else: prefixes, IRI, version, imports, annotations, axioms, and which axioms are removed.", "quantifier": "all ontologies, headers and streams of updates; all sizes of the index; all orders of the hash tables", "why_tests_cant": "The bytes are read by other programs. That this library reads them back does not show that they mean what was written.", "anchors": ["src/formats/protocowl/writer/cowl_prt_encoder.c", "src/formats/protocowl/cowl_prt_index.c", "src/formats/protocowl/cowl_prt_constants.h"]}
{"id": "C129", "title": "Documents in ProtocOWL that are read into one ontology are all in it", "statement": "If ProtocOWL documents are read into one ontology, one after another, the ontology has the axioms, annotations and imports that the documents say, less those that they take back; the last IRI, version and namespace of each prefix that they say; and it holds in an interpretation exactly if what it should hold does.", "quantifier": "all ontologies, all sequences of documents, all interpretations", "why_tests_cant": "Programs keep an ontology up to date by reading one document after another. What is missing or wrong in memory leads to wrong answers.", "anchors": ["src/formats/protocowl/reader/cowl_prt_decoder.c", "src/cowl_change_handler.c", "src/cowl_reader.c", "src/cowl_ontology.c"]}
{"id": "C130", "title": "Documents of both formats that are read into one ontology are all in it", "statement": "If documents in functional syntax and in ProtocOWL are read into one ontology, one after another and in any order, and all are accepted, then the ontology has the axioms, annotations and imports that the documents say; the IRI and the version of the last document that has an IRI; the last namespace of each prefix; and it holds in an interpretation exactly if all that the documents say does.", "quantifier": "all sequences of documents of either format, all interpretations", "why_tests_cant": "Programs put ontologies together from files in different formats. Facts lost or changed at the seam lead to wrong answers.", "anchors": ["src/cowl_reader.c", "src/cowl_change_handler.c", "src/formats/functional/reader/cowl_func_reader.c", "src/formats/protocowl/reader/cowl_prt_decoder.c"]}
