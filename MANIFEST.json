{"claims": [
 {"property": "C01", "status": "proved", "theorems": ["Cowl.Flags.C01_refcount", "Cowl.Flags.C01_overflow_fails", "Cowl.Flags.C01_set_unset_bit"], "note": "C01_overflow_fails shows the stated limit on outstanding references is needed."},
 {"property": "C02", "status": "proved", "theorems": ["Cowl.C02_split", "Cowl.C02_split_unique", "Cowl.C02_empty"], "note": ""},
 {"property": "C03", "status": "partial", "theorems": ["Cowl.C03_parts_iff", "Cowl.C03_partial", "Cowl.C03_lossless", "Cowl.C03_fails"], "note": "False as stated (C03_fails): cowl_iri keeps the caller's split. C03_parts_iff gives the exact condition."},
 {"property": "C05", "status": "partial", "theorems": ["Cowl.C05_equals_iff_same", "Cowl.C05_partial", "Cowl.C05_refl", "Cowl.C05_fails", "Cowl.C05_mixed_order_fails"], "note": "False as stated for repeated operands and mixed order flags; proved for objects without repeated operands."},
 {"property": "C06", "status": "partial", "theorems": ["Cowl.C06_partial", "Cowl.C06_fails"], "note": "False as stated where C05 fails."},
 {"property": "C07", "status": "proved", "theorems": ["Cowl.C07_with_annotations", "Cowl.C07_without_annotations"], "note": ""},
 {"property": "C09", "status": "proved", "theorems": ["Cowl.C09_operands", "Cowl.C09_positions", "Cowl.C09_has_operand", "Cowl.C09_has_operand_with_iri"], "note": ""},
 {"property": "C10", "status": "proved", "theorems": ["Cowl.C10_iterate_primitives", "Cowl.C10_has_primitive"], "note": ""},
 {"property": "C41", "status": "partial", "theorems": ["Cowl.C41_vec", "Cowl.C41_count", "Cowl.C41_contains", "Cowl.C41_set_partial", "Cowl.C41_set_fails"], "note": "cowl_iterator_set stops at the first repeated object (C41_set_fails); the other three are proved in full."},
 {"property": "C47", "status": "proved", "theorems": ["Cowl.C47_axiom_has_primitive"], "note": ""},
 {"property": "C08", "status": "partial", "theorems": ["Cowl.C08_sets", "Cowl.C08_complete", "Cowl.C08_partial", "Cowl.C08_fails"], "note": "False for maps sharing a value (C08_fails); exact for sets and for maps without shared values; no false negatives."},
 {"property": "C25", "status": "partial", "theorems": ["Cowl.C25_plain", "Cowl.C25_lang", "Cowl.C25_lower", "Cowl.C25_typed", "Cowl.C25_plain_literal", "Cowl.C25_equality", "Cowl.C25_fails"], "note": "Undefined behaviour for rdf:PlainLiteral / rdf:langString values without a language part (C25_fails); everything else proved."},
 {"property": "C26", "status": "proved", "theorems": ["Cowl.C26_obj", "Cowl.C26_data", "Cowl.C26_default", "Cowl.C26_card", "Cowl.C26_card_default_fails"], "note": "C26_card_default_fails is about cardinality restrictions, outside the statement."},
 {"property": "C27", "status": "proved", "theorems": ["Cowl.C27_names"], "note": ""},
 {"property": "C42", "status": "partial", "theorems": ["Cowl.C42_contains", "Cowl.C42_add", "Cowl.C42_remove", "Cowl.C42_ownership_partial", "Cowl.C42_ownership_fails"], "note": "Contents are right in all cases; the reference released by remove is the argument's, not the removed item's (C42_ownership_fails)."},
 {"property": "C43", "status": "proved", "theorems": ["Cowl.Masks.C43_foreach", "Cowl.Masks.C43_laws", "Cowl.Masks.C43_ext", "Cowl.Masks.C43_all_none", "Cowl.Masks.C43_primitives_all"], "note": ""},
 {"property": "C48", "status": "partial", "theorems": ["Cowl.C48_partial", "Cowl.C48_fails"], "note": "False for maps (C48_fails)."},
 {"property": "C49", "status": "proved", "theorems": ["Cowl.C49_has_iri_string"], "note": ""},
 {"property": "C04", "status": "proved", "theorems": ["Cowl.Heap.C04_no_ub", "Cowl.Heap.C04_canonical", "Cowl.Heap.C04_canonical_strings", "Cowl.Heap.C04_result", "Cowl.Heap.C04_reuse", "Cowl.Heap.C04_reuse_strings", "Cowl.Heap.C04_tables", "Cowl.Heap.C04_ownership", "Cowl.Heap.C04_live", "Cowl.Heap.C04_stable", "Cowl.Heap.C04_no_leak"], "note": "Over a heap with counted references; addresses of freed objects may be reused. Allocation failure and counter overflow (C01) are outside the model."},
 {"property": "C44", "status": "proved", "theorems": ["Cowl.Heap.C44_entities", "Cowl.Heap.C44_get_iri"], "note": ""},
 {"property": "C11", "status": "proved", "theorems": ["Cowl.C11_total", "Cowl.C11_axioms", "Cowl.C11_by_type", "Cowl.C11_by_types"], "note": "Over histories of all ontology operations; the history may use bulk removal only where C16_partial applies."},
 {"property": "C12", "status": "partial", "theorems": ["Cowl.C12_partial", "Cowl.C12_fails"], "note": "False with repeated operands (C12_fails); proved for axioms without them."},
 {"property": "C13", "status": "partial", "theorems": ["Cowl.C13_mentions", "Cowl.C13_mentions_occurs", "Cowl.C13_partial", "Cowl.C13_fails", "Cowl.C13_iri_fails"], "note": "C13_mentions is the exact behaviour for all ontologies: one visit per mention."},
 {"property": "C14", "status": "partial", "theorems": ["Cowl.C14_complete", "Cowl.C14_partial", "Cowl.C14_types_only_fails", "Cowl.C14_repeat_fails", "Cowl.C14_iri_fails"], "note": "False for filters without primitives, repeated mentions, and mentions of the IRI of an entity."},
 {"property": "C15", "status": "partial", "theorems": ["Cowl.C15_partial", "Cowl.C15_fails"], "note": "False for an equal but distinct axiom object: C15_fails is the general statement of what happens then."},
 {"property": "C16", "status": "partial", "theorems": ["Cowl.C16_partial", "Cowl.C16_repeat_fails", "Cowl.C16_types_only_fails"], "note": "Out-of-bounds read with repeated mentions (C16_repeat_fails); filters without primitives remove nothing."},
 {"property": "C17", "status": "partial", "theorems": ["Cowl.C17_ever", "Cowl.C17_held", "Cowl.C17_partial", "Cowl.C17_iterate", "Cowl.C17_fails", "Cowl.C17_iri_fails"], "note": "C17_ever and C17_iterate are exact: everything ever mentioned is reported. As stated false after removals."},
 {"property": "C18", "status": "partial", "theorems": ["Cowl.C18_list", "Cowl.C18_partial", "Cowl.C18_fails"], "note": "False when an IRI is added twice; C18_list is exact."},
 {"property": "C19", "status": "proved", "theorems": ["Cowl.C19_annotations"], "note": ""},
 {"property": "C20", "status": "partial", "theorems": ["Cowl.Header.C20_set_iri", "Cowl.Header.C20_set_version", "Cowl.Header.C20_partial", "Cowl.Header.C20_fails"], "note": "C20_set_iri and C20_set_version give the exact condition; false when setting the current value to which nobody else owns a reference."},
 {"property": "C21", "status": "partial", "theorems": ["Cowl.C21_related", "Cowl.C21_visited", "Cowl.C21_partial", "Cowl.C21_fails"], "note": "C21_visited proves the statement as a set, C21_related the exact multiplicities; visits repeat for several mentions."},
 {"property": "C50", "status": "partial", "theorems": ["Cowl.C50_partial", "Cowl.C50_fails"], "note": "False when removing through an equal but distinct object."},
 {"property": "C22", "status": "partial", "theorems": ["Cowl.C22_get_ns", "Cowl.C22_add", "Cowl.C22_remove_prefix", "Cowl.C22_remove_ns", "Cowl.C22_merge", "Cowl.C22_partial", "Cowl.C22_standard_kept", "Cowl.C22_fails"], "note": "Everything proved except that standard prefixes always resolve: they can be removed (C22_fails)."},
 {"property": "C23", "status": "partial", "theorems": ["Cowl.C23_complete", "Cowl.C23_partial", "Cowl.C23_fails"], "note": "Completeness proved for all histories; soundness fails after overwriting a prefix (C23_fails), proved without."},
 {"property": "C24", "status": "partial", "theorems": ["Cowl.C24_partial", "Cowl.C24_no_colon", "Cowl.C24_parse_iri", "Cowl.C24_fails", "Cowl.C24_scheme_fails"], "note": "Proved for strings with a colon; undefined behaviour for a registered prefix without colon (C24_fails)."},
 {"property": "C28", "status": "partial", "theorems": ["Cowl.C28_write", "Cowl.C28_read", "Cowl.C28_round_trip", "Cowl.C28_partial", "Cowl.C28_fails"], "note": "Round trip proved for all values; rejection proved for non-digits, false for numbers beyond 32 bits and the empty string (C28_fails)."},
 {"property": "C29", "status": "partial", "theorems": ["Cowl.C29_partial", "Cowl.C29_read", "Cowl.C29_injective", "Cowl.C29_fails"], "note": "Proved for values without NUL, and exactly what is read otherwise; false for values with NUL."},
 {"property": "C30", "status": "partial", "theorems": ["Cowl.C30_partial", "Cowl.C30_full", "Cowl.C30_fails"], "note": "Proved for IRIs of the C02 split with allowed characters, calm maps and well-formed prefixes; C30_fails lists five ways in which it is false."},
 {"property": "C31", "status": "partial", "theorems": ["Cowl.C31_partial", "Cowl.C31_annotation_partial", "Cowl.C31_class_partial", "Cowl.C31_range_partial", "Cowl.C31_injective", "Cowl.C31_fails"], "note": "Proved by induction for every kind of axiom, annotation, class expression and data range, under conditions on IRIs, literals, labels and operand counts; each condition that is not about C29/C30 has a counterexample in C31_fails."},
 {"property": "C40", "status": "partial", "theorems": ["Cowl.C40_replay", "Cowl.C40_partial", "Cowl.C40_fails"], "note": "Replay proved for every handler; rebuilding proved for everything but prefixes that only the new ontology has (C40_fails)."},
 {"property": "C53", "status": "partial", "theorems": ["Cowl.C53_partial", "Cowl.C53_inverted", "Cowl.C53_axioms", "Cowl.C53_prefixes", "Cowl.C53_fails"], "note": "Exact for every kind of part: proved as stated for IRI and version; the codes for imports, annotations and axioms are inverted; removing a prefix declaration removes all prefixes of the namespace."},
 {"property": "C45", "status": "partial", "theorems": ["Cowl.C45_events", "Cowl.C45_partial", "Cowl.C45_fails"], "note": "Proved for every reachable ontology with readable IRIs, literals and prefixes and a compatible default map; C45_fails gives four ways in which it is false otherwise."},
 {"property": "C52", "status": "partial", "theorems": ["Cowl.C52_partial", "Cowl.C52_fails", "Cowl.C52_other_fails"], "note": "Proved for documents of the writer followed by text with a token; false for text after a NUL byte, an unclosed quote or a byte that begins no token."},
 {"property": "C46", "status": "partial", "theorems": ["Cowl.C46_result", "Cowl.C46_stages", "Cowl.C46_partial", "Cowl.C46_fails"], "note": "Result and stages proved for every reader implementation; the functional reader never hides an error of its handler, but does not report its code (C46_fails). Failures of the stream and of memory in the scanner are the subject of C80."},
 {"property": "C33", "status": "partial", "theorems": ["Cowl.C33_agreement", "Cowl.C33_partial", "Cowl.C33_injective", "Cowl.C33_stable", "Cowl.C33_fails"], "note": "Proved for every history of additions, flushes and resets, except that the decoder splits IRIs anew: the name is the same only for IRIs split as C02 prescribes (C33_fails)."},
 {"property": "C34", "status": "partial", "theorems": ["Cowl.C34_exact", "Cowl.C34_partial", "Cowl.C34_same_bytes", "Cowl.C34_fails", "Cowl.C34_leb_fails", "Cowl.C34_sign_fails", "Cowl.C34_lang_fails"], "note": "C34_exact says for every literal what is read. It is the same literal for text in a language, strings, datatypes that are neither numeric nor boolean, and canonical numbers (C34_partial). False for other numbers (C34_fails) and for rdf:langString literals without a language (C34_lang_fails)."},
 {"property": "C32", "status": "partial", "theorems": ["Cowl.C32_partial", "Cowl.C32_class_partial", "Cowl.C32_range_partial", "Cowl.C32_annotation_partial", "Cowl.C32_injective", "Cowl.C32_fails"], "note": "Proved for all constructs whose names are indexed, whose literals survive (C34) and whose cardinalities are below 2^31; C32_fails shows that cardinalities from 2^31 collide with smaller ones."},
 {"property": "C39", "status": "partial", "theorems": ["Cowl.C39_partial", "Cowl.C39_terminates", "Cowl.C39_version", "Cowl.C39_fails"], "note": "For every input and handler: reading ends, and with three missing checks added to the decoder the result is never undefined and otherwise the same as without them. Without the checks some inputs are undefined (C39_fails)."},
 {"property": "C35", "status": "partial", "theorems": ["Cowl.C35_partial", "Cowl.C35_events", "Cowl.C35_fails"], "note": "Proved for every history of the ontology whose contents the format can express (PrtDocOk): IRIs split as C02 prescribes, literals and cardinalities of C32 and C34, a version only with an IRI, 32-bit lengths. C35_fails: a version without an IRI is lost, other IRIs change."},
 {"property": "C38", "status": "partial", "theorems": ["Cowl.C38_partial", "Cowl.C38_no_error", "Cowl.C38_fails"], "note": "Stream failures are reported, and the encoder itself never fails on ontologies of the structural specification. C38_fails: every other error, such as lack of memory in populate_index, is overwritten by encoder_reset."},
 {"property": "C55", "status": "partial", "theorems": ["Cowl.C55_partial", "Cowl.C55_sound", "Cowl.C55_fails"], "note": "No wrong prefix is ever registered. All prefixes survive if no namespace has two and the standard ones have only their own; otherwise prefixes are lost (C55_fails)."},
 {"property": "C36", "status": "partial", "theorems": ["Cowl.C36_partial", "Cowl.C36_events", "Cowl.C36_fails"], "note": "Proved for every index size, for all headers and axioms that the format can express (PrtStreamOk, PrtDocOk as in C35), with equal prefix maps if no namespace has several prefixes; C36_fails: otherwise a prefix can be lost in one go that survives in a stream."},
 {"property": "C54", "status": "partial", "theorems": ["Cowl.C54_events", "Cowl.C54_partial", "Cowl.C54_fails", "Cowl.C54_witness"], "note": "C54_events: the bytes carry exactly the changes written, for every index size and every handler. C54_partial: into an ontology, additions are applied and removals of axioms it does not hold do nothing. C54_fails: every removal of an axiom that is held removes nothing, without an error."},
 {"property": "C57", "status": "partial", "theorems": ["Cowl.C57_partial", "Cowl.C57_good", "Cowl.C57_fails"], "note": "Proved for every input and handler that does not return COWL_NO, but for the result if a sub-property axiom was read in part: it is told to the handler, whose code is dropped. COWL_NO does not end the reading (both in C57_fails)."},
 {"property": "C37", "status": "partial", "theorems": ["Cowl.C37_partial", "Cowl.C37_accepted", "Cowl.C37_one", "Cowl.C37_fails"], "note": "C37_partial: the changes are those of the ontology under an injective renaming, or the reader rejects, which takes two anonymous individuals. C37_accepted: if not rejected, the ontology read is equal up to the renaming. C37_one: equality up to renaming with at most one. C37_fails: with two, whether the document can be read depends on the order of a hash table."},
 {"property": "C56", "status": "partial", "theorems": ["Cowl.C56_partial", "Cowl.C56_written", "Cowl.C56_fails"], "note": "Proved for every input: what is told of a beginning is a beginning of what is told of the whole, but for one sub-property axiom read in part. C56_fails: a document cut between frames is read without an error; cut in a sub-property axiom it is undefined behaviour."},
 {"property": "C51", "status": "partial", "theorems": ["Cowl.C51_partial", "Cowl.C51_add", "Cowl.C51_add_raw", "Cowl.C51_remove_prefix", "Cowl.C51_remove_ns", "Cowl.C51_merge", "Cowl.C51_get", "Cowl.C51_free", "Cowl.C51_fails"], "note": "Proved for every history in which no prefix is given another namespace, and namespaces are registered again or removed only while somebody else owns them; such histories refine the map of texts of C22 to C24. C51_fails: use after free otherwise, in three ways."},
 {"property": "C58", "status": "partial", "theorems": ["Cowl.C58_memory", "Cowl.C58_partial", "Cowl.C58_fails"], "note": "Proved for callers that give a map with every header or with none, and do not change the map before the footer. C58_fails: after a header without a map the old map is used although it was released, with undeclared prefixes, a use after free and a double release; prefixes added after the header are used but not declared."},
 {"property": "C59", "status": "partial", "theorems": ["Cowl.C59_partial", "Cowl.C59_dispatch", "Cowl.C59_path", "Cowl.C59_fails"], "note": "Proved for writers whose function for axioms does not return COWL_NO. C59_fails: COWL_NO ends the axioms, the footer is written and the result is OK."},
 {"property": "C60", "status": "partial", "theorems": ["Cowl.C60_partial", "Cowl.C60_stale", "Cowl.C60_functional", "Cowl.C60_accepting", "Cowl.C60_fails"], "note": "ProtocOWL: proved if the stream does not fail and the decoder reports at least one code. Functional syntax: the code is proved for every text and handler that accepts, and determined otherwise; C77 is about line and message. C60_fails: stale messages, errors with code OK, and files that cannot be opened."},
 {"property": "C61", "status": "proved", "theorems": ["Cowl.C61_text", "Cowl.C61_unique"], "note": "For every error; the names of codes of ulib are a parameter."},
 {"property": "C62", "status": "partial", "theorems": ["Cowl.C62_partial", "Cowl.C62_order", "Cowl.C62_accepting", "Cowl.C62_fails"], "note": "Each text has one list of changes, and every handler is told a beginning of it. C62_fails: the version is told after the IRI was refused, COWL_NO for a prefix does not end the reading, and codes of the handler become syntax errors."},
 {"property": "C63", "status": "partial", "theorems": ["Cowl.C63_partial", "Cowl.C63_idempotent", "Cowl.C63_fails"], "note": "Proved for programs that set defaults of their own while the library is initialised, and if cowl_init has enough memory. C63_fails: what a failed cowl_init leaves behind, a NULL dereference when a vocabulary cannot be made, NULL defaults, defaults set before cowl_init."},
 {"property": "C64", "status": "proved", "theorems": ["Cowl.C64_more", "Cowl.C64_cut", "Cowl.C64_items"], "note": "For every text, every text after it and every handler."},
 {"property": "C65", "status": "partial", "theorems": ["Cowl.C65_partial", "Cowl.C65_body", "Cowl.C65_accepted", "Cowl.C65_fails"], "note": "Proved for every text and every place where it is cut, but for the IRI and version of the ontology if they are the last thing told. C65_fails: a text that is cut within the IRI of the ontology tells the beginning of that IRI."},
 {"property": "C66", "status": "proved", "theorems": ["Cowl.C66_defined", "Cowl.C66_live", "Cowl.C66_count", "Cowl.C66_rest", "Cowl.C66_refs", "Cowl.C66_ctors"], "note": "For every history of calls; reference counts do not saturate (C01), and strings and primitives are leaves (C04)."},
 {"property": "C67", "status": "partial", "theorems": ["Cowl.C67_partial", "Cowl.C67_add", "Cowl.C67_live", "Cowl.C67_fails", "Cowl.C67_fails_lost"], "note": "Proved for all calls but literals with a language tag, ordered vectors and HasKey axioms whose empty vectors cannot be made, and up to the buffers of vectors. C67_fails: these are undefined without memory; C67_fails_lost: the buffer of a vector that cannot be made is lost, and a property chain that cannot be made has marked its vector."},
 {"property": "C68", "status": "partial", "theorems": ["Cowl.C68_partial", "Cowl.C68_elsewhere", "Cowl.C68_there", "Cowl.C68_fails", "Cowl.C68_fails_add"], "note": "Proved for all calls but those that change a vector in place, and for all objects that do not contain that vector. C68_fails: cowl_sub_obj_prop_chain_axiom marks the vector of the caller as ordered, so an axiom that shares it is no longer equal to what it was equal to; C68_fails_add: the annotations of an ontology are changed in place, and with them axioms that were created with them."},
 {"property": "C69", "status": "proved", "theorems": ["Cowl.C69_stay", "Cowl.C69_id", "Cowl.C69_unique", "Cowl.C69_dense", "Cowl.C69_get", "Cowl.C69_null", "Cowl.C69_end"], "note": "For the configuration with COWL_ENTITY_IDS; IRIs are values, as they are interned (C04)."},
 {"property": "C70", "status": "proved", "theorems": ["Cowl.C70_csv", "Cowl.C70_names", "Cowl.C70_human", "Cowl.C70_sum", "Cowl.C70_counts", "Cowl.C70_format"], "note": "Counts are modulo 2^32 as in the code."},
 {"property": "C71", "status": "partial", "theorems": ["Cowl.Heap.C71_reachable", "Cowl.Heap.C71_partial", "Cowl.Heap.C71_null", "Cowl.Heap.C71_result", "Cowl.Heap.C71_enough", "Cowl.Heap.C71_canonical", "Cowl.Heap.C71_live", "Cowl.Heap.C71_generate", "Cowl.Heap.C71_fails", "Cowl.Heap.C71_fails_id"], "note": "Proved for all calls but cowl_anon_ind_from_string when the copy of its id cannot be made. C71_fails: then NULL is retained; C71_fails_id: or, if only the text of the copy cannot be made, the individual returned has an empty id. The text buffers of strings are not modelled here."},
 {"property": "C72", "status": "proved", "theorems": ["Cowl.C72_defined", "Cowl.C72_buffers", "Cowl.C72_counts", "Cowl.C72_text", "Cowl.C72_null", "Cowl.C72_stable", "Cowl.C72_kept", "Cowl.C72_interns", "Cowl.C72_unique", "Cowl.C72_raw", "Cowl.C72_end", "Cowl.C72_empty_raw"], "note": "For any hash. C72_empty_raw shows why empty raw strings given to cowl_string are taken to own no memory: unlike cowl_string_opt, it does not free them. cowl_string_copy, which is private, is not among the calls (see C71)."},
 {"property": "C73", "status": "partial", "theorems": ["Cowl.C73_ok", "Cowl.C73_enough", "Cowl.C73_defined", "Cowl.C73_partial", "Cowl.C73_quiet", "Cowl.C73_annot", "Cowl.C73_history", "Cowl.C73_fails", "Cowl.C73_fails_release", "Cowl.C73_fails_index"], "note": "Proved for all that does not use the index of primitives; the index only gains entries for the object added. C73_fails: a vector that cannot be allocated is undefined behaviour; C73_fails_release: if a vector of the index cannot grow, the axiom is released though it was not retained; C73_fails_index: after a failure the index lists an axiom that is not held, and primitives that nothing held mentions."},
 {"property": "C74", "status": "proved", "theorems": ["Cowl.C74_terms", "Cowl.C74_names", "Cowl.C74_distinct", "Cowl.C74_found", "Cowl.C74_validate", "Cowl.C74_freed", "Cowl.C74_used"], "note": "With enough memory in the initialisers (see C63 otherwise). The header documents owl:versionInfo as owl:version_info; the former is used."},
 {"property": "C75", "status": "partial", "theorems": ["Cowl.C75_object", "Cowl.C75_partial", "Cowl.C75_sound", "Cowl.C75_terms", "Cowl.C75_parts", "Cowl.C75_fails"], "note": "C75_object is exact. For IRIs made from a text, proved for texts that continue the namespace with a local name or nothing, and never reported otherwise; C75_fails: other texts in a reserved namespace are split elsewhere and are not reported."},
 {"property": "C76", "status": "proved", "theorems": ["Cowl.C76_build", "Cowl.C76_axioms", "Cowl.C76_classes", "Cowl.C76_ranges", "Cowl.C76_annotations", "Cowl.C76_injective", "Cowl.C76_no_annotations", "Cowl.C76_get_annot", "Cowl.C76_names", "Cowl.C76_categories", "Cowl.C76_primitives", "Cowl.C76_numbers", "Cowl.C76_macros", "Cowl.C76_deprecated", "Cowl.C76_keys"], "note": "With enough memory (C67 is about its lack); primitives and literals are leaves (C25, C44)."},
 {"property": "C77", "status": "partial", "theorems": ["Cowl.C77_partial", "Cowl.C77_place", "Cowl.C77_none", "Cowl.C77_fails"], "note": "The line is that of the end of the word, so it is proved to be that of its beginning unless the word is a string; the code is proved to be a syntax error unless the word is <>. All else is proved in full. C77_fails: a string in two lines, and <>."},
 {"property": "C78", "status": "partial", "theorems": ["Cowl.C78_partial", "Cowl.C78_stop_partial", "Cowl.C78_finish_partial", "Cowl.C78_fails", "Cowl.C78_fails_plain", "Cowl.C78_fails_memory"], "note": "Proved for all rules and all ends of reading if there is memory for vectors, literals and composites (creation of strings, IRIs and entities may fail) and no plain literal lacks its tag; then the only thing lost are quoted strings that are discarded, which are counted exactly. C78_fails: a string at which reading ends. C78_fails_plain: a plain literal without a tag. C78_fails_memory: use after free and leaks if memory runs out."},
 {"property": "C79", "status": "partial", "theorems": ["Cowl.C79_partial", "Cowl.C79_fails", "Cowl.C79_index"], "note": "Proved for all runs, with any allocation failing, except at the six unchecked places of C79_fails: there the decoder uses a freed individual or makes an axiom of NULL. Buffers of strings are not followed."},
 {"property": "C80", "status": "partial", "theorems": ["Cowl.C80_plain", "Cowl.C80_partial", "Cowl.C80_whole", "Cowl.C80_told", "Cowl.C80_fails"], "note": "Proved: if there is memory for the scanner, no document is accepted in part, and what is told before a failure belongs to the document. C80_fails: without a scanner OK is returned; failures are taken for the end of the text, so text that is no document may be accepted, and the code is that of a syntax error."},
 {"property": "C81", "status": "partial", "theorems": ["Cowl.C81_get_ns", "Cowl.C81_partial", "Cowl.C81_get_prefix", "Cowl.C81_merge", "Cowl.C81_removals", "Cowl.C81_fails"], "note": "Proved in full for creation, registration and both lookups; for removals and merges that fail the theorems state what is left. C81_fails: removals that report lack of memory have taken place and leave a stale entry in the reverse table; a failing merge is half done."},
 {"property": "C82", "status": "partial", "theorems": ["Cowl.C82_partial", "Cowl.C82_memory", "Cowl.C82_values", "Cowl.C82_fails"], "note": "Proved without lack of memory for all calls, and with it for callers that reset the index after a failure, as long as the table of prefixes can grow. C82_fails: a failing push leaves an entry without reference or value in the table; a failing prefix makes the index release a namespace it did not retain; a failing reset leaves positions of the old vector."},
 {"property": "C83", "status": "partial", "theorems": ["Cowl.C83_partial", "Cowl.C83_prefixes", "Cowl.C83_fails"], "note": "Proved for every ontology both formats can express (Portable) and every series of conversions: the conditions of C35 and C45 hold again for what was read. C83_prefixes: prefixes are kept if no namespace has two. C83_fails: numbers change their text, constructs with one operand and sub-properties with an inverse cannot be converted to functional syntax."},
 {"property": "C84", "status": "partial", "theorems": ["Cowl.C84_partial", "Cowl.C84_lost", "Cowl.C84_fails"], "note": "Proved for callers that stop at the first code other than OK, unless the IRI and version of the header fill the index: no undefined behaviour, and if all codes are OK the bytes are those written without failures. C84_lost: after an error the footer drops what is due, with code OK. C84_fails: a lost IRI with all codes OK, lost axioms, an axiom added to NULL."},
 {"property": "C85", "status": "partial", "theorems": ["Cowl.C85_partial", "Cowl.C85_end", "Cowl.C85_collect", "Cowl.C85_set", "Cowl.C85_fails"], "note": "Proved for all histories but those in which cowl_table_empty has no memory, which deinitialises NULL (C85_fails). C85_collect and C85_set tell what the iterators store. Removal is in C42."},
 {"property": "C86", "status": "partial", "theorems": ["Cowl.C86_partial", "Cowl.C86_ends", "Cowl.C86_defined", "Cowl.C86_told", "Cowl.C86_whole", "Cowl.C86_fails"], "note": "Proved: no part of a document is accepted, for any handler. What is told is in the document and nothing is undefined, except for a failure within a sub-property axiom (C86_fails, checks missing as in C39)."},
 {"property": "C87", "status": "proved", "theorems": ["Cowl.C87_sound", "Cowl.C87_complete", "Cowl.C87_exact", "Cowl.C87_first", "Cowl.C87_actions"], "note": "Sentence is generated by the transcribed rules alone; the reader and its error automaton do not refer to them."},
 {"property": "C88", "status": "proved", "theorems": ["Cowl.C88_lengths", "Cowl.C88_choice", "Cowl.C88_qstring", "Cowl.C88_scan", "Cowl.C88_read", "Cowl.C88_words"], "note": "Scan is defined by the transcribed patterns and the choice of flex alone."},
 {"property": "C89", "status": "partial", "theorems": ["Cowl.C89_partial", "Cowl.C89_plain_partial", "Cowl.C89_read_partial", "Cowl.C89_exact", "Cowl.C89_fails"], "note": "Proved: the two grammars agree but for quantification over several data properties, which the program rejects, and imports after annotations of the ontology, which it accepts (C89_exact, C89_fails)."},
 {"property": "C90", "status": "partial", "theorems": ["Cowl.C90_partial", "Cowl.C90_sentence_partial", "Cowl.C90_fails"], "note": "Proved under the conditions of C45 (DocOk: names and text that the syntax can express). It fails without them: namespaces with a space and the prefix _ are written as they are (C90_fails)."},
 {"property": "C91", "status": "partial", "theorems": ["Cowl.C91_partial", "Cowl.C91_load_partial", "Cowl.C91_fails"], "note": "Proved for all texts, except that reading is undefined for a literal of datatype rdf:PlainLiteral or rdf:langString without a language part (C91_fails, see C25); the model rejects the text there."},
 {"property": "C92", "status": "partial", "theorems": ["Cowl.C92_partial", "Cowl.C92_load_partial", "Cowl.C92_fails"], "note": "Proved for all inputs without the least numbers of operands; moreover literals are as cowl_literal makes them, and all sizes fit into 32 bits. C92_fails: decode_vector takes vectors of any length, so equivalences of no class or one class are handed over; and reading is undefined for some inputs (C39)."},
 {"property": "C93", "status": "partial", "theorems": ["Cowl.C93_partial", "Cowl.C93_fails"], "note": "Proved for all texts, accepted or not, if in the ontology names are split as cowl splits, have no full stop at their end when abbreviated, values have no NUL, languages are tags, no inverse is a sub-property, and the text redefines no default prefix. C93_fails: without these, the text written may be rejected, writing may be undefined, or a value or name may change."},
 {"property": "C94", "status": "proved", "theorems": ["Cowl.C94_normal_form", "Cowl.C94_stable", "Cowl.C94_made", "Cowl.C34_iff"], "note": "IsNorm says what the normal form is; the value of the number that a text is taken for is still that of C34_fails."},
 {"property": "C95", "status": "partial", "theorems": ["Cowl.C95_exact", "Cowl.C95_partial", "Cowl.C95_fails"], "note": "C95_exact counts the blocks lost for all sequences in which no ProtocOWL writer is made without memory for its context; C95_partial: none are lost if each constructor has memory for all or for nothing. C95_fails: all four constructors lose the context if there is no memory for the object, and a ProtocOWL writer made without a context cannot be released."},
 {"property": "C96", "status": "partial", "theorems": ["Cowl.C96_partial", "Cowl.C96_fails"], "note": "Proved for all inputs, under conditions on the names in the ontology that was read (NamesFit): IRIs are split as C02 says, there is a version only with an IRI, numbers of names fit. No condition on constructs is needed (C92). Literals come back in their normal form (C94). C96_fails: a version without an IRI is lost, and an IRI that the decoder splits in another way changes."},
 {"property": "C97", "status": "partial", "theorems": ["Cowl.C97_partial", "Cowl.C97_fails"], "note": "Proved for all texts, if names (NamesFit) and sizes (SizesFit) of the ontology that was read can be written; literals come back in normal form (C94). That constructs are complete and literals as cowl_literal makes them follows from reading (C91). C97_fails: an IRI that is not split as C02 says, a cardinality of 2^31 or more, and a number that is not in normal form change."},
 {"property": "C98", "status": "partial", "theorems": ["Cowl.C98_partial", "Cowl.C98_fails"], "note": "Proved for all texts: both fail alike; the stream prints a line for each axiom that puts an atomic class below the given one, the query the same lines up to order, except for axioms that put the class below itself. C98_fails: SubClassOf(F F) gives a line in one program only."},
 {"property": "C99", "status": "partial", "theorems": ["Cowl.C99_partial", "Cowl.C99_deep", "Cowl.C99_fails"], "note": "Proved if the relation has a rank, for every stack deeper than the rank (as a set: a class is printed once per path); and conversely, if one can go down for ever, no stack is deep enough. C99_fails: two classes below each other."},
 {"property": "C100", "status": "partial", "theorems": ["Cowl.C100_sound", "Cowl.C100_partial", "Cowl.C100_fails"], "note": "Proved: the axioms printed are in the ontology and no two are equal; they are exactly those wanted if no two axioms are equal and none mentions the class or the property twice or as an IRI. C100_fails: the set iterator ends the query at the first repeated visit."},
 {"property": "C101", "status": "partial", "theorems": ["Cowl.C101_partial", "Cowl.C101_program", "Cowl.C101_fails"], "note": "Proved for all texts and lists of axioms, if what was read could have been written again (C93) and no prefix redefines a default one; also for the seven axioms of the program. C101_fails: writing undefined after an inverse sub-property, text rejected after a name with a final full stop."},
 {"property": "C102", "status": "proved", "theorems": ["Cowl.C102_stream", "Cowl.C102_text"], "note": "For all default prefixes that documents can declare; the map is freed with the writer. C102_text gives the document literally."},
 {"property": "C103", "status": "partial", "theorems": ["Cowl.C103_partial", "Cowl.C103_counts", "Cowl.C103_value", "Cowl.C103_stable", "Cowl.C103_null", "Cowl.C103_equal", "Cowl.C103_success", "Cowl.C103_end", "Cowl.C103_fails"], "note": "Proved for all histories and outcomes of allocations, for calls that do not run into one of two errors. C103_fails: without memory for a literal with a language tag a bit of NULL is set; a literal of type rdf:PlainLiteral without a tag is given NULL as its tag."},
 {"property": "C104", "status": "partial", "theorems": ["Cowl.C104_whole", "Cowl.C104_iri", "Cowl.C104_partial", "Cowl.C104_injective", "Cowl.C104_debug", "Cowl.C104_fails"], "note": "Proved: texts are whole; IRIs (exact condition) and axioms (under the conditions of C31) are read back, so different axioms have different texts; debug texts name the type. C104_fails: entities of the same name have the same text, and equal objects with their operands in another order have different ones."},
 {"property": "C105", "status": "partial", "theorems": ["Cowl.C105_partial", "Cowl.C105_counts", "Cowl.C105_value", "Cowl.C105_generated", "Cowl.C105_canonical", "Cowl.C105_stable", "Cowl.C105_null", "Cowl.C105_success", "Cowl.C105_end", "Cowl.C105_fails"], "note": "Proved for all calls but cowl_anon_ind_from_string when the copy of the id cannot be made or the id is empty. C105_fails: NULL is retained there, or an individual with an empty id is returned."},
 {"property": "C106", "status": "partial", "theorems": ["Cowl.C106_success", "Cowl.C106_message", "Cowl.C106_partial", "Cowl.C106_file", "Cowl.C106_base", "Cowl.C106_fails"], "note": "Proved for all documents and failures, but for the place of an empty IRI and documents for which reading is undefined. C106_fails: a failure of reading is reported as a syntax error, an empty IRI without a place, and a plain literal without a tag is undefined."},
 {"property": "C107", "status": "partial", "theorems": ["Cowl.C107_partial", "Cowl.C107_added", "Cowl.C107_fails"], "note": "Proved for programs in which no object has 2^24 references at once (2^(w-8) for words of w bits), in particular those that add fewer than 2^24 - 1 altogether. C107_fails: with 2^24 additional references the first release takes the object for unused."},
 {"property": "C108", "status": "partial", "theorems": ["Cowl.C108_partial", "Cowl.C108_classes", "Cowl.C108_ranges", "Cowl.C108_unannotated", "Cowl.C108_has", "Cowl.C108_fails"], "note": "Proved for constructs that list no operand twice. C108_fails: EquivalentClasses(A A B) is taken for equal to EquivalentClasses(A B C), and an ontology with the former is said to have the latter."},
 {"property": "C109", "status": "proved", "theorems": ["Cowl.C109_subClasses", "Cowl.C109_superClasses", "Cowl.C109_eqClasses", "Cowl.C109_disjointClasses", "Cowl.C109_types", "Cowl.C109_recursive"], "note": ""},
 {"property": "C110", "status": "partial", "theorems": ["Cowl.C110_partial", "Cowl.C110_consequences", "Cowl.C110_fails"], "note": "Proved for integers of 32 bits and for decimals and floating point numbers whose parts have 32 bits and that are not between -1 and 0. C110_fails: -0.5 is read as 0.5, with any ulib that keeps its contract."},
 {"property": "C111", "status": "partial", "theorems": ["Cowl.C111_partial", "Cowl.C111_fails"], "note": "Proved for every document the reader accepts. C111_fails: an ontology with two anonymous individuals whose document is rejected."},
 {"property": "C112", "status": "partial", "theorems": ["Cowl.C112_partial", "Cowl.C112_spellings", "Cowl.C112_load", "Cowl.C112_means", "Cowl.C112_words", "Cowl.C112_fails"], "note": "Proved but for IRIs abbreviated by a namespace that ends in a name (C03), for literals of rdf:PlainLiteral with an empty language (C25), and for documents that give a default prefix another namespace; C112_fails shows each of the three."},
 {"property": "C113", "status": "partial", "theorems": ["Cowl.C113_partial", "Cowl.C113_document", "Cowl.C113_means", "Cowl.C113_fails"], "note": "Proved for documents in a wider sense: imports and annotations in any order, prefixes declared more than once or against a default (the first meaning counts), IRIs of which only the number and kind is required, and rdf:langString in place of rdf:PlainLiteral. C113_document shows that with sorted headers and proper prefixes the document is one of the standard; C113_fails shows that neither condition is enforced by the reader."},
 {"property": "C114", "status": "partial", "theorems": ["Cowl.C114_partial", "Cowl.C114_means", "Cowl.C114_fails"], "note": "Proved for ontologies that documents can express (those of C45), with rdf:langString allowed in place of rdf:PlainLiteral in what counts as a document. C114_fails: an ontology with a version and no IRI is written as if the version were its IRI."},
 {"property": "C115", "status": "proved", "theorems": ["Cowl.C115_axiom", "Cowl.C115_visited", "Cowl.C115_ontology", "Cowl.C115_changed"], "note": "For axioms of the structural specification and ontologies that hold them; the meaning is that of the direct semantics."},
 {"property": "C116", "status": "partial", "theorems": ["Cowl.C116_partial", "Cowl.C116_alike", "Cowl.C116_protocowl", "Cowl.C116_fails"], "note": "Functional syntax: proved for ontologies that can be rewritten (C93). ProtocOWL: proved for the meaning, for names, sizes and numbers that it keeps (C97, C110). C116_fails: a text with an inverse property below another one is accepted, and writing the ontology is undefined."},
 {"property": "C117", "status": "partial", "theorems": ["Cowl.C117_constructs", "Cowl.C117_partial", "Cowl.C117_one", "Cowl.C117_load", "Cowl.C117_accepted", "Cowl.C117_written", "Cowl.C117_protocowl", "Cowl.C117_fails"], "note": "Constructs: proved. Reading: proved but for the spellings and prefixes of C112. Writing: proved for ontologies that documents express (C45), and for ProtocOWL those that fit, up to the normal form of literals (C94). C117_fails: a default prefix declared again, a version without an IRI, and integers with leading zeros in ProtocOWL are not told apart."},
 {"property": "C118", "status": "partial", "theorems": ["Cowl.C118_partial", "Cowl.C118_documents", "Cowl.C118_fails"], "note": "Proved for contents that both formats can express (C83). C118_documents starts from a document that a text says (C112); its prefixes are kept under the conditions of C83_prefixes. C118_fails: -0.5 becomes 0.5, the cardinality 3000000000 becomes 852516352, and an inverse property below another property cannot be written."},
 {"property": "C119", "status": "partial", "theorems": ["Cowl.C119_text", "Cowl.C119_partial", "Cowl.C119_prefixes", "Cowl.C119_apart", "Cowl.C119_fails"], "note": "C119_text: for all tables the text is the texts of the entries, separated by single spaces. That entries can be read off it is proved for texts without spaces, and without colons in keys; this holds for the prefixes that documents may have. C119_fails: keys with spaces or colons, and empty keys, make it ambiguous."},
 {"property": "C120", "status": "partial", "theorems": ["Cowl.C120_partial", "Cowl.C120_id", "Cowl.C120_fails"], "note": "Proved but for the version. C120_id: IRI and version are those of the last document that has an IRI, if all that have an IRI have a version or none has. C120_fails: a document without a version leaves the version of the one before, so that the ontology has a name that no document has."},
 {"property": "C121", "status": "partial", "theorems": ["Cowl.C121_partial", "Cowl.C121_each", "Cowl.C121_one", "Cowl.C121_fails"], "note": "Adding is proved in full (C121_partial). C121_each: a client that removes each part and looks at no code restores axioms, annotations and imports, if the last two have nothing in common. C121_one, C121_fails: removal through cowl_change_handler_handle_ontology takes out at most one annotation, import or axiom, since the code of a removal that found something is not OK and ends the run."},
 {"property": "C122", "status": "partial", "theorems": ["Cowl.C122_partial", "Cowl.C122_each", "Cowl.C122_load", "Cowl.C122_written", "Cowl.C122_fails"], "note": "C122_partial: with a filter, if no axiom mentions the primitive twice. C122_each: one by one, for all ontologies, where axioms that mention the IRI of an entity go as well. C122_written, C122_load: the text that is written says no axiom with the primitive, and the ontology read from it does not find it, for ontologies that documents can express. Missing: the filter with axioms that mention the primitive twice (undefined), and that the ontology itself no longer finds the primitive (C122_fails)."},
 {"property": "C123", "status": "partial", "theorems": ["Cowl.C123_partial", "Cowl.C123_means", "Cowl.C123_stream", "Cowl.C123_fails"], "note": "C123_stream holds under the conditions of C58. C123_partial, C123_means: for texts whose ontology can be written again (C93). Missing: texts that are accepted and cannot be written (C123_fails)."},
 {"property": "C124", "status": "partial", "theorems": ["Cowl.C124_partial", "Cowl.C124_fails"], "note": "Proved for contents that both formats can express (C83). C124_fails: -0.5 becomes 0.5, passing on an inverse property below another one is undefined, and of a text that is not accepted the part before the error has been converted."},
 {"property": "C125", "status": "partial", "theorems": ["Cowl.C125_partial", "Cowl.C125_class_partial", "Cowl.C125_range_partial", "Cowl.C125_annotation_partial", "Cowl.C125_read_partial", "Cowl.C125_document_partial", "Cowl.C125_values", "Cowl.C125_fails"], "note": "Proved for counts, lengths, indices and shifted cardinalities that fit into 32 bits; for reading also under the conditions of C32. C125_fails: the first bit of a cardinality with 32 bits is not written."},
 {"property": "C126", "status": "partial", "theorems": ["Cowl.C126_partial", "Cowl.C126_class", "Cowl.C126_range", "Cowl.C126_annotation", "Cowl.C126_document", "Cowl.C126_checked", "Cowl.C126_fails"], "note": "Class expressions, data ranges, annotations and documents that end well are covered. For axioms those that are handed over together with an error are missing: C126_fails gives one. C126_checked: with the missing checks nothing is missing."},
 {"property": "C127", "status": "proved", "theorems": ["Cowl.C127_axiom", "Cowl.C127_class", "Cowl.C127_range", "Cowl.C127_annotation", "Cowl.C127_document", "Cowl.C127_one_axiom", "Cowl.C127_one_document"], "note": ""},
 {"property": "C128", "status": "partial", "theorems": ["Cowl.C128_partial", "Cowl.C128_stream_partial", "Cowl.C128_session_partial", "Cowl.C128_fails"], "note": "Proved under the conditions of C35, C36 and C54, with labels of anonymous individuals written. C128_fails: a version without an ontology IRI is not written, and the result is OK."},
 {"property": "C129", "status": "partial", "theorems": ["Cowl.C129_partial", "Cowl.C129_updates_partial", "Cowl.C129_fails"], "note": "Proved for documents that say additions only; for any documents (C129_updates_partial) all but removed axioms, prefixes and the code. C129_fails: a document adds an axiom and removes it; after it was read, the axiom is still there (as C15, C54)."},
 {"property": "C130", "status": "partial", "theorems": ["Cowl.C130_partial", "Cowl.C130_updates_partial", "Cowl.C130_fails"], "note": "Proved for documents that say additions only (C129), with the last version that is said instead of that of the last document; for any documents (C130_updates_partial) all but removed axioms and prefixes. C130_fails: a text with a version, then a ProtocOWL document without one: the ontology has the IRI of the second and the version of the first (as C120)."}
]}
