# Formal model of cowl (Lean 4)

The code under study is `/repo` (sisinflab-swot/cowl, a C library for OWL 2
ontologies). The code is read as text only. This document states what is
modelled, how each property of `properties.jsonl` is (to be) proved, what is
trusted, and where the code and the property disagree.

## 1. Layout

* `lean/Verif/<Area>.lean`: the model of one group of C files. Each
  definition cites the file and lines it models and names its simplifications.
* `lean/Verif/<Area>Spec.lean` (when needed): small specification that does
  not use the model's helpers.
* `lean/Verif/<Area>Lemmas.lean`: helper lemmas.
* `lean/Verif/<Area>Props.lean`: the property theorems only, each next to an
  `example` that a concrete, non-trivial case meets its hypotheses.
* Names: `Cxx_*` is the theorem for property `Cxx`. The suffix `_partial`
  marks a theorem that proves a part, `_fails` marks a proved negation with a
  concrete witness (the code violates the property as stated).

## 2. Trusted base

* Lean 4 kernel, and the axioms `propext`, `Classical.choice`, `Quot.sound`
  at most. No other axioms, no `sorry`, no `native_decide`, no `bv_decide`.
* The reading of the C code: nothing mechanical ties the model to `/repo`;
  each definition cites lines.
* `lib/ulib` is an empty submodule in this checkout, so its containers and
  streams are modelled by their documented contract (listed in section 4).
* Allocation failure is not modelled unless a definition says so.
* Configuration modelled: default build (no `COWL_HUGE`, `COWL_ENTITY_IDS`
  only where stated); `ulib_uint` is 32 bits wide where width matters.

## 3. Plan per property

| id | what is modelled | how it is proved |
|----|------------------|------------------|
| C01 | 32-bit flags word (`BitVec 32`) and retain/release as ±1 on it | arithmetic on the word, induction over operation lists; witness at 2^24 references |
| C02 | `cowl_xml_ns_length` as backward scan over bytes | induction on the scan; characterisation as longest local-name suffix |
| C03 | `cowl_iri` and `cowl_iri_from_string` | case analysis on the scan; witness where they differ, exact condition for agreement |
| C04, C44 | an instance table keyed by content over a heap of counted objects | state machine, invariant by induction over histories |
| C05, C06 | object terms, `cowl_equals`, `cowl_hash` with abstract hash mixers | mutual structural induction; witnesses for duplicates / mixed order; full laws for terms whose vectors are duplicate-free |
| C07 | `cowl_axiom_equals` | case analysis |
| C08 | `cowl_table_equals` | witness of early return; partial theorem for the true-return direction |
| C09 | operand position masks and `iterate_operands` | case analysis over field counts, list reasoning |
| C10 | `cowl_iterate_primitives` with a stateful iterator | structural induction: the fold over the occurrence list with early stop |
| C11-C21 | ontology state (type vectors, primitive index, annotations, imports, header) and operations | invariant relating every index to the multiset of held axioms; refinement to a list spec; witnesses where the code deviates |
| C50 | reference counts of the ontology's members | history induction on top of the C11 invariant |
| C22-C24 | prefix map with forward and lazily built reverse table | refinement to a function prefix → namespace; witnesses for stale reverse entries |
| C25 | literal constructor | case analysis; undefined outcome for malformed rdf:PlainLiteral |
| C26 | quantifier constructors/accessors | case analysis |
| C27 | type-name table | whole-table `decide` lifted to all strings |
| C28 | decimal printer/parser modulo 2^32 | induction on digits; overflow witness |
| C29 | writer escaping and lexer rule for quoted strings | induction on the string |
| C30 | writer abbreviation rule, lexer rules for `<iri>` and short IRIs | per-rule character-class arguments; witness for trailing-dot remainder |
| C31, C45 | token-level writer and recursive-descent equivalent of the grammar | structural induction |
| C32-C37 | encoder/decoder over byte lists, parameterised by a lawful varint codec | structural induction, state-machine refinement between encoder and decoder index |
| C38 | encoder result state | witness that the error is overwritten |
| C39 | decoder as total function with an explicit `ub` outcome | induction on input; witness for the unchecked axiom constructor |
| C40, C53 | change handlers: replay of an ontology, additions and removals | list induction, on top of the C11 invariant; case analysis and witnesses for removals |
| C51 | memory of prefix maps | the operations of C22 on addresses over the heap of C04; invariant (the table owns its strings, the reverse table is part of it) kept by every calm call; refinement to the map of texts |
| C41 | iterator callbacks | list induction; witness for duplicates |
| C42 | vector operations | list induction |
| C43 | 64-bit masks | bit reasoning |
| C47 | `cowl_axiom_has_primitive` | from C09 and C10 |
| C48 | `cowl_table_iterate_primitives` | list induction; witness for values |
| C49 | `cowl_has_iri_string` | list reasoning |
| C46 | reader pipeline: stages, results, and the functional reader's use of handler codes | case analysis; an invariant of the handler's state carried through every parser function |
| C45, C52 | whole documents in functional syntax | C28 to C31 composed: tokens of the written text, then the events given to any handler, then replay into an ontology; `AstLemmas` shows that every AST axiom is an axiom of the object model |
| C32 | ProtocOWL constructs | byte-level round trip for every construct, every lawful ulib, every continuation; fuel shown to be irrelevant beyond the length of the stream; injectivity as a corollary |
| C33 | the two ProtocOWL indices | invariant over histories: the encoder's vector is `encoded ++ first ++ second`, and the decoder holds `encoded` |
| C34 | ProtocOWL literals | byte-level round trip `Rt` (consumes exactly what was written), for every lawful ulib; canonical texts as in XML Schema |
| C39 | any input of the ProtocOWL reader | the decoder is compared with one that makes the missing checks (`Sim`): equal results, or undefined here and an error there; termination by a decrease of the input at each frame |
| C35, C55 | whole ProtocOWL documents | frame relation `FR` (bytes, items told, index before and after), composed over the document; then loading of items as in C45 |
| C36 | ProtocOWL streaming | invariant of the encoder (what a reader of the bytes so far was told, what is due) kept by every call whatever the index size; axioms up to reordering across types |
| C37 | ProtocOWL without anonymous names | simulation between the decoder that knows the names and the one that makes them up, through every object and frame; then the refinement of C35 |
| C54 | ProtocOWL update streams | the invariant of C36 with changes in place of items; C57; then a view of the ontology without addresses |
| C56 | ProtocOWL documents cut short | monotonicity of every decoding function in its input, lifted to frames |
| C57 | handlers of the ProtocOWL reader | simulation: any handler against one that takes notes, through every frame function |
| C58 | functional writers in use | invariant by induction on calls (reference counts), then the round trip of documents (C52) for the map of the header |
| C59 | dispatch of writers | equality with a list of calls, for arbitrary callbacks |
| C60, C61 | errors of readers and their text | list induction over reports of the decoder; for functional syntax on top of C62 |
| C62 | handlers of the functional reader | each stage equals `tell` of a list that does not depend on the handler |
| C63 | start and end of the library | invariant on reference counts over sequences of operations |
| C64 | functional documents, with text after them | the tokens of a beginning, and of the whole; every parser depends on what it reads and one token more |
| C65 | functional documents that are cut | as C64; prefix relation of what is told |
| C66 | heap of vectors, literals and composites with counts; every constructor | invariant over histories: counts, no cycles; release by a worklist that ends |
| C67 | the same, with allocations that fail | the same invariant; witnesses |
| C68 | values of objects in that heap | frame: cells that stay are the same; witnesses |
| C69 | entities with numbers: instance table, vector of entities, counts | invariant over histories: number = position in the vector |
| C70 | the statistics tool: tables of names, formats, selection of the format | list reasoning on separators, C11 and C17 for the values, C28 for their text |
| C71 | the constructors of C04 with an outcome for each allocation, and generation of ids | each call is either a step of C04 or a sequence of steps of C04 that gives up what it made (`Gain`, `Part`); C04 carries over |
| C72 | strings with raw strings, text buffers, cached hashes and the table; ownership kept beside the memory | invariant by induction over calls; raw strings under way count as owned by the caller |
| C73 | additions to an ontology with an outcome per insertion (table, vector object, growth) | case analysis per call, induction over histories with failed calls left out |
| C74 | the vocabularies as tables transcribed from headers, initialisers, validators and destructors | evaluation of the finite tables |
| C75 | predicates on reserved namespaces, objects as values | uniqueness of the split (C02) |
| C76 | the inline functions of the headers, two clients that put together and take apart the constructs of `Verif.Ast` | mutual induction on constructs |
| C77 | the parser as an automaton that takes one token at a time, with lines; texts that can be completed | the automaton accepts what the reader accepts; from each state it reaches, some text is accepted; induction on matches of the scanner |
| C78 | all rules of the grammar with their actions as programs over the memory of C66; a stack machine that shifts, reduces and unwinds | an abstract interpretation of actions is proved sound once; that all rules pass it is decided by evaluation; invariant of the stack |
| C79 | all decoding functions and the index as programs over the memory of C66, which log what they meet | Hoare rules for ownership: each function owns what it returns; unchecked places are conditions on the log |
| C80 | the scanner with a stream that may fail and a string buffer that may not grow | the tokens the parser gets are a beginning of those of the text, up to a point after which nothing can be completed; then as C64 |
| C81 | the prefix map of C22/C23, each request for memory of which may fail | refinement of partial functions from prefixes to namespaces, with failing calls in the history; a reverse table that is half done is still sound |
| C82 | the index of the encoder, with its references and requests for memory that may fail | invariant by induction over calls: the references are those to the items of the vectors and to the prefixes; the keys of a table are the items of its vector unless a call has failed |
| C83 | series of conversions: the writers and readers of C35 and C45 one after the other | invariant by induction over conversions: names, prefixes and constructs stay within fixed sets that both formats can express; monotonicity of the requirements on constructs |
| C84 | the encoder of C36 and C54 with its error state, a buffer that may be NULL, requests for memory that may fail and a stream of limited room | simulation: as long as the codes are OK the encoder is that of C54; a bound on the names in the index while the header is written |
| C85 | reference counts, raw and wrapped collections of a client, iterators that retain | invariant over histories: counts are sums over owners |
| C86 | ProtocOWL reader over a stream that gives some bytes and then fails | simulation: reading more input agrees unless more was asked for |
| C87 | Recursive reader and automaton of functional syntax against the rules of the grammar | soundness by induction on fuel, completeness by induction on the height of derivations, finite checks of the rule table |
| C88 | Scanner of functional syntax against the regular expressions of its rules | longest matches per pattern, search for the first longest as a fold, uniqueness of the relation |
| C89 | Grammar of the functional reader against that of the OWL 2 standard in EBNF | both inclusions by induction on derivations, finite check that the rules agree |
| C90 | What the functional writer writes is a document of the grammar of the OWL 2 standard | tokens of each part of the text, soundness of the parser on them (C87), agreement of the rules (C89) |
| C91 | What the functional reader hands over are constructs of OWL 2, whatever the text | typing of each action of the grammar, invariant of the document rules, for every handler |
| C92 | What the ProtocOWL reader hands over are constructs of OWL 2, whatever the input | typing of each decoder function, invariant of the frames; loading keeps ontologies sound |
| C93 | An ontology read from functional syntax can be written and read again | all leaves of what is parsed come from tokens, tokens match their patterns (C88), constructs are complete (C91); so the conditions of C45 reduce to a few that texts do not guarantee |
| C94 | literals of any text in whole ProtocOWL documents | the bytes of an ontology are those of its normal form (structural induction over objects), so C35 for the normal form says what is read |
| C95 | Readers and writers are made and released without losing memory | invariant by induction on the operations: the live blocks are those of the handles plus the lost ones, which are counted |
| C96 | An ontology read from ProtocOWL can be written in it and read again | the reader gives constructs whose sizes fit (C92), so with names that fit, the round trip of C94 applies |
| C97 | An ontology read from functional syntax can be written in ProtocOWL and read again | the reader gives constructs of OWL 2 (C91), so with names and sizes that fit, the round trip of C94 applies |
| C98 | Asking a loaded ontology and watching the document give the same answer | the example programs 02 and 06, for all texts; lines of the axioms told (C62, C91) against lines of the index (C21) |
| C99 | The recursive query for subclasses ends and prints the classes below | the example program 03 with the depth of the stack as fuel; induction over a rank, and the converse for endless descent |
| C100 | The advanced query prints the axioms it asks for | the example program 04: filter, set iterator and index lookup, against the axioms that mention both |
| C101 | An ontology that was edited is written with the edits and nothing else | the example program 05: reading (C91, C93), adding, writing (C45); for any axioms, and those of the program |
| C102 | Streaming a document writes what the program says | the example program 07: a session of the writer (C58) with a map that is released early |
| C103 | Literals own their strings and datatypes, and give them back | `cowl_literal.c` over the memory of C72, with failing allocations; values as in C25, counts, equality by address |
| C104 | The text of an object is whole, and tells what the object is | `cowl_to_string` and relatives on a stream with limited memory; texts as in C30, C31, C61 |
| C105 | IRIs and anonymous individuals own their strings, whatever allocations fail | heap of IRIs and individuals on top of the strings and buffers of C72; every allocation may fail |
| C106 | The example programs print the ontology or say why not | `main` of `00_base.c` and `01_errors.c`; errors as in C61, C77, C80 |
| C107 | The packed header behaves like a type, a bit and an unbounded count | programs on a memory of words (C01) and on a memory of headers; the other memory models count in `Nat` |
| C108 | What the library takes for equal means the same | direct semantics of OWL 2 on the typed syntax (`SemSpec`); equality as in C05, C07, C12 |
| C109 | The answers of the queries follow from the ontology | the query functions of `cowl_ontology.h`; semantics as in C108; ontologies as in C21, C99 |
| C110 | ProtocOWL keeps the meaning of an ontology | semantics as in C108; texts of numbers after XML Schema (`PrtMeanSpec`); normal form of C94 |
| C111 | leaving out the names of anonymous individuals keeps the meaning | semantics as in C108, with anonymous individuals read as "some" (`HoldsSome`) |
| C112 | the functional reader reads what a document says, however spelled | `SaysSpec`: functional-style syntax of each construct after the W3C recommendation, over the tokens of C88; the rules of `cowl_functional.y` are not used |
| C113 | what the functional reader accepts, the text says | `HeardSpec`: documents of `SaysSpec` whose header may be in any order and whose prefixes may repeat; converse of C112 |
| C114 | what the functional writer writes says the ontology | `SaysSpec` documents; `SaysOnto`: same prefixes, IRI, version, imports, annotations, axioms |
| C115 | the primitives that are found settle what is said | `SemSpec.sat` in `I` and in `I.read w`, `Reading.Agrees` about each primitive found |
| C116 | a document that is read and written says the same | `Hears` for the text, `Says` for what is written; same parts, same interpretations |
| C117 | what differs is told apart | equality of constructs (`Verif.Ast`), of documents (`SaysSpec`) and of contents of ontologies; conditions of C112, C45 and C94 |
| C118 | a series of conversions says the same | `Says` and `Hears` (`SaysSpec`, `HeardSpec`) of the first and the last text; `Gives` of C83 between them |
| C119 | the text of a table lists its entries | splitting a text at spaces and at the first colon; `write_table` |
| C120 | documents read into one ontology are all in it | what each text says (`Hears` of C113), semantics as in C108; `readAll` |
| C121 | an ontology can be added to another one, and taken out again | lists of C11 to C20, prefixes of C22, semantics as in C108; `takePart`, `takeEach` |
| C122 | a primitive can be taken out of an ontology | lists of C11 to C17, other readings as in C115, texts as in C114; `Forgot` |
| C123 | a document can be sifted as it goes by | texts as in C113 and C114, streams as in C58; `SaysStream`, `siftDoc` |
| C124 | a document can be converted as it goes by | as C118, with `passDoc` and `prtSift` in place of ontologies |
| C125 | the layout of ProtocOWL | cells of `WireSpec.lean`, with explicit numbers, from the typed syntax alone |
| C126 | what the ProtocOWL reader accepts, the bytes say | languages of actions in `WireReadSpec.lean`, with explicit numbers |
| C127 | what the bytes say, the ProtocOWL reader accepts | the languages of C126 |
| C128 | what the ProtocOWL writers write says what they were given | the languages of C126; `PrtTells`, `PrtStreamTells`, `PrtSessionTells` |
| C129 | ProtocOWL documents read into one ontology are all in it | the languages of C126; `axiomsSaid` etc. on entries; for removals a fold over the entries (`Held.told`); direct semantics (`SemSpec.lean`) |
| C130 | documents of both formats read into one ontology are all in it | the languages of C113 and C126 (`SourceSays`); direct semantics (`SemSpec.lean`) |
| C38 | codes of the ProtocOWL writer | decision logic of `write_ontology`; the encoder has no error since every name in an axiom or annotation is a key of the ontology's index |

## 4. ulib contracts assumed

* `uvec`: growable array; push appends; `uvec_unordered_remove_at` overwrites
  the slot with the last item and shortens; `uvec_index_of` returns the first
  index.
* `uhash`: map/set under the given hash/equality; `put` returns `ULIB_OK` for
  a new key and `ULIB_NO` for an existing one. Iteration order is
  unspecified; theorems must not depend on it.
* `uhash_deinit` leaves an empty table, from which removing does nothing
  (`cowl_entity.c:49-57` relies on this).
* For C71: a `uhash_put` that fails for lack of memory leaves the table as it is, and
  `uhash_delete` of a key that has just been put restores it.
* `ulib_ret`: `ULIB_OK` is 0 and `ULIB_NO` is 1, as `cowl_ret` is defined from them. Neither
  is an error for `ulib_ret_is_err` (`cowl_prefix_map.c:147-149` relies on this), and
  `ulib_ret_is_ok` is the negation, as `cowl_ret_is_ok` is.
* For C72: a raw string owns at most one buffer; literals, views and strings stored in place own
  none; empty raw strings given to `cowl_string` own none; `ustring_equals` of two null strings
  is true (`cowl_string.c:207-209` relies on this to take the string out of the table).
* `uvec_foreach_reverse` reads `data[i]` for `i` from the count at the start of
  the loop minus one down to zero; it does not re-read the count.
* `ustring`: byte string with length; `ustring_index_of` returns the length if the
  character does not occur.
* `uostream/uistream` write/read bytes in order.
* Numbers (`PrtNum.lean`, structure `Ulib.Lawful`): varints and signed varints of 32-bit
  values round-trip, whatever follows them, and take at least one byte; `ustring_to_int`
  and `ulib_str_to_int` read back what `printf` writes for 32-bit values and return 32-bit
  values. Nothing is assumed about other texts. `leb_lawful` shows that the assumptions
  can be met; negative results that depend on more use that instance and say so.
* For C56 (`Ulib.Local`): reading a number does not depend on the bytes after it.

* For C78, of the parser Bison generates: if an action fails (`YYERROR`, `YYABORT`, `YYNOMEM`), the
  symbols of the right-hand side are popped without their destructors being run and `$$` is dropped;
  then the destructors of all other symbols on the stack and of the token read in advance are run.
  At a syntax error they are run for all symbols, as the grammar has no `error` token. A token is
  read in advance at most once. Memory for the stack of the parser itself does not run out.

* For C79: a ulib vector or table that has been deinitialised is empty and may be deinitialised again
  (`prefix_map_init` deinitialises the map if it fails, and `decoder_deinit` does it again). A vector
  enters the memory when it is complete: until then the decoder holds its items one by one.

* For C80, of the scanner flex generates: it asks for input until it gets no characters, and
  `yyterminate` makes the parser see the end of the input. `ustrbuf_to_string` does not fail.

* For C81: `uhash_put` may ask for memory at each call; if it fails the table is as before. Removing
  from a table asks for none.

* For C82: `uhash_put` leaves the value of a new entry unset; a vector that cannot grow is as before;
  `uvec_deinit` and `uhash_deinit` leave empty containers; `uvec_view` beyond the end of the vector is
  undefined. Looking up may compare a key to any key of the table.
* C84: `uostream_to_strbuf` does not fail (it allocates nothing), so that encoding a literal is no
  request for memory. A stream that has failed keeps its state. Objects for vectors can be allocated
  (what happens otherwise is told by C67 and C73).
* C85: `uhash_deinit` accesses the table it is given. `uhset_insert` stores nothing if it fails or the
  object is there. A `uvec_push` that fails changes nothing.
* C86: a read of a `UIStream` that fails leaves an error in its `state`, and so do all later ones.
* C87: the parser that Bison makes of a grammar without conflicts accepts exactly the sentences of the
  grammar. With this, C87 shows that the recursive functions of `FuncParse`, `FuncDoc` and `FuncFault`
  are models of that parser.
* C88: flex applies the rule with the longest match, the first of several, and an empty match only if
  there is no other (as documented). Its patterns are in Latin-1: bytes, `.` is any byte but a newline.
* C89: the grammar of the standard is transcribed from the W3C Recommendation (not in the repository);
  names that it gives to occurrences of a nonterminal are replaced by that nonterminal, and its terminals
  are the tokens of the scanner.
* `ustring_is_lower` (C103) holds of a text exactly if `ustring_to_lower` would not change it.
* C104: a stream into a string buffer that has failed once writes nothing more and keeps the error.
* C105: generated ids are not empty; their texts are given (`ulib` random strings), any of them may be in use.
* C108, C109: interpretations are not required to meet the conditions of the standard (datatype map, `owl:Thing`); the theorems hold for more of them. Anonymous individuals are interpreted by the interpretation.
* C110 (`Ulib.Reads`): the functions of ulib that parse integers read a sign and digits as the integer they stand for, if it has 32 bits. `leb` meets this.

### Comparison with the tests of cowl

`Verif/RepoTests.lean` states what the tests in `/repo/test/src` assert, for the model. Tests without files are theorems.
Tests with the files in `/repo/data` (600 axioms, 50 kB) are functions that are run with `lean --run`, as said at the head of
the module; nothing of cowl is run. All of them agree: the outcome of reading, the number of axioms in all and for each type,
the number of primitives of each kind, the number of axioms for given primitives, and the round trips in functional syntax, in
ProtocOWL, and in ProtocOWL with an index of 32 entries. This checks the model, including what it assumes of ulib, against
numbers that the authors of cowl got from the program. The memory models and the paths after errors are not covered by these
tests.

### Check of the specified meaning

`Verif/SemCheck.lean` proves that the meaning of `SemSpec.lean` agrees with the shortcuts that the structural specification of
OWL 2 names: restrictions, axioms about classes and properties, characteristics and assertions mean what the constructs mean
that they abbreviate.

## 5. Disagreements between code and property

Each is a theorem with a concrete witness.

* **C01** `C01_overflow_fails`: 2^24 references spill into the type bits of the flags word.
* **C03** `C03_fails`: `cowl_iri(ns, rem)` keeps the caller's split, so the same
  full string yields two unequal IRIs.
* **C05** `C05_fails`: `cowl_equals` is not symmetric when an unordered vector
  lists an operand twice: (A A) equals (A B) but not conversely.
  `C05_mixed_order_fails`: nor when the ordered flags of two vectors differ.
* **C06** `C06_fails`: objects that `cowl_equals` identifies by the above have
  different hashes.
* **C41** `C41_set_fails`: `cowl_iterator_set` returns `COWL_NO` for an object
  already stored, and that stops the whole iteration.
* **C08** `C08_fails`: `cowl_table_equals` returns true at the first value that
  is pointer-equal, without looking at the remaining entries.
* **C25** `C25_fails`: `cowl_literal(value, rdf:PlainLiteral)` without a
  language part dereferences a null pointer.
* **C26** `C26_card_default_fails` (beyond the statement): cardinality
  restrictions do not normalise an explicit owl:Thing filler.
* **C42** `C42_ownership_fails`: `cowl_vector_remove` releases its argument
  instead of the item it takes out.
* **C48** `C48_fails`: `cowl_table_iterate_primitives` swallows a stop inside a
  value, so `cowl_has_primitive` on a map misses values.
* **C12** `C12_fails`: the answer of `has_axiom` for (A B) depends on the index
  scanned if (A A) is held, a consequence of C05.
* **C13** `C13_fails`: an axiom that mentions a primitive n times is visited and
  counted n times. `C13_iri_fails`: axioms about the IRI of an entity are visited
  for the entity.
* **C14** `C14_types_only_fails`: `best_index_for_filter` clears the type mask
  when it finds no primitive, so a filter by type only visits nothing.
  `C14_repeat_fails`, `C14_iri_fails`: as for C13.
* **C15** `C15_fails`: `remove_axiom` finds an equal axiom, then removes by address
  of the argument: true is returned, nothing is removed, and the argument loses a
  reference the ontology never owned.
* **C16** `C16_repeat_fails`: removal shrinks the index that is being scanned; with
  `SubClassOf(A A)` the scan reads past the end. `C16_types_only_fails` as for C14.
* **C17** `C17_fails`: primitives stay indexed after removal of their last axiom
  (and the table does not own its keys). `C17_iri_fails`: as for C13.
* **C18** `C18_fails`: imports are a list; adding twice needs removing twice.
* **C20** `C20_fails`: the setters release the old value before they retain the new
  one.
* **C21** `C21_fails`: operands are visited once per mention of the primitive.
* **C50** `C50_fails`: removal through an equal copy releases the copy and leaks the
  held object.
* **C22** `C22_fails`: standard prefixes can be unregistered.
* **C23** `C23_fails`: `update_reverse_map` never drops entries, so after a prefix is
  overwritten its old namespace still maps to it, and hides longer correct prefixes.
* **C24** `C24_fails`: without a colon `str_length - (ns_length + 1)` wraps; the string
  `owl` is enough. `C24_scheme_fails`: `parse_iri("http://...")` expands a registered
  prefix `http`.
* **C28** `C28_fails`: the reader of cardinalities wraps at 2^32, reads the empty
  string as 0, and uses 2^32-1 both as a number and as the mark for rejection.
* **C29** `C29_fails`: literal values are written as C strings, so text after a NUL is
  lost.
* **C30** `C30_fails`: abbreviated names ending in a full stop lose it (and leave a
  stray token); prefix `_` turns an IRI into an anonymous individual; characters that
  are not allowed between angle brackets are not escaped; stale prefixes (C23) change
  the IRI; the empty IRI cannot be read back.
* **C31** `C31_fails`: `write_sub_obj_prop` treats an inverse sub-property as an
  entity; a literal typed as rdf:langString has no language to write; intersections of
  one operand are written but rejected by the grammar; `"a"^^rdf:PlainLiteral` is
  written, and reading it runs into C25.
* **C40** `C40_fails`: a replayed ontology gains the standard prefixes that the original
  has lost (C22).
* **C53** `C53_inverted`: `remove_import`, `remove_annot` and `remove_axiom` return a
  `bool` as `cowl_ret`, so a successful removal gives `COWL_NO` and a failed one
  `COWL_OK`. `C53_fails`: removing a prefix declaration removes all prefixes of its
  namespace, and gives `COWL_NO` if there was only one. `C53_axioms` and
  `C53_prefixes` give code and effect of both in every case.
* **C45** `C45_fails`: a version without an IRI is read as the IRI; namespaces with
  characters that are not allowed between angle brackets and the prefix `_` give
  documents that are rejected; a default prefix with another namespace wins over the
  document's when names are resolved.
* **C46** `C46_fails`: the grammar answers every code of the handler but OK with
  `YYERROR`, so an I/O error, and even a request to stop, is reported as a syntax error.
  `read_deinit` drops a request to stop. Not modelled: `func_read` returns OK if
  `yylex_init` fails.
* **C52** `C52_fails`, `C52_other_fails`: the lexer takes a NUL, an unclosed quote or a
  stray byte for the end of the input and so accepts whatever follows.
* **C33** `C33_fails`: `decode_iri_decl` builds IRIs with `cowl_iri`, which splits anew,
  so an IRI with an unusual split (which `cowl_iri` can make, C03) becomes another one.
* **C34** `C34_fails`: the encoder writes numbers by value, and the digits after the dot
  as a 32-bit number read backwards. `1.10` is read as `1.1`, and `3.14159265359` as
  `3.926410768`. With a `strtol`-like ulib `-0.5` becomes `0.5`, `007` becomes `7` and
  `3000000000` becomes `2147483647` (`C34_leb_fails`). `C34_lang_fails`: a literal made
  by `cowl_literal_typed` with rdf:langString is split at `@` when read. Not modelled:
  `isdigit` on a negative `char` in `parse_uint_reverse`.
* **C32** `C32_fails`: the encoder (`cowl_prt_encoder.c:421`) shifts a cardinality left by one in 32 bits,
  so cardinalities `n` and `2^31 + n` have the same bytes.
* **C39** `C39_fails`: a data property assertion or `DataHasValue` whose literal has the
  reserved type 3, a sub-property axiom at the end of the input (`01 13`; the constructor is
  called unconditionally) and a literal with the datatype rdf:langString and no `@` lead to
  undefined behaviour. A sub-property axiom whose annotations cannot be read is delivered
  to the handler before the input is rejected. Not modelled: the recursion of the decoder
  is bounded by the input only (stack), and `decode_vector` reserves a count taken from
  the input, up to 2^32 entries.
* **C35** `C35_fails`: `encode_iri_version` writes nothing if there is no IRI, so a version
  alone is lost. IRIs are split anew when read (C33). Not modelled: after the removal of an
  axiom the index of the ontology keeps keys that it does not own, which `populate_index`
  then visits; in the model keys are values.
* **C38** `C38_fails`: `write_ontology` ends with `encoder_reset`, which sets `e->state` to
  OK, and returns `e->state` or the state of the stream. If `populate_index` fails for lack
  of memory the call returns OK and nothing has been written. The second witness needs an
  ontology without an index, which only the encoder makes (`cowl_ontology_disable_indexing`
  is private): `C38_no_error` shows that no error of this kind arises otherwise.
* **C55** `C55_fails`: namespaces are the keys of the index of the encoder, which starts with
  those of owl, rdf, rdfs, xsd and xml. Of several prefixes for one namespace only the first
  in table order is written, and none for these five.
* **C36** `C36_fails`: whether several prefixes of one namespace survive depends on the size
  of the index, since a reset makes the encoder forget which namespaces it has declared. All
  the rest is transparent. Not covered by the model: `write_axiom`, `write_footer` or a
  frame function called before the first `write_header` pass the null pointer `e->to_flush`
  on to `cowl_ontology_add_axiom` and to `encode_data`.
* **C54** `C54_fails`: an axiom in a remove frame is decoded as a new object. If the ontology
  holds an equal one, `cowl_ontology_remove_axiom` removes nothing (C15), releases the new
  object once more than it was retained, and returns true; the handler turns this into
  `COWL_NO` (C53), which is no error, so reading goes on, and the next code replaces it. So no
  axiom can ever be removed by a stream, and usually the result is OK.
* **C57** `C57_fails`: `decode_sub_obj_prop_axiom` does not check the annotations, so an axiom that
  was read in part is told to the handler after an error; the code of that call is dropped.
  `decoder_ok` is true for `COWL_NO`, so a handler that returns it (`COWL_STOP` is the same
  number) is called again, and the last code is the result. The functional reader in contrast
  takes any code other than OK for a syntax error.
* **C37** `C37_fails`: without the names the decoder takes the first unknown number to be the
  next anonymous individual, so they have to occur in the document in the order of their
  numbers. The encoder numbers them in the order of a hash table (`populate_index`) or in the
  order of calls in a stream, where an IRI that comes later exchanges two of them
  (`id_map_add_encoding`, `cowl_prt_index.c:232-256`, keeps IRIs before anonymous individuals by moving one).
  The bytes are written with OK and rejected by the reader.
* **C56** `C56_fails`: `write_ontology` writes no end frame and `decode_frames` asks for none, so a
  document cut between frames is read without an error and with the rest missing. Cut within the
  operands of a sub-property axiom, the reader passes NULL to the constructor (C39); cut within its
  annotations, it tells the axiom without them before the error.
* **C51** `C51_fails`: the reverse table owns nothing and `update_reverse_map` drops nothing.
  `cowl_prefix_map_remove_ns` releases the namespace and then looks it up in the reverse
  table, where the freed string is still a key: asking for the prefix of a namespace and
  removing that namespace suffices, if only the map owns it.
  `cowl_prefix_map_add` with `overwrite` releases the old namespace before it retains the new
  one, which is the same interned string if the texts are equal; and if they are not, the
  reverse table keeps the freed string, and the next lookup reads it. The change handler of
  ontologies registers with `overwrite`, so that documents can cause the last one. The model
  lets a lookup compare every key of the table (real tables compare those in the same
  chain of buckets): a lookup that reads freed memory in the model may miss it in practice.
  Merging a map into itself with `overwrite` is not in the histories; it is the second case.
* **C58** `C58_fails`: `encoder_set_prefix_map` (`cowl_func_writer.c:55-59`) releases the map of the
  last header but keeps the pointer when the next header has none. Axioms are then abbreviated
  with prefixes that the document does not declare, or with a map that was freed, and the map
  is released once more with the writer.
* **C59** `C59_fails`: `write_ontology_stream` (`cowl_writer.c:115`) goes on to the footer if the
  function for axioms returned `COWL_NO`, which ended the iteration.
* **C60** `C60_fails`: `decoder_init` (`cowl_prt_decoder.c:40`) sets the code of the last error but
  keeps its message and location; errors of the stream are returned by `decoder_state` but
  not stored. `if (r) YYERROR` (`cowl_functional.y:344` and others) fails without setting an
  error. `cowl_reader_read_path` does not touch the last error if the file cannot be opened.
* **C62** `C62_fails`: `ontology_id` (`cowl_functional.y:346-352`) tells the version before it looks
  at the code for the IRI.
* **C63** `C63_fails`: on failure `cowl_init` (`cowl_config.c:57-62`) calls `cowl_deinit`, which
  returns at once because the flag is not set yet; the empty string and the vocabularies stay.
  `cowl_vocab_init` (`cowl_vocab.c:43-45`) on failure ends all vocabularies, also those that were
  never made, and `cowl_iri_vocab_free` (`cowl_vocab_private.h:35-39`) dereferences NULL.
  `cowl_set_reader` (`cowl_config.c:84-88`) retains its argument even if it is NULL, and a reader
  that is set before `cowl_init` is overwritten there.
* **C65** `C65_fails`: a text that is cut in the name of the ontology, such as `Ontology(owl:a` of
  `Ontology(owl:ab)`, tells the handler that the ontology is called `owl:a`, and then fails.
* **C67** `C67_fails`: if there is no memory, `cowl_literal_alloc` (`cowl_literal.c:80-84`) and
  `cowl_vector_ordered_empty` (`cowl_vector.c:81-85`) set a bit of NULL, and `cowl_has_key_axiom`
  (`cowl_has_key_axiom.c:18-20`) passes NULL for an empty vector that could not be made to
  `cowl_get_impl`, which retains it. `C67_fails_lost`: `cowl_vector_wrap` (`cowl_vector.c:44-55`)
  does not free the raw vector on failure, and neither do `cowl_vector_from_array` and
  `cowl_vector_with_args`, which created it.
* **C68** `C68_fails`: `cowl_sub_obj_prop_chain_axiom` (`cowl_sub_obj_prop_axiom.c:17`) marks the
  vector it is given as ordered, though others may own it: axioms that share it change their hash
  and what they are equal to, while they may be keys of tables. `C68_fails_add`:
  `cowl_ontology_get_annot` (`cowl_ontology.c:157-159`) returns the vector of the ontology itself,
  which `cowl_ontology_add_annot` (`cowl_ontology.c:473-479`) changes in place.
* **C71** `C71_fails`: `anon_ind` (`cowl_anon_ind.c:72`) passes the result of `cowl_string_copy` on
  without looking at it. If it is NULL and there is memory for the individual, `anon_ind_alloc`
  (`cowl_anon_ind.c:52`) retains NULL. `C71_fails_id`: `cowl_string_copy` (`cowl_string.c:115`) does
  not look at the result of `ustring_dup` either, so the individual returned can have an empty id.
* **C72** `C72_empty_raw`: `cowl_string` (`cowl_string.c:151-155`) is documented as equivalent to
  `cowl_string_opt` with no options, but does not free an empty raw string. The property is stated
  for empty raw strings that own no memory, for which there is no difference.
* **C73** `C73_fails`: `vector_ptr_add` and `add_axiom_to_map` (`cowl_ontology.c:444-447`,
  `497-516`) test the result of `cowl_vector_ordered_empty`, which has already set a bit of it
  (`cowl_vector.c:81-85`). `C73_fails_release`: `add_axiom_to_map` uses `cowl_vector_push`, which
  releases the axiom on failure, though the index does not own its axioms. `C73_fails_index`:
  `cowl_ontology_add_axiom` (`cowl_ontology.c:534-540`) does not undo the index if a later step
  fails. The axiom stays listed for its primitives without being held, and a second, successful
  attempt lists it twice.
* **C75** `C75_fails`: `cowl_iri_is_reserved` (`cowl_iri.c:168-170`) compares namespaces, so that
  IRIs such as `owl:1st` or `owl:a/b`, which are split after `owl#1` and `owl#a/`, are not reserved.
* **C74**: `include/cowl_owl_vocab.h` documents `version_info` as `owl:version_info`; the code uses
  `owl:versionInfo`, as OWL 2 does.
* **C77** `C77_fails`: the line of a syntax error is that of the end of the word that is rejected
  (`cowl_functional.l:42` is run after flex has counted the newlines of the match), which is not
  where a string with newlines begins; an empty IRI `<>` in place of an IRI is reported as lack of
  memory (`cowl_functional.y:279`).
* **C78** `C78_fails`: there is no `%destructor` for the type of tokens (`cowl_functional.y:246-265`), so
  the buffer of a quoted string at which reading ends is lost, e.g. in `Ontology("…"` (if the text is
  too long for ulib to store it in place). `C78_fails_plain`: reading `"a"^^rdf:PlainLiteral` sets a bit
  of NULL (`cowl_literal.c:80-84`). `C78_fails_memory`: if an axiom with annotations cannot be
  allocated, `COWL_VEC_FINALIZE` uses the annotations after having released them (`129-134`); if
  shrinking them fails, it leaves the action before the rest of the right-hand side and `$$` are
  released; if a vector cannot grow, it is leaked (`125-127`).
* **C79** `C79_fails`: if the index cannot grow, `id_map_get` returns the anonymous individual it has
  just released (`cowl_prt_index.c:282-290`), and it is used. If there is no memory for the datatype of a
  literal, or the type of a literal is unknown, no error is noted and an axiom or annotation is made
  of a NULL value (`cowl_prt_decoder.c:331-336`, `433-438`). If there is no memory for a literal with
  a language tag, or a plain literal has no tag, a bit of NULL is set (`cowl_literal.c:80-84`). If
  input ends before the operands of a sub-property axiom, the axiom is made of NULL (`893-913`).
* **C80** `C80_fails`: `func_read` returns OK if `cowl_func_yylex_init` fails
  (`cowl_func_reader.c:34`), so an empty ontology is returned. A read that fails is taken for the end
  of the text (`cowl_functional.l:39`), and so is a string for which there is no memory
  (`29-35`): if it comes after what could be a document, OK is returned, else a syntax error.
* **C81** `C81_fails`: `cowl_prefix_map_remove_prefix` pops the entry before it asks for the reverse
  table (`cowl_prefix_map.c:189-190`), and returns `COWL_ERR_MEM` if that cannot be made or brought up
  to date; the prefix is gone, its references are not released, and the reverse table may still give
  it. `cowl_prefix_map_remove_ns` does the same (`216-224`) having released the prefixes, so that the
  reverse table may give a freed string. `cowl_prefix_map_merge` is half done if it fails.
* **C82** `C82_fails`: `prefix_map_add_encoding` and `id_map_add_encoding` put the name into the table
  before the vector (`cowl_prt_index.c:58-76`, `235-252`); if the push fails the table has a key without
  reference, and no value. If the table of prefixes cannot grow (`81`), the namespace is in the vector
  without having been retained, and `prefix_map_deinit` releases it; in `prefix_map_init` that is a
  namespace of the vocabulary. After a failing `prefix_map_init` (`125-128`) `_sep` is that of the
  vector that was dropped, so `prefix_map_unencoded` looks beyond the end of the new one.
* **C83** `C83_fails`: the literal `"+7"^^xsd:integer`, read from functional syntax, is `"7"^^xsd:integer`
  after ProtocOWL. `ObjectIntersectionOf` with one operand and `SubObjectPropertyOf` with an inverse
  property make it through ProtocOWL; the former is written in functional syntax as text that the
  reader rejects, writing the latter is undefined (C31).
* **C84** `C84_fails`: `stream_encode_iri_version` (`cowl_prt_encoder.c:825-834`) goes on to
  `stream_encoder_flush_if_needed` when the IRI or version cannot be added to the index. If the index is
  full, `encode_data` stops at the error, the buffer with the IRI is dropped, and `encoder_reset` sets the
  state to OK: the header has code OK, and the document has no IRI. More generally `stream_encoder_flush`
  drops the buffer if there was an error, and `write_footer` forgets the error: after an axiom that
  could not be added for lack of memory, the footer returns OK and all axioms still in the buffer are
  missing (`C84_lost`). If `flush_state_empty` (`57-67`) fails, `to_flush` is NULL, and the next axiom
  is added to it, since `encoder_add_primitive` (`83-85`) has set the state to OK; it is NULL as well if
  an axiom is written before any header.
* **C85** `C85_fails`: `cowl_table` (`cowl_table.c:42-45`) deinitialises the raw table if there is no
  memory, also if it is NULL, as in `cowl_table_empty`.
* **C86** `C86_fails`: a stream that fails after the header of a sub-property axiom leads to undefined
  behaviour; within its annotations, an axiom that is not in the document is told before the error
  (both as in C56 for input that ends there).
* **C89** `C89_fails`: `DataSomeValuesFrom` and `DataAllValuesFrom` take one data property
  (`cowl_functional.y:740-760`), in the standard one or more; imports and annotations of an ontology may be
  mixed (`cowl_functional.y:359-371`), in the standard imports come first. `C89_exact` shows that there are
  no other differences between the grammars.
* **C90** `C90_fails`: namespaces and prefixes are written without a check (`cowl_func_writer.c:338-346`), so
  a namespace with a space, or the prefix `_`, gives a text that is no document of the standard.
* **C91** `C91_fails`: reading a document with `"a"^^rdf:PlainLiteral` is undefined, because the action calls
  `cowl_literal` (C25).
* **C92** `C92_fails`: `decode_vector` (`cowl_prt_decoder.c:175-195`) does not ask for a number of elements; an equivalence
  of no class (`prtStart ++ [16, 0]`) is accepted and handed over. It is not an axiom of OWL 2. The functional reader
  asks for two (C91).
* **C93** `C93_fails`: five accepted texts that do not survive being read, written and read. `<http://a#x.>` with a prefix
  for `http://a#` is written `e:x.`, which is rejected. `"a@b c"^^rdf:PlainLiteral` becomes `"a"@b c`, which is rejected.
  Writing `SubObjectPropertyOf(ObjectInverseOf(p) q)` is undefined. A value is cut at a NUL. With
  `Prefix(e:=<http://x/a#b>)`, the name `e:1` is kept in one part, and read back from `<http://x/a#b1>` it is split, which
  makes another object. Also, if a text declares a prefix twice, names are resolved with the first declaration and the
  ontology keeps the last one; the names are written in full then, so nothing is lost.
* **C95** `C95_fails`: `cowl_reader_functional`, `cowl_reader_protocowl`, `cowl_writer_functional` and
  `cowl_writer_protocowl` allocate a context and hand it to `cowl_reader` or `cowl_writer`; if that returns NULL, the
  context is lost. `cowl_writer_protocowl` does not return when there is no memory for the context, but makes a writer with
  a NULL context, and releasing this writer dereferences NULL in `free_ctx`.
* **C96** `C96_fails`: an input can set IRI and version of an ontology and then remove the IRI; the version that is left
  is not written. The decoder makes IRIs with `cowl_iri` from the two parts in the input, which are not
  always split as C02 says (`a:b` and `1c` give `a:b1` and `c`); written and read again, they are split in another way
  (`a:` and `b1c`), so they are other IRIs.
* **C97** `C97_fails`: a cardinality of 3000000000 is read from functional syntax, and after ProtocOWL it is 852516352 (C32), without
  an error; an IRI made from a prefix that ends within a name is another one after ProtocOWL; `"+7"^^xsd:integer` becomes
  `"7"^^xsd:integer`.
* **C98** `C98_fails`: for `SubClassOf(F F)` the stream program prints `F`, the query program nothing, since
  `cowl_ontology_iterate_related` leaves out the class asked for.
* **C99** `C99_fails`: with `SubClassOf(A B)` and `SubClassOf(B A)` the recursive query goes on until the stack is exhausted,
  whatever its size (undefined behaviour).
* **C100** `C100_fails`: the set iterator answers `COWL_NO` for an axiom that it has, and that ends the iteration: axioms after
  it are not printed. Axioms that mention the class only as an IRI in an annotation are printed.
* **C101** `C101_fails`: an ontology with an inverse in a sub-property axiom cannot be written (undefined behaviour); one with a
  name that ends with a full stop and can be abbreviated is written as a text that is rejected.
* **C103** `C103_fails`: `cowl_literal_alloc` sets the bit for a language tag without checking that there was memory for the
  literal; and it is given NULL as a tag for a text of type rdf:PlainLiteral that has none, and retains it.
* **C104** `C104_fails`: a class and an individual of the same name have the same text. Unions with the same operands in
  another order are equal, but their texts are not.
* **C105** `C105_fails`: `cowl_anon_ind_from_string` does not look whether the copy of the id could be made. If there is
  no memory for the string, NULL is retained; if there is none for its text, the individual has an empty id.
* **C106** `C106_fails`: when reading the file fails, `01_errors` says that there is a syntax error; for an empty IRI it
  says nothing about the place; a literal of type `rdf:PlainLiteral` without a tag is undefined behaviour.
* **C107** `C107_fails`: the count has 24 bits and retaining does not look whether it is full. With `2^24` references
  besides the first one the count is 1 again and the next release destroys the object.
* **C108** `C108_fails`: the comparison of unordered operands asks whether the numbers are the same and whether each
  operand of the first is among those of the second. With an operand listed twice this takes axioms with different
  meanings for equal, and `cowl_ontology_has_axiom` affirms axioms that do not follow.
* **C110** `C110_fails`: the encoder keeps the sign of a decimal in its whole part, which for `-0.5` is zero. The number is
  read back as `0.5`, so the ontology says something else. The same happens to fractions whose digits, read backwards, do
  not fit 32 bits (`C34_fails`).
* **C111** `C111_fails`: as `C37_fails`. With two anonymous individuals the document may be rejected, depending on the
  order of the hash table the writer goes through. If it is accepted, the meaning is kept.
* **C112** `C112_fails`: `e:1c` with `e:` standing for `http://ex.org/ab` is read as an IRI object other than that of
  `<http://ex.org/ab1c>` (C03); a document cannot give a prefix of the default map another namespace (the reader adds
  declarations without overwriting, `cowl_functional.y:327`), so its abbreviated IRIs mean something else; and
  `"abc@"^^rdf:PlainLiteral` is undefined behaviour (C25).
* **C113** `C113_fails`: `Ontology(Annotation(…) Import(…))` is accepted (`cowl_functional.y:359-366` has imports and annotations
  in one list), and so is a text that declares the same prefix twice, of which the first declaration counts; no document of
  the standard is written so. Further, `"v@l"^^rdf:langString` is read as if it said `rdf:PlainLiteral`.
* **C114** `C114_fails`: an ontology with a version and no IRI is written as `Ontology(<v> )`, which says that the version is
  the IRI (C45).
* **C116** `C116_fails`: `SubObjectPropertyOf(ObjectInverseOf(p) q)` is accepted, and writing the ontology in functional syntax
  is undefined (C93).
* **C117** `C117_fails`: two documents that declare a default prefix with different namespaces are read as the same class; an
  ontology with only a version and one with only an IRI are written alike in functional syntax; the integers `01` and `1` are
  written alike in ProtocOWL.
* **C118** `C118_fails`: accepted texts that, written in ProtocOWL and then in functional syntax, say something else or cannot be
  written: the decimal -0.5 (0.5), the cardinality 3000000000 (852516352), and an inverse property below another property.
* **C119** `C119_fails`: the text of a set with one restriction is that of a set of two strings, that of a set with the string `a:b` is
  that of a map, and that of a set with the empty string is that of the empty set. `write_table` separates entries by spaces and
  values by colons, and quotes nothing.
* **C120** `C120_fails`: after a document with IRI and version, a document with only an IRI is read into the same ontology: it has
  the IRI of the second and the version of the first. `cowl_change_handler_to_ontology` sets the two apart, and the reader tells
  nothing about a version that is not there.
* **C121** `C121_fails`, `C121_one`: `cowl_change_handler_handle_ontology` with `COWL_CHANGE_REMOVE` ends with the first part that is
  found and removed: its code is `COWL_NO` (see C53), for which the run stops. Usually that is the first prefix, and nothing else goes.
* **C122** `C122_fails`: a filter removes from the vector it runs over, which is undefined if an axiom mentions the primitive twice (C16); the
  axioms collected for a class include annotation assertions about its IRI (C13); and the primitive is still found afterwards (C17).
* **C123** `C123_fails`: passing on a sub-property axiom with an inverse is undefined, as in C93. If the first text is not accepted, part of
  the other one is out already.
* **C124** `C124_fails`: as C118 and C123, the number -0.5 changes, and an inverse property below another one can be passed on to
  ProtocOWL but not from there. If the first text is not accepted, part of it has been converted.
* **C125** `C125_fails`: a cardinality is shifted by one bit in 32-bit arithmetic, so the first bit of a cardinality of 2147483648
  or more is not written (as C32).
* **C126** `C126_fails`: an object sub-property axiom whose announced annotations are missing is handed to the handler without
  annotations, together with an error (`cowl_prt_decoder.c:893-913`, as C39).
* **C128** `C128_fails`: a version without an ontology IRI is left out of the document, and the writer returns OK (as C35).
* **C129** `C129_fails`: a document says that an axiom is added and then removed; after it was read, the axiom is in the ontology,
  because an equal axiom is found, but the new object is what is removed (C15, C54).
* **C130** `C130_fails`: a text with an IRI and a version is read, then a ProtocOWL document with an IRI only; the ontology has
  the IRI of the second and the version of the first (as C120).
