# Formal model of Nomango/configor in Lean 4

The code is in `/repo/include/configor`. In `lean/Verif`:

| Directory | Content |
|-----------|---------|
| `Model` | the model of the code, one file per group of headers; every definition cites the lines it models |
| `Spec` | specifications, independent of the model's helpers |
| `Proofs` | helper lemmas |
| `Props` | the property theorems (`C01_...`), each followed by an `example` that meets its hypotheses |
| `Conformity` | the project's own unit tests, restated on the model; tests of the model, not proofs |

`properties.jsonl` has the properties in English, `MANIFEST.json` the theorems of each, and
`seeded/LOG.jsonl` the wrong programs the theorems were tested against.

## Approach

* **Code units and code points** are `Nat`; every fixed-width operation of the code carries an explicit
  `% 2^n`. `int_type` of a stream is an `Int` (eof = -1). Integers of values are `Int`, reduced to 64 bits
  where the code computes with `int64_t`.
* **Outcomes** are explicit (`Model/Basic.lean`): normal result, C++ exception (with its class), failed
  `assert`, undefined behaviour, and "loop bound used up". The last one makes loops total; theorems show
  that it is never the outcome on finite input (C10), so no theorem can hide behind it. Where the code does
  not terminate (C77), the theorem says that every bound is used up.
* **State and exceptions**: the monad `M` keeps the state reached when an exception is thrown, as C++ does.
* **Layers**: stream buffers (`sgetc/sbumpc`) -> `std::istream` (`peek/get`, eofbit, failbit) -> decoders
  -> lexer -> parser -> `json::parse`; value -> serializer -> encoder -> `std::ostream` -> `json::dump`.
  The lexer and parser are generic in their source; a simulation theorem reduces every source to the list of
  code points it delivers.
* **Values** are trees; objects are association lists in the order of the `std::map`. A member function that
  returns a reference takes what is done with the reference as an argument.
* **Memory** (`Model/Heap.lean`) is a second, finer model: cells, blocks, ownership, allocations that may
  fail at any point. C96 proves that it refines the tree model, C106 that parsing into memory refines parsing to trees.
* **Floats**: parser, serializer and comparisons are generic in the floating type (`FloatOps`). Theorems that do
  not depend on arithmetic hold for any such structure. `Model/Dbl.lean` is IEEE binary64 with rounding to
  nearest even and `operator<<` for doubles. Exact rationals are the other instance. Mathlib is used only for
  the real-number estimates of C79, C80 and C82.

When the code violates a property a user would expect, the negation is proved with a concrete witness
(`Cxx_violated`) and the part that holds is proved as `Cxx_..._partial`, with the condition as close to the
cause as possible. Such properties are listed as "partial" in the manifest: the statement as a user would
want it cannot be proved, because it is false.

## Per property

| Id | Model | Proof |
|----|-------|-------|
| C01-C03 | `utf8Encode/utf8Decode` on stream states | case split on ranges, lookup table lemma, `omega` |
| C04 | same | witnesses; partial: the only laxities are overlong forms, stray and bad continuation bytes |
| C05-C08 | `utf16*`, `utf32*`, surrogates | `omega` after removing bit operations |
| C09 | `encodeAll/decodeAll` | induction on the text |
| C10 | lexer and parser with loop bound | measure on the remaining input; the bound is never reached |
| C11 | parser against the inductive grammar `Spec/Grammar` | soundness and completeness by induction on derivations and on input |
| C12, C13 | RFC 8259 grammar `Spec/Rfc8259` | inclusion in the C11 grammar; witness for C13; for the texts refused, induction on the RFC grammar with the unique reading of every prefix |
| C14, C15, C17 | lexer | witnesses and partial, from C11 |
| C16 | `Spec/Layout` | induction on tokens and gaps |
| C18 | top level of the parser | from C11 |
| C19 | object insertion | induction on the member list |
| C20, C21 | `scanInteger` | induction on digits |
| C22-C24 | outcome of parse, handlers | case analysis, invariants |
| C25 | content of the argument after a failure, `Spec/Leftover` | a mutual inductive description of "what was read so far"; soundness and completeness by induction |
| C26-C28 | `scanString` | induction on the literal |
| C29 | parser and encoders | simulation and C09 |
| C30 | parser/serializer | induction on depth |
| C31-C40 | `doDump`, `next`, `putString`, `indent` | the text written equals a plain recursive printer (`Spec/Dump`), by induction with a serializer-state invariant; then the grammar |
| C41-C48 | value operations | refinement to finite maps and lists, induction on histories |
| C49-C53 | `==`, `<` | structural induction; C50 and C52 with witnesses |
| C54, C55, C62-C65, C96 | heap | ownership relation between cells and trees (`Spec/Heap`), preserved by every command at every failure point; induction on programs |
| C56, C57, C61, C84, C86 | value operations | structural |
| C58-C60, C85 | iterators as positions | induction on the position |
| C66-C75, C87-C95 | conversions as combinators (`Conv`) | induction on containers and field lists; witnesses for the violations |
| C76-C78, C97, C98 | stream buffers, adapters, `wrap` | a view relation between buffers and texts; divergence for every bound |
| C79-C83 | float instances | algebra in exact arithmetic; rounding lemmas for binary64; error bounds by induction on digits |
| C99 | serializer on a rejecting buffer | structural induction; for all values a printer that marks the characters of strings (`Spec/Tested`), and the invariant that no marked character follows what has arrived |
| C100 | frame property of the heap model (`Proofs/Frame.lean`), interleavings of whole calls | a call does the same in the part of memory its variables own; induction over the schedule |
| C101 | `json_serializer` with `indent`; specification by lines | structural induction; false from 256 / 65536 on |
| C102 | option list of `dump` | induction over the list |
| C103 | `operator<<` of the wrapper, on a stream with width, fill character and flags | C31, C97, and the first character of a text is printable |
| C104 | the conversions, composed with dump, parse and the wrappers; types as an inductive family | induction over the type |
| C105 | `operator>>` of the wrapper with the buffer it leaves behind | simulation of the stream by the list of its code points, with the relation that a stream that has seen the end is at the end |
| C106 | `do_parse` on the memory of `Model/Heap`: strings that grow, `push_back`, `emplace` with its copy, destruction of locals on the way out; each allocation may fail | step-by-step refinement of the parser on trees, by induction over the depth; ownership invariant of C96 |
| C107 | the same; a string that cannot grow swallows what is written after | witness; without backslashes every character is checked, by an invariant of the lexer |
| C108 | `check_data`, `==`, `-`, `<` of iterators without a value or of two values | case analysis |
| C109 | `erase` with iterators that name no element | witness; case analysis |
| C110 | literals beyond the range of doubles, on IEEE doubles | witness; the error bound of C80 |
| C111 | buffers that throw, files that cannot be read further | files by simulation; throwing buffers: what the decoder delivers ends with a malformed character, which no document contains |
| C112 | the same parser, two source encodings | induction over the grammar, whose number and keyword rules depend on the width; witness |
| C113 | parsing into `char16_t` strings | witness; every string reads as its literal with U+FFFD for U+FFFF, by the round trip theorem |
| C114 | the serializer on buffers that may refuse characters, output adapters | the run on a buffer follows the run on a string until the first refusal, a simulation through all functions of the serializer |
| C115 | a count of the calls active at the same time in the parser, along the runs of the model | transfer to the list of code points by simulation; each call uses up a slash or a bracket; witness family |
| C116-C118 | `to_value` on values in memory (`Model/ConvertHeap`), for objects given by their shape | each step is a command of the memory model; induction on the object with the invariant that finished values are as on trees and unfinished ones are alive; witnesses for the violations |
| C119 | nothing new | a prefix of the units delivers a prefix of the items up to one bad item; a complete value that is not a number is not followed inside another one (values are uniquely determined by where they start); dumps have nothing after the value |
| C120 | nothing new | by cases on how the serializer ends |
| C121 | nothing new; `withFloats` in `Spec/Dump` replaces the floats of a value | a number near enough to a decimal with p digits is written as that decimal (rounding is unique); the dump theorem of C31 with the floats replaced, twice; witness for the violation |
| C122 | the preprocessor (`Model/Preproc`: tokens, macro arguments, `#`, `##`, rescanning with hide sets) on the text of the macros of conversion.hpp | a calculus of replacement: `Gives T A A' xs ys` (tokens `xs` that hide no name of `A` become `ys`); the macros are put into the form of the rules by a computation over the complete table of macros; induction on the number of fields |
| C123 | the parser with the object type as a parameter (`Model/ObjectType`); a text as a tree with all members (`Spec/ObjectType`) | simulation between two object types step by step; completeness for trees by induction on derivations; dump theorem of C31 for trees |
| C124 | the scanner and the parser again, with messages (`Model/Message`); which places reading leads to and what can be wrong there (`Spec/Message`) | the copy without messages is the parser of the other properties; every failing step of the scanner on code points says what it should, by induction on the loops; the same for the parser, with the place as invariant; simulation between the stream and its code points; witnesses for the violations |
| C125 | a variable whose array has a storage and a capacity, references into storages, `operator[]`, both assignments and `push_back` (`Model/Parts`); the growth policy and the order of evaluation are parameters | the two accesses in either order, then the assignment on lists and maps; the storage is another one exactly if the capacity was exceeded; witnesses for the violations |
| C126 | the serializer again, with messages (`Model/DumpMessage`); the strings of a value in the order of the output and what can be wrong in one (`Spec/DumpMessage`) | the copy without messages is the serializer of the other properties; induction on the loop over a string, with the place in the string as invariant, and on the value, with the strings written so far; witness for the violation |
| C127 | a variable with the names of its storage and nodes, its capacity, iterators with those names, and the changes (`Model/Live`); a name that is gone makes the use undefined | an invariant (names are fresh, distinct, one per position); each change as a change of the content and of the names; induction on the history |
| C128 | the two loops as programs over `Model/Live` (`Spec/Live`) | induction on the elements not yet visited, with those visited as a prefix; witness for the violation |
| C129 | the conversions again, with messages (`Model/ConvertMessage`); what a type needs and the first part that does not have it (`Spec/ConvertMessage`) | the copy without messages is the conversion of the other properties; induction on the type, with the loops over elements by induction on those read; witnesses for the violation |
| C130 | the same functions with a number of nested calls that they may make (`Model/StackOps`), for copying and destroying on the heap of `Model/Heap`; the levels of a value (`Spec/Height`) | induction on the number of calls: with as many as levels nothing changes; with fewer, no run comes through; for copies: a run that does not run out of calls is the same with more; for parsing: the tree of the text (C123) and its calls (C115) |
| C131 | `==` and `<` that count their calls (`Model/StackOps`); the number of parts of a value (`Spec/Height`) | induction on values; for the violation: nested arrays, by induction on their number |
| C132 | several variables of `Model/Live` that exchange their data; an iterator with the variable it names (`Model/Lives`) | an invariant (no two variables have a place in common), for which every operation gives a variable only places it had and new ones; induction on the history |
| C133 | the operations of `Model/Heap` as sequences of steps (`Model/Steps`, proved to do the same), threads with new blocks of their own, a schedule that picks who makes the next step | each step is local (frame rule of `Proofs/Frame`) and leaves shared blocks alone; an invariant relates the memory to the part of it each thread would have alone; induction on the schedule |
| C134 | the parser on a source, and on a stream buffer, with counters (`Spec/Effort`) | an invariant (what was read and what is left make up the text, or the end was seen) as a Hoare triple of each scanner function; counting is proved not to change the result |
| C135 | the calls that can throw, with the messages (`Model/Refuse`); a table of reasons (`Spec/Refuse`) | case analysis over calls and kinds of values, in both directions; the messages agree with `Model/ValueOps` and `Model/Iterator`; for the violation: a null value |
| C136 | texts that say the same up to the order of members (`Spec/Order`) | the value of a text is a sorted arrangement of the members said; sorted arrangements of permuted members are equal, by mutual induction over the texts; assignments by what `lookup` finds |
| C137 | `Model/LiveRange`: arithmetic with iterators and `erase(first, last)` on top of `Model/Live` | what C127 knows about positions, marks and nodes, extended by the range; removing one by one by induction on the length of the range |
| C138 | a count of characters by kind of value (`Spec/Size`) | the text is the printer's (C36); mutual induction over values with a bound for each line |
| C139 | the serializer with allocations that may fail: the string, the indentation, messages (`Model/DumpHeap`) | a relation to the serializer on a refusing buffer (C114), kept by every step; for the violation: memory for three characters |
| C140 | `Model/LivesRange`: arithmetic with iterators of several variables, and `erase` with iterators of any of them | variables never share a place (the invariant of C132), so a foreign iterator resolves to nothing; the rest is C137 for one variable |
| C141 | `Model/Settings`: the formatting state of a stream, the serializer's constructors, `with_precision`, `with_error_handler`, `prepare` | induction over the options; every style gives texts of the RFC's grammar |
| C142 | `Model/StreamState`: the options of `json_parser` | induction over the options |
| C143 | `Model/StreamState`: a buffer shared by streams, with the locales of each | simulation between the run with `dump` and `parse` and the one with plain writes |
| C144 | `Model/Scalar`: the operators with scalars, over `Model/ValueOps` and the doubles of `Model/Dbl` | rounding to nearest never passes a double; total order of exact numbers |

## What is modelled, by header

| Header | Modelled in | Not modelled |
|--------|-------------|--------------|
| `encoding.hpp` | `Model/Encoding` | — (`auto_encoding` dispatches on `sizeof`, modelled by the choice of `Enc`) |
| `stream.hpp` | `Model/Stream` | `xsgetn`/`seekoff` of the internal buffers that no public function reaches; `Model/Sink` has the output side: the serializer on any stream buffer, `basic_oadapterstream` included |
| how deep calls nest in `parser.hpp`, `serializer.hpp`, `json.hpp` and `value.hpp` | `Model/Stack`, `Model/StackOps` (and how often `==` and `<` are called) | only the functions that call themselves are counted |
| `token.hpp`, `json.hpp` (lexer) | `Model/Lexer`, `Model/Message` (with the messages of errors) | — |
| `parser.hpp` | `Model/Parser`, `Model/Api`, `Model/StreamState` (options, locales), `Model/ParseHeap` (in memory), `Model/ObjectType` (for other object types) | memory for error messages |
| `serializer.hpp`, `json.hpp` (serializer) | `Model/Serializer`, `Model/Settings` (formatting flags, precision and handler options), `Model/DumpHeap` (when memory runs out) | facets of locales other than which of them is used (`Model/StreamState`) |
| `value.hpp` | `Model/Value`, `ValueOps`, `Scalar` (comparison with scalars), `Convert`, `Heap`, `Parts` (references between parts of one value), `Steps` (the operations step by step, threads), `Refuse` (messages), `LiveRange` (`erase(first, last)` while iterators exist) | `data()` (it hands out the representation); overload resolution |
| `iterator.hpp` | `Model/Iterator`, `Model/Live`, `Model/LiveRange` (iterators of a value that changes), `Model/Lives`, `Model/LivesRange` (of several that are exchanged) | how `std::vector` and `std::map` represent iterators |
| `conversion.hpp` | `Model/Convert`, `Model/ConvertHeap` (`to_value` in memory), `Model/ConvertMessage` (the messages of failed reads), `Model/Preproc` (the preprocessor on `CONFIGOR_BIND`) | that compilers follow the standard's rules for macros (`Model/Preproc`; white space inside `#` arguments is not kept); overload resolution; memory of the C++ objects that are read or filled |
| `wrapper.hpp` | `Model/Wrapper` | — |
| `exception.hpp` | `Model/Basic`, `Model/Parser` (handlers), `Model/Message`, `Model/DumpMessage`, `Model/ConvertMessage` (`what()` of parse, dump and conversion errors, the recording handler; the global locale groups no digits) | `what()` of other exceptions than these and those of `Model/Refuse` |
| `configor.hpp`, `declare.hpp` | types only | `enable_if` machinery |

Further simplifications are stated in the comment of the definition that makes them. The main ones:

* The platform is x86-64 with libstdc++: `char` is signed, `int` has 32 bits, `size_t` 64, `double` is binary64 without
  excess precision and `a += b * c` is not contracted to a fused operation. `wchar_t` of 16 bits (Windows) and of
  32 bits are both covered by the width parameter.
* `skip_spaces` and `skip_comments` call each other, and `do_parse`, `do_dump`, `operator==` and destructors
  recurse with the nesting: in C++ the stack is finite, in the model it is not. `Model/Stack.lean` counts the nested calls
  of the parser (C115) and `Model/StackOps.lean` those of the others (C130).
* Allocation failure is modelled in `Model/Heap.lean`, in `Model/ConvertHeap.lean` for conversions, in `Model/DumpHeap.lean` for dumping
  and in `Model/ParseHeap.lean` for parsing, where all allocations of one growing string count as one.
* Iterators and references are used while valid. Aliasing of arguments is modelled in `Model/Heap.lean`.

## Observations about the code

Besides the violations proved (`Cxx_violated`), reading the code showed:

* `c.push_back(c)` on a null `c` appends an empty array, since `c` becomes an array first.
* Parser leniencies: `{"a"}` is read as `{}`; trailing commas; `1e+` and `1e-` at the end; after a signed exponent any
  character is eaten; a NUL ends the input; release builds read `-` and `-x`; `1e0` and `0e1` are refused.
* The internal buffers' `xsgetn` are wrong in three ways (no advance, wrong offset, cached character lost), but unreachable.

## Trusted base

* Lean 4.33.0's kernel. No `sorry`, `native_decide`, `bv_decide` or own axioms.
* The faithfulness of the hand-written model, checked by the line citations and by `Conformity`: the checks of
  /repo/tests hold of the model, by kernel evaluation. Left out are member access to a `fifo_map` object, the four files of
  test_parser.cpp that are too long to evaluate, and checks of compile-time facts.
* The specifications in `Spec`, which give the theorem statements their meaning.
* libstdc++ behaviour: `peek` at the end sets eofbit, `get` at the end sets eofbit and failbit, unformatted input on a
  stream that is not good sets failbit and returns eof, `std::map` keeps keys in `operator<` order, `emplace`
  keeps the first, `sentry` skips white space, `std::num_put` writes numbers as `printf` does.

`theorems_failed` in `seeded/LOG.jsonl` lists the property theorems that depend on a declaration whose proof failed
after the edit, also when the failing declaration is a helper lemma; `lemmas_failed` lists the declarations themselves.
Declarations are matched by name, so where a name occurs in several namespaces the list can name too many theorems. A theorem
that is not rebuilt because a module it imports failed is listed only if it depends on a declaration that failed.

## Axioms of each theorem

* ``: `C129_reference`, `C143_violated`.
* `propext`: `C04_violated`, `C101_violated_step`, `C102_options`, `C104_insert_failure`, `C108_two_values`, `C109_erase_scalar_partial`, `C109_violated`, `C116_any_order`, `C116_pointers`, `C124_violated_nul`, `C125_mixed`, `C125_push_self`, `C125_push_self_violated`, `C126_record`, `C126_same_end`, `C129_order`, `C132_moved`, `C132_others_partial`, `C140_operators_partial`, `C142_options`, `C142_order`, `C142_string`, `C143_agree_partial`, `C143_one_stream_partial`, `C24_violated`, `C43_violated`, `C45_wrong_type`, `C48_erase_index_partial`, `C48_violated`, `C56_clear`, `C57_empty_iff`, `C60_difference`, `C60_object_reported`, `C61_non_object`, `C66_float_round_trip`, `C66_scalar_round_trip`, `C67_violated`, `C68_get_ref`, `C71_replaces_map_partial`, `C71_violated`, `C71_violated_array`, `C72_violated`, `C72_violated_list`, `C73_violated`, `C74_not_an_object`, `C75_violated`, `C84_violated`, `C87_violated`, `C88_violated`, `C89_violated`, `C90_violated`, `C91_exactly_partial`, `C91_ptr_round_trip_partial`, `C91_violated`, `C92_violated`, `C95_float_safe`, `C99_any_buffer_violated`, `C99_violated`.
* `propext`, `Quot.sound`: `C02_utf8_encode_out_of_range`, `C109_exactly_partial`, `C109_range_exactly_partial`, `C113_dump_partial`, `C114_adapter`, `C114_complete`, `C114_end`, `C114_exact`, `C114_prefix`, `C114_room_exact`, `C116_sequences`, `C120_dump_handler`, `C123_same_end`, `C123_std_map`, `C124_same_end`, `C125_copy_elements_partial`, `C125_copy_existing`, `C125_move_elements_partial`, `C125_push_part`, `C125_violated`, `C129_follows`, `C129_violated`, `C130_equal`, `C131_equal`, `C131_follows`, `C131_stops_array`, `C131_violated_object`, `C132_self_partial`, `C132_swapped_back_partial`, `C133_steps`, `C135_follows`, `C135_names_partial`, `C135_reason_partial`, `C135_tells_partial`, `C139_end_partial`, `C139_enough_partial`, `C139_prefix_partial`, `C139_string_partial`, `C140_plain_partial`, `C141_other_flags`, `C141_settings`, `C143_exactly_partial`, `C143_left_behind`, `C15_violated`, `C20_integer_value`, `C43_element_assignment_partial`, `C43_exactly_partial`, `C43_too_large`, `C44_array_is_list`, `C44_makeArray`, `C44_null_is_empty`, `C46_at_index`, `C48_exactly_partial`, `C49_eq_is_identity`, `C49_equivalence`, `C50_symmetric_partial`, `C50_violated`, `C52_violated`, `C52_violated_incomparable`, `C52_violated_large`, `C52_violated_nan`, `C59_key_of_non_object`, `C60_comparisons`, `C63_violated`, `C63_violated_by_push`, `C63_violated_by_swap`, `C68_get_container`, `C68_get_scalar`, `C71_replaces_array_partial`, `C71_replaces_partial`, `C72_array_exactly_partial`, `C72_forward_exactly_partial`, `C72_keeps_partial`, `C72_list_exactly_partial`, `C72_set_exactly_partial`, `C72_vector_exactly_partial`, `C76_violated`, `C78_read_partial`, `C78_violated`, `C80_each_step_nearest_partial`, `C84_array_exactly_partial`, `C84_only_that_element_partial`, `C85_erase_array`, `C85_erase_object`, `C85_erase_range`, `C87_sequence_of_other_partial`, `C88_map_of_other_partial`, `C89_array_length_partial`, `C89_exactly_partial`, `C92_in_vector_partial`, `C97_broken`, `C99_string_any_buffer_partial`.
* `propext`, `Classical.choice`, `Quot.sound`: `C01_utf8_roundtrip`, `C02_utf8_encode_rfc3629`, `C03_utf8_decode_accepted`, `C03_utf8_truncated_rejected`, `C04_exactly_partial`, `C04_utf8_wellformed_partial`, `C05_utf16_encode`, `C05_utf16_roundtrip`, `C06_utf16_accepted`, `C06_utf16_unpaired_rejected`, `C07_utf32_out_of_range`, `C07_utf32_roundtrip`, `C08_surrogates_join_split`, `C08_surrogates_split_join`, `C09_default_encoding`, `C09_utf16_injective`, `C09_utf16_text_roundtrip`, `C09_utf32_injective`, `C09_utf32_text_roundtrip`, `C09_utf8_injective`, `C09_utf8_text_roundtrip`, `C100_threads`, `C100_touches_only_named`, `C101_exactly_partial`, `C101_indent_option_partial`, `C101_stream_exactly_partial`, `C101_stream_width_partial`, `C101_violated_deep`, `C103_insert_extract`, `C104_object_stream`, `C104_object_text`, `C105_no_second`, `C105_used_up`, `C105_used_up_as`, `C106_parse_in_memory`, `C106_parse_new`, `C107_no_wrong_value_partial`, `C107_violated`, `C108_no_value`, `C10_parse_terminates`, `C110_finite_partial`, `C110_infinite`, `C110_violated`, `C110_violated_zero`, `C111_adapter_partial`, `C111_file_violated`, `C111_throwing_partial`, `C112_encodings_partial`, `C112_narrower_partial`, `C112_violated`, `C113_only_noncharacter_partial`, `C113_violated`, `C114_adapter_exact`, `C115_accepted_partial`, `C115_bound_partial`, `C115_comments`, `C115_dumped_partial`, `C115_nesting`, `C115_violated`, `C116_assign`, `C116_bound`, `C116_construct`, `C116_maps`, `C117_lost_by_assignment_partial`, `C117_lost_exactly_partial`, `C117_violated`, `C117_violated_by_memory`, `C118_alive_partial`, `C118_exactly_partial`, `C118_pointers_partial`, `C118_violated`, `C119_dump`, `C119_full_buffer`, `C119_prefix`, `C11_accepts_exactly_grammar`, `C11_decoded_once`, `C11_document_unique`, `C121_stable_partial`, `C121_violated`, `C122_bind`, `C122_bind_many`, `C123_insertion_order`, `C123_load_after_save`, `C123_members_in_text_order`, `C123_tree_unique`, `C123_unordered_load_after_save`, `C124_malformed_code`, `C124_message_partial`, `C124_record`, `C124_violated`, `C125_copy_members`, `C125_move_members`, `C125_whole_partial`, `C125_wrong_kind`, `C126_message_partial`, `C126_only_partial`, `C126_violated`, `C127_array_for_good`, `C127_array_step`, `C127_content`, `C127_element_stays`, `C127_end_stays`, `C127_erase`, `C127_find`, `C127_member_for_good`, `C127_member_removed`, `C127_member_stays`, `C127_store`, `C127_use`, `C128_erase_array_partial`, `C128_erase_object_partial`, `C128_erase_scalar_partial`, `C128_update_array_partial`, `C128_update_object_partial`, `C128_update_scalar_partial`, `C128_violated`, `C129_message_partial`, `C129_names_types_partial`, `C12_standard_json_accepted`, `C130_copy`, `C130_destroy`, `C130_dump`, `C130_less`, `C130_parsed`, `C131_equal_exactly`, `C131_less_partial`, `C131_stops_object`, `C131_violated`, `C132_content`, `C132_erase`, `C132_gone`, `C132_store`, `C132_swapped`, `C132_use`, `C132_violated`, `C133_threads`, `C134_accesses`, `C134_calls`, `C134_cstring`, `C134_file`, `C134_same_accesses`, `C134_same_calls`, `C134_string`, `C135_message_partial`, `C135_violated`, `C136_assignments`, `C136_last_assignment`, `C136_make_object`, `C136_text_order`, `C136_texts`, `C136_values`, `C137_back`, `C137_distance`, `C137_erase_all`, `C137_erase_backwards`, `C137_erase_range`, `C137_objects_refuse`, `C137_one_by_one`, `C137_plus`, `C138_double`, `C138_indented`, `C138_one_line`, `C139_arrived_partial`, `C139_indent_partial`, `C139_violated`, `C13_exactly_partial`, `C13_rfc_accepted_partial`, `C13_violated`, `C140_arithmetic_partial`, `C140_erase_range_partial`, `C140_followed_partial`, `C140_foreign`, `C140_violated`, `C141_number`, `C144_exact_partial`, `C144_others`, `C144_rounded_partial`, `C144_violated`, `C14_decimal_literals_partial`, `C14_violated`, `C15_exact_keywords_partial`, `C15_exactly_partial`, `C15_spelling_partial`, `C16_spacing_irrelevant`, `C17_comment_end_partial`, `C17_stars_partial`, `C17_violated`, `C18_no_trailing_garbage`, `C19_first_key_wins`, `C19_object_unique`, `C20_integers_exact`, `C21_integer_overflow`, `C22_exceptions_are_deserialization`, `C23_no_abort_partial`, `C23_violated`, `C24_exactly_partial`, `C24_handler_partial`, `C25_content_after_failure`, `C25_content_unique`, `C25_content_with_handler`, `C26_string_literals`, `C26_strings_from_literals`, `C27_bad_keys_rejected`, `C27_bad_strings_rejected`, `C28_exactly_partial`, `C28_valid_unicode_partial`, `C28_violated`, `C29_transcoding`, `C30_nested_dump`, `C30_nested_parse`, `C31_dump_parse`, `C32_control_characters_partial`, `C32_exactly_partial`, `C32_violated`, `C33_exactly_partial`, `C33_unicode_escaping_partial`, `C33_violated`, `C34_ascii_output`, `C35_only_whitespace`, `C35_same_value`, `C36_dump_text`, `C36_members_in_order`, `C37_fails_exactly`, `C37_malformed_strings`, `C38_injective`, `C39_dump_appends`, `C40_dump_ends`, `C40_indent_in_bounds`, `C41_changes_keep_sorted`, `C41_iteration_increasing`, `C41_makeObject_sorted`, `C41_memory_sorted`, `C41_parse_sorted`, `C42_empty`, `C42_erase_count`, `C42_object_is_finite_map`, `C45_wrong_type_on_path`, `C46_at_key`, `C46_no_insertion`, `C47_path_assignment`, `C50_cause_partial`, `C50_doubles_partial`, `C50_exactly_partial`, `C51_asymmetric`, `C51_doubles`, `C52_doubles_partial`, `C52_exactly_partial`, `C52_numbers_partial`, `C52_strict_weak_partial`, `C52_transitive_partial`, `C53_trichotomy`, `C54_move`, `C54_moveAssign`, `C54_self`, `C54_swap`, `C55_copyAssign_own_part`, `C55_moveAssign_own_part`, `C57_size_steps`, `C58_forward`, `C58_keys`, `C58_reverse`, `C59_end`, `C60_incr_decr`, `C60_plus_minus`, `C60_reverse_key`, `C60_reverse_random`, `C60_reverse_step`, `C60_scalar`, `C61_find_count_at`, `C62_copies_independent`, `C63_all_freed_partial`, `C63_no_double_free_partial`, `C63_one_owner_partial`, `C64_copyAssign_strong`, `C64_copy_strong`, `C65_assign_lost_bound_partial`, `C65_copied_elements_released_partial`, `C65_lost_bound_met`, `C65_lost_bound_partial`, `C65_only_unused_memory_lost_partial`, `C65_violated`, `C66_int_round_trip`, `C67_get_int_partial`, `C69_array_round_trip`, `C69_forward_list_round_trip`, `C69_list_round_trip`, `C69_set_of_array`, `C69_set_round_trip`, `C69_unordered_set_of_array`, `C69_unordered_set_round_trip`, `C69_vector_round_trip`, `C70_map_round_trip`, `C70_unordered_map_round_trip`, `C71_array_exactly_partial`, `C71_map_exactly_partial`, `C73_bind_round_trip_partial`, `C73_exactly_partial`, `C74_missing_field`, `C75_exactly_partial`, `C75_fields_partial`, `C76_adapter_partial`, `C76_cstring`, `C76_file`, `C76_stream`, `C77_adapter_ends_partial`, `C77_adapter_eof_partial`, `C77_violated`, `C78_exactly_partial`, `C79_exact_arithmetic`, `C80_error_bound_partial`, `C80_violated`, `C81_doubles`, `C81_exactly_partial`, `C81_trees_partial`, `C81_violated`, `C81_whole_doubles_partial`, `C82_fixed_partial`, `C82_general_partial`, `C82_scientific_partial`, `C82_trees_partial`, `C82_violated`, `C83_defined_partial`, `C83_undefined_exactly_partial`, `C83_violated`, `C84_object_exactly_partial`, `C86_makeObject`, `C90_stored_partial`, `C92_never_partial`, `C93_only_named_members`, `C94_members_written`, `C95_reads_are_safe`, `C96_clear`, `C96_commands_act_on_trees`, `C96_erase`, `C96_index`, `C96_key`, `C96_never_throw`, `C96_programs_act_on_trees`, `C96_push`, `C96_refused`, `C97_extract`, `C98_extract_as`, `C99_arrived_partial`, `C99_reported_partial`, `C99_string_reported_partial`.

