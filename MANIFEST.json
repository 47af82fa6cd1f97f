{
 "claims": [
  {
   "property": "C01",
   "status": "proved",
   "theorems": [
    "Configor.Props.C01_utf8_roundtrip"
   ],
   "note": ""
  },
  {
   "property": "C02",
   "status": "proved",
   "theorems": [
    "Configor.Props.C02_utf8_encode_rfc3629",
    "Configor.Props.C02_utf8_encode_out_of_range"
   ],
   "note": ""
  },
  {
   "property": "C03",
   "status": "proved",
   "theorems": [
    "Configor.Props.C03_utf8_decode_accepted",
    "Configor.Props.C03_utf8_truncated_rejected"
   ],
   "note": ""
  },
  {
   "property": "C04",
   "status": "partial",
   "theorems": [
    "Configor.Props.C04_violated",
    "Configor.Props.C04_utf8_wellformed_partial",
    "Configor.Props.C04_exactly_partial"
   ],
   "note": "Violated by the code: C04_violated gives overlong, stray and bad-continuation inputs. The partial theorems show these are exactly the laxities (C04_exactly_partial)."
  },
  {
   "property": "C05",
   "status": "proved",
   "theorems": [
    "Configor.Props.C05_utf16_roundtrip",
    "Configor.Props.C05_utf16_encode"
   ],
   "note": "A lead surrogate code point is excluded (it is not a scalar value and the decoder rejects it); for 16-bit types the unit 0xFFFF is eof and excluded by NoEof."
  },
  {
   "property": "C06",
   "status": "proved",
   "theorems": [
    "Configor.Props.C06_utf16_unpaired_rejected",
    "Configor.Props.C06_utf16_accepted"
   ],
   "note": ""
  },
  {
   "property": "C07",
   "status": "proved",
   "theorems": [
    "Configor.Props.C07_utf32_roundtrip",
    "Configor.Props.C07_utf32_out_of_range"
   ],
   "note": ""
  },
  {
   "property": "C08",
   "status": "proved",
   "theorems": [
    "Configor.Props.C08_surrogates_split_join",
    "Configor.Props.C08_surrogates_join_split"
   ],
   "note": ""
  },
  {
   "property": "C09",
   "status": "proved",
   "theorems": [
    "Configor.Props.C09_utf8_text_roundtrip",
    "Configor.Props.C09_utf16_text_roundtrip",
    "Configor.Props.C09_utf32_text_roundtrip",
    "Configor.Props.C09_utf8_injective",
    "Configor.Props.C09_utf16_injective",
    "Configor.Props.C09_utf32_injective",
    "Configor.Props.C09_default_encoding"
   ],
   "note": ""
  },
  {
   "property": "C10",
   "status": "proved",
   "theorems": [
    "Configor.Props.C10_parse_terminates"
   ],
   "note": ""
  },
  {
   "property": "C11",
   "status": "proved",
   "theorems": [
    "Configor.Props.C11_accepts_exactly_grammar",
    "Configor.Props.C11_decoded_once",
    "Configor.Props.C11_document_unique"
   ],
   "note": ""
  },
  {
   "property": "C12",
   "status": "proved",
   "theorems": [
    "Configor.Props.C12_standard_json_accepted"
   ],
   "note": ""
  },
  {
   "property": "C13",
   "status": "partial",
   "theorems": [
    "Configor.Props.C13_violated",
    "Configor.Props.C13_rfc_accepted_partial",
    "Configor.Props.C13_exactly_partial"
   ],
   "note": "Violated by the code: C13_violated (1e0, 0e1). Proved: a text of RFC 8259 is accepted exactly if none of its numbers has one of these two exponent forms or an integer part beyond 2^63-1 (C13_exactly_partial)"
  },
  {
   "property": "C14",
   "status": "partial",
   "theorems": [
    "Configor.Props.C14_violated",
    "Configor.Props.C14_decimal_literals_partial"
   ],
   "note": "Violated by the code: C14_violated (1e+x; a character whose low byte is a digit). The partial theorem excludes exactly these two causes."
  },
  {
   "property": "C15",
   "status": "partial",
   "theorems": [
    "Configor.Props.C15_spelling_partial",
    "Configor.Props.C15_exactly_partial",
    "Configor.Props.C15_violated",
    "Configor.Props.C15_exact_keywords_partial"
   ],
   "note": "Violated by the code for characters wider than the source type: C15_violated. Proved: exactly which words are read as keywords (C15_exactly_partial), for words anywhere in a text which they can be (C15_spelling_partial), and C15 for texts whose code points fit the type"
  },
  {
   "property": "C16",
   "status": "proved",
   "theorems": [
    "Configor.Props.C16_spacing_irrelevant"
   ],
   "note": "Tokens are taken lexically; words ending in a sign, which the number scanner joins with what follows, are not tokens."
  },
  {
   "property": "C17",
   "status": "partial",
   "theorems": [
    "Configor.Props.C17_stars_partial",
    "Configor.Props.C17_violated",
    "Configor.Props.C17_comment_end_partial"
   ],
   "note": "Violated by the code: C17_violated (a star before the end). Proved where every comment does end: at its first */ with an even number of further stars before it, and otherwise as if the comment began anew there (C17_stars_partial)."
  },
  {
   "property": "C18",
   "status": "proved",
   "theorems": [
    "Configor.Props.C18_no_trailing_garbage"
   ],
   "note": ""
  },
  {
   "property": "C19",
   "status": "proved",
   "theorems": [
    "Configor.Props.C19_first_key_wins",
    "Configor.Props.C19_object_unique"
   ],
   "note": ""
  },
  {
   "property": "C20",
   "status": "proved",
   "theorems": [
    "Configor.Props.C20_integer_value",
    "Configor.Props.C20_integers_exact"
   ],
   "note": ""
  },
  {
   "property": "C21",
   "status": "proved",
   "theorems": [
    "Configor.Props.C21_integer_overflow"
   ],
   "note": ""
  },
  {
   "property": "C22",
   "status": "proved",
   "theorems": [
    "Configor.Props.C22_exceptions_are_deserialization"
   ],
   "note": ""
  },
  {
   "property": "C23",
   "status": "partial",
   "theorems": [
    "Configor.Props.C23_violated",
    "Configor.Props.C23_no_abort_partial"
   ],
   "note": "Violated by debug builds: C23_violated gives an input that aborts. The partial theorem shows that release builds never abort and debug builds only on a sign without a digit."
  },
  {
   "property": "C24",
   "status": "partial",
   "theorems": [
    "Configor.Props.C24_exactly_partial",
    "Configor.Props.C24_violated",
    "Configor.Props.C24_handler_partial"
   ],
   "note": "Violated by the code for errors on the first character (read outside the try block): C24_violated. The partial theorems cover all other errors, and say exactly which errors a handler can swallow (C24_exactly_partial)."
  },
  {
   "property": "C25",
   "status": "proved",
   "theorems": [
    "Configor.Props.C25_content_after_failure",
    "Configor.Props.C25_content_with_handler",
    "Configor.Props.C25_content_unique"
   ],
   "note": ""
  },
  {
   "property": "C26",
   "status": "proved",
   "theorems": [
    "Configor.Props.C26_string_literals",
    "Configor.Props.C26_strings_from_literals"
   ],
   "note": ""
  },
  {
   "property": "C27",
   "status": "proved",
   "theorems": [
    "Configor.Props.C27_bad_strings_rejected",
    "Configor.Props.C27_bad_keys_rejected"
   ],
   "note": ""
  },
  {
   "property": "C28",
   "status": "partial",
   "theorems": [
    "Configor.Props.C28_exactly_partial",
    "Configor.Props.C28_violated",
    "Configor.Props.C28_valid_unicode_partial"
   ],
   "note": "Violated by the code: C28_violated (a lone trail surrogate escape). Proved: for texts of Unicode scalar values these escapes are exactly the cause (C28_exactly_partial)"
  },
  {
   "property": "C29",
   "status": "proved",
   "theorems": [
    "Configor.Props.C29_transcoding"
   ],
   "note": ""
  },
  {
   "property": "C30",
   "status": "proved",
   "theorems": [
    "Configor.Props.C30_nested_dump",
    "Configor.Props.C30_nested_parse"
   ],
   "note": ""
  },
  {
   "property": "C31",
   "status": "proved",
   "theorems": [
    "Configor.Props.C31_dump_parse"
   ],
   "note": "for text in UTF-8, UTF-16 or UTF-32 on either side; U+FFFF excluded on 16 bit types, see C113"
  },
  {
   "property": "C32",
   "status": "partial",
   "theorems": [
    "Configor.Props.C32_violated",
    "Configor.Props.C32_control_characters_partial",
    "Configor.Props.C32_exactly_partial"
   ],
   "note": "false of the code (C32_violated); proved that a string is read back exactly if its control characters are \\t \\r \\n \\b \\f (C32_exactly_partial)"
  },
  {
   "property": "C33",
   "status": "partial",
   "theorems": [
    "Configor.Props.C33_violated",
    "Configor.Props.C33_unicode_escaping_partial",
    "Configor.Props.C33_exactly_partial"
   ],
   "note": "false of the code (C33_violated); proved that a string is read back exactly if it has no characters from U+007F to U+0FFF (and no control characters without a short escape), and that otherwise the text is refused or read as fewer characters (C33_exactly_partial)"
  },
  {
   "property": "C34",
   "status": "proved",
   "theorems": [
    "Configor.Props.C34_ascii_output"
   ],
   "note": "assumes an ASCII indent character and ASCII digits from the float formatting"
  },
  {
   "property": "C35",
   "status": "proved",
   "theorems": [
    "Configor.Props.C35_only_whitespace",
    "Configor.Props.C35_same_value"
   ],
   "note": "the second half for values that can be read back"
  },
  {
   "property": "C36",
   "status": "proved",
   "theorems": [
    "Configor.Props.C36_dump_text",
    "Configor.Props.C36_members_in_order"
   ],
   "note": ""
  },
  {
   "property": "C37",
   "status": "proved",
   "theorems": [
    "Configor.Props.C37_fails_exactly",
    "Configor.Props.C37_malformed_strings"
   ],
   "note": ""
  },
  {
   "property": "C38",
   "status": "proved",
   "theorems": [
    "Configor.Props.C38_injective"
   ],
   "note": ""
  },
  {
   "property": "C39",
   "status": "proved",
   "theorems": [
    "Configor.Props.C39_dump_appends"
   ],
   "note": ""
  },
  {
   "property": "C40",
   "status": "proved",
   "theorems": [
    "Configor.Props.C40_indent_in_bounds",
    "Configor.Props.C40_dump_ends"
   ],
   "note": ""
  },
  {
   "property": "C41",
   "status": "proved",
   "theorems": [
    "Configor.Props.C41_memory_sorted",
    "Configor.Props.C41_changes_keep_sorted",
    "Configor.Props.C41_parse_sorted",
    "Configor.Props.C41_makeObject_sorted",
    "Configor.Props.C41_iteration_increasing"
   ],
   "note": ""
  },
  {
   "property": "C42",
   "status": "proved",
   "theorems": [
    "Configor.Props.C42_object_is_finite_map",
    "Configor.Props.C42_empty",
    "Configor.Props.C42_erase_count"
   ],
   "note": ""
  },
  {
   "property": "C43",
   "status": "partial",
   "theorems": [
    "Configor.Props.C43_exactly_partial",
    "Configor.Props.C43_violated",
    "Configor.Props.C43_element_assignment_partial",
    "Configor.Props.C43_too_large"
   ],
   "note": "false of the code for index 2^64-1 on an empty array (C43_violated); proved for every index a vector can have, larger ones are reported (C43_too_large); this is the only undefined case (C43_exactly_partial)"
  },
  {
   "property": "C44",
   "status": "proved",
   "theorems": [
    "Configor.Props.C44_array_is_list",
    "Configor.Props.C44_null_is_empty",
    "Configor.Props.C44_makeArray"
   ],
   "note": "indices to erase in range (C48), indices to assign below the largest size of a vector (C43)"
  },
  {
   "property": "C45",
   "status": "proved",
   "theorems": [
    "Configor.Props.C45_wrong_type",
    "Configor.Props.C45_wrong_type_on_path"
   ],
   "note": ""
  },
  {
   "property": "C46",
   "status": "proved",
   "theorems": [
    "Configor.Props.C46_at_index",
    "Configor.Props.C46_at_key",
    "Configor.Props.C46_no_insertion"
   ],
   "note": ""
  },
  {
   "property": "C47",
   "status": "proved",
   "theorems": [
    "Configor.Props.C47_path_assignment"
   ],
   "note": "path indices below the largest size of a vector"
  },
  {
   "property": "C48",
   "status": "partial",
   "theorems": [
    "Configor.Props.C48_exactly_partial",
    "Configor.Props.C48_violated",
    "Configor.Props.C48_erase_index_partial"
   ],
   "note": "false of the code (C48_violated: undefined behaviour); proved for indices in range, and that all others are undefined (C48_exactly_partial)"
  },
  {
   "property": "C49",
   "status": "proved",
   "theorems": [
    "Configor.Props.C49_eq_is_identity",
    "Configor.Props.C49_equivalence"
   ],
   "note": ""
  },
  {
   "property": "C50",
   "status": "partial",
   "theorems": [
    "Configor.Props.C50_cause_partial",
    "Configor.Props.C50_exactly_partial",
    "Configor.Props.C50_violated",
    "Configor.Props.C50_doubles_partial",
    "Configor.Props.C50_symmetric_partial"
   ],
   "note": "false of the code (C50_violated: 2^53 + 1, a double, 2^53); proved for integers within 2^53, and that transitivity fails only because of different integers that are the same double, and for any two such integers (C50_cause_partial, C50_exactly_partial)"
  },
  {
   "property": "C51",
   "status": "proved",
   "theorems": [
    "Configor.Props.C51_doubles",
    "Configor.Props.C51_asymmetric"
   ],
   "note": ""
  },
  {
   "property": "C52",
   "status": "partial",
   "theorems": [
    "Configor.Props.C52_doubles_partial",
    "Configor.Props.C52_violated_nan",
    "Configor.Props.C52_numbers_partial",
    "Configor.Props.C52_violated_large",
    "Configor.Props.C52_transitive_partial",
    "Configor.Props.C52_exactly_partial",
    "Configor.Props.C52_violated",
    "Configor.Props.C52_violated_incomparable",
    "Configor.Props.C52_strict_weak_partial"
   ],
   "note": "false of the code (C52_violated: a cycle); proved for values of one kind, and for numbers of both types (integers up to 2^53, no NaN) in containers nested alike (C52_numbers_partial); false of larger integers (C52_violated_large), where < of single numbers is still transitive (C52_transitive_partial) and incomparability fails exactly for different integers that are the same double (C52_exactly_partial)"
  },
  {
   "property": "C53",
   "status": "proved",
   "theorems": [
    "Configor.Props.C53_trichotomy"
   ],
   "note": ""
  },
  {
   "property": "C54",
   "status": "proved",
   "theorems": [
    "Configor.Props.C54_move",
    "Configor.Props.C54_moveAssign",
    "Configor.Props.C54_swap",
    "Configor.Props.C54_self"
   ],
   "note": "for values neither of which is a part of the other; a value moved into, or swapped with, a part of itself is lost, see C63_violated"
  },
  {
   "property": "C55",
   "status": "proved",
   "theorems": [
    "Configor.Props.C55_copyAssign_own_part",
    "Configor.Props.C55_moveAssign_own_part"
   ],
   "note": "copy assignment unless an allocation fails, when nothing changes"
  },
  {
   "property": "C56",
   "status": "proved",
   "theorems": [
    "Configor.Props.C56_clear"
   ],
   "note": ""
  },
  {
   "property": "C57",
   "status": "proved",
   "theorems": [
    "Configor.Props.C57_empty_iff",
    "Configor.Props.C57_size_steps"
   ],
   "note": ""
  },
  {
   "property": "C58",
   "status": "proved",
   "theorems": [
    "Configor.Props.C58_forward",
    "Configor.Props.C58_reverse",
    "Configor.Props.C58_keys"
   ],
   "note": ""
  },
  {
   "property": "C59",
   "status": "proved",
   "theorems": [
    "Configor.Props.C59_end",
    "Configor.Props.C59_key_of_non_object"
   ],
   "note": ""
  },
  {
   "property": "C60",
   "status": "proved",
   "theorems": [
    "Configor.Props.C60_incr_decr",
    "Configor.Props.C60_plus_minus",
    "Configor.Props.C60_difference",
    "Configor.Props.C60_comparisons",
    "Configor.Props.C60_reverse_step",
    "Configor.Props.C60_reverse_key",
    "Configor.Props.C60_reverse_random",
    "Configor.Props.C60_object_reported",
    "Configor.Props.C60_scalar"
   ],
   "note": ""
  },
  {
   "property": "C61",
   "status": "proved",
   "theorems": [
    "Configor.Props.C61_find_count_at",
    "Configor.Props.C61_non_object"
   ],
   "note": ""
  },
  {
   "property": "C62",
   "status": "proved",
   "theorems": [
    "Configor.Props.C62_copies_independent"
   ],
   "note": ""
  },
  {
   "property": "C63",
   "status": "partial",
   "theorems": [
    "Configor.Props.C63_violated",
    "Configor.Props.C63_violated_by_swap",
    "Configor.Props.C63_violated_by_push",
    "Configor.Props.C63_one_owner_partial",
    "Configor.Props.C63_no_double_free_partial",
    "Configor.Props.C63_all_freed_partial"
   ],
   "note": "false of the code: moving a value into a part of itself, or swapping the two, leaks it (C63_violated, C63_violated_by_swap, C63_violated_by_push); proved for all sequences without such moves and swaps"
  },
  {
   "property": "C64",
   "status": "proved",
   "theorems": [
    "Configor.Props.C64_copyAssign_strong",
    "Configor.Props.C64_copy_strong"
   ],
   "note": "also for the copy constructor"
  },
  {
   "property": "C65",
   "status": "partial",
   "theorems": [
    "Configor.Props.C65_violated",
    "Configor.Props.C65_only_unused_memory_lost_partial",
    "Configor.Props.C65_copied_elements_released_partial",
    "Configor.Props.C65_lost_bound_partial",
    "Configor.Props.C65_assign_lost_bound_partial",
    "Configor.Props.C65_lost_bound_met"
   ],
   "note": "false of the code (C65_violated); proved that only memory in which nothing was constructed is lost, and only if an allocation fails; a failed copy or copy assignment of a variable or a part of it loses at most one block per level of nesting and one more, and for every nesting there is a case that loses that many"
  },
  {
   "property": "C66",
   "status": "proved",
   "theorems": [
    "Configor.Props.C66_int_round_trip",
    "Configor.Props.C66_scalar_round_trip",
    "Configor.Props.C66_float_round_trip"
   ],
   "note": "float types: those for which the cast to float_type and back is the identity"
  },
  {
   "property": "C67",
   "status": "partial",
   "theorems": [
    "Configor.Props.C67_violated",
    "Configor.Props.C67_get_int_partial"
   ],
   "note": "false of the code (C67_violated); the partial theorem says exactly for which numbers it holds and what happens to the others"
  },
  {
   "property": "C68",
   "status": "proved",
   "theorems": [
    "Configor.Props.C68_get_scalar",
    "Configor.Props.C68_get_container",
    "Configor.Props.C68_get_ref"
   ],
   "note": ""
  },
  {
   "property": "C69",
   "status": "proved",
   "theorems": [
    "Configor.Props.C69_vector_round_trip",
    "Configor.Props.C69_list_round_trip",
    "Configor.Props.C69_forward_list_round_trip",
    "Configor.Props.C69_array_round_trip",
    "Configor.Props.C69_set_round_trip",
    "Configor.Props.C69_unordered_set_round_trip",
    "Configor.Props.C69_set_of_array",
    "Configor.Props.C69_unordered_set_of_array"
   ],
   "note": "lengths up to the largest size of a vector; unordered sets up to order"
  },
  {
   "property": "C70",
   "status": "proved",
   "theorems": [
    "Configor.Props.C70_map_round_trip",
    "Configor.Props.C70_unordered_map_round_trip"
   ],
   "note": "unordered maps up to order"
  },
  {
   "property": "C71",
   "status": "partial",
   "theorems": [
    "Configor.Props.C71_violated",
    "Configor.Props.C71_violated_array",
    "Configor.Props.C71_replaces_partial",
    "Configor.Props.C71_replaces_array_partial",
    "Configor.Props.C71_replaces_map_partial",
    "Configor.Props.C71_array_exactly_partial",
    "Configor.Props.C71_map_exactly_partial"
   ],
   "note": "false of the code for maps and fixed-size arrays (C71_violated, C71_violated_array); proved for everything else, and exactly what is left in fixed-size arrays and std::map"
  },
  {
   "property": "C72",
   "status": "partial",
   "theorems": [
    "Configor.Props.C72_violated",
    "Configor.Props.C72_violated_list",
    "Configor.Props.C72_keeps_partial",
    "Configor.Props.C72_array_exactly_partial",
    "Configor.Props.C72_vector_exactly_partial",
    "Configor.Props.C72_list_exactly_partial",
    "Configor.Props.C72_set_exactly_partial",
    "Configor.Props.C72_forward_exactly_partial"
   ],
   "note": "false of the code for sequences and sets (C72_violated, C72_violated_list); proved for scalars, values and pointers, and exactly what is left in vectors, deques, fixed-size arrays, lists, forward lists and sets"
  },
  {
   "property": "C73",
   "status": "partial",
   "theorems": [
    "Configor.Props.C73_violated",
    "Configor.Props.C73_bind_round_trip_partial",
    "Configor.Props.C73_exactly_partial"
   ],
   "note": "false of the code for optional fields with initializers (C73_violated); proved otherwise, and that a struct survives exactly if each omitted field is equal to its initializer (C73_exactly_partial)"
  },
  {
   "property": "C74",
   "status": "proved",
   "theorems": [
    "Configor.Props.C74_missing_field",
    "Configor.Props.C74_not_an_object"
   ],
   "note": "for the struct read with get<T>(); see C92 for structs in fields"
  },
  {
   "property": "C75",
   "status": "partial",
   "theorems": [
    "Configor.Props.C75_violated",
    "Configor.Props.C75_fields_partial",
    "Configor.Props.C75_exactly_partial"
   ],
   "note": "false of the code (C75_violated); the partial theorems say what the fields are, and that exactly the objects with all required members are read, whatever the members"
  },
  {
   "property": "C76",
   "status": "partial",
   "theorems": [
    "Configor.Props.C76_stream",
    "Configor.Props.C76_file",
    "Configor.Props.C76_cstring",
    "Configor.Props.C76_adapter_partial",
    "Configor.Props.C76_violated"
   ],
   "note": "std::string, C string, FILE* and istream: proved. Adapters: proved for texts whose last character is complete and that do not end inside a comment; false otherwise (C76_violated, C77_violated)"
  },
  {
   "property": "C77",
   "status": "partial",
   "theorems": [
    "Configor.Props.C77_adapter_ends_partial",
    "Configor.Props.C77_adapter_eof_partial",
    "Configor.Props.C77_violated"
   ],
   "note": "false of the code (C77_violated: a value followed by an open comment); proved for texts that do not end inside a comment, and for adapters that signal the end by eof"
  },
  {
   "property": "C78",
   "status": "partial",
   "theorems": [
    "Configor.Props.C78_exactly_partial",
    "Configor.Props.C78_read_partial",
    "Configor.Props.C78_violated"
   ],
   "note": "false of the code (C78_violated); proved without a peek before, and that after a peek it holds only if the next n + 1 characters are NULs or behind the end (C78_exactly_partial)"
  },
  {
   "property": "C79",
   "status": "proved",
   "theorems": [
    "Configor.Props.C79_exact_arithmetic"
   ],
   "note": ""
  },
  {
   "property": "C80",
   "status": "partial",
   "theorems": [
    "Configor.Props.C80_error_bound_partial",
    "Configor.Props.C80_each_step_nearest_partial",
    "Configor.Props.C80_violated"
   ],
   "note": "false of the code (C80_violated: 0.3); proved instead: the double read is within (2n+2e+3)/2^53 of the literal, for n fraction digits and exponent e up to 300, and for numbers from 10^-300 to 10^300"
  },
  {
   "property": "C81",
   "status": "partial",
   "theorems": [
    "Configor.Props.C81_violated",
    "Configor.Props.C81_whole_doubles_partial",
    "Configor.Props.C81_doubles",
    "Configor.Props.C81_trees_partial",
    "Configor.Props.C81_exactly_partial"
   ],
   "note": "false of the code for -0.0 (C81_violated); proved for every other whole number below 2^63, also inside trees; a whole double below 2^63 is read back exactly if it is not -0.0, and -0.0 as 0.0 (C81_exactly_partial)"
  },
  {
   "property": "C82",
   "status": "partial",
   "theorems": [
    "Configor.Props.C82_fixed_partial",
    "Configor.Props.C82_scientific_partial",
    "Configor.Props.C82_general_partial",
    "Configor.Props.C82_violated",
    "Configor.Props.C82_trees_partial"
   ],
   "note": "false of the code (C82_violated: 100000.5 becomes an integer, nan is rejected); proved for each style of the stream: how close the decimal written is to the double and how close what is read back is to the decimal, for doubles with a fraction and, except with std::fixed, of at least 10^-299; the default style keeps a float exactly if its text has a point or an exponent; in trees, all else is kept and each float is off by at most one unit of its last digit (C82_trees_partial)"
  },
  {
   "property": "C83",
   "status": "partial",
   "theorems": [
    "Configor.Props.C83_violated",
    "Configor.Props.C83_defined_partial",
    "Configor.Props.C83_undefined_exactly_partial"
   ],
   "note": "false of the code (C83_violated: 2^63, infinity); proved exactly for which doubles it holds"
  },
  {
   "property": "C84",
   "status": "partial",
   "theorems": [
    "Configor.Props.C84_array_exactly_partial",
    "Configor.Props.C84_object_exactly_partial",
    "Configor.Props.C84_violated",
    "Configor.Props.C84_only_that_element_partial"
   ],
   "note": "false of the code (C84_violated); the partial theorems say exactly what can be changed: the element or member asked for, if it exists"
  },
  {
   "property": "C85",
   "status": "proved",
   "theorems": [
    "Configor.Props.C85_erase_array",
    "Configor.Props.C85_erase_object",
    "Configor.Props.C85_erase_range"
   ],
   "note": ""
  },
  {
   "property": "C86",
   "status": "proved",
   "theorems": [
    "Configor.Props.C86_makeObject"
   ],
   "note": ""
  },
  {
   "property": "C87",
   "status": "partial",
   "theorems": [
    "Configor.Props.C87_violated",
    "Configor.Props.C87_sequence_of_other_partial"
   ],
   "note": "false of the code for the empty object (C87_violated); proved for all others"
  },
  {
   "property": "C88",
   "status": "partial",
   "theorems": [
    "Configor.Props.C88_violated",
    "Configor.Props.C88_map_of_other_partial"
   ],
   "note": "false of the code for the empty array (C88_violated); proved for all others"
  },
  {
   "property": "C89",
   "status": "partial",
   "theorems": [
    "Configor.Props.C89_violated",
    "Configor.Props.C89_array_length_partial",
    "Configor.Props.C89_exactly_partial"
   ],
   "note": "false of the code (C89_violated); proved for arrays of the right length that they are read in full, and exactly what is read from others (C89_exactly_partial)"
  },
  {
   "property": "C90",
   "status": "partial",
   "theorems": [
    "Configor.Props.C90_violated",
    "Configor.Props.C90_stored_partial"
   ],
   "note": "false of the code for unsigned numbers from 2^63 (C90_violated); proved for all others"
  },
  {
   "property": "C91",
   "status": "partial",
   "theorems": [
    "Configor.Props.C91_violated",
    "Configor.Props.C91_ptr_round_trip_partial",
    "Configor.Props.C91_exactly_partial"
   ],
   "note": "false of the code for pointees that convert to null (C91_violated), and exactly for those (C91_exactly_partial); proved for all others"
  },
  {
   "property": "C92",
   "status": "partial",
   "theorems": [
    "Configor.Props.C92_violated",
    "Configor.Props.C92_in_vector_partial",
    "Configor.Props.C92_never_partial"
   ],
   "note": "false of the code (C92_violated); proved for structs in vectors, and that in fields it is never reported (C92_never_partial)"
  },
  {
   "property": "C93",
   "status": "proved",
   "theorems": [
    "Configor.Props.C93_only_named_members"
   ],
   "note": ""
  },
  {
   "property": "C94",
   "status": "proved",
   "theorems": [
    "Configor.Props.C94_members_written"
   ],
   "note": "null instead of an empty object if all fields are left out"
  },
  {
   "property": "C95",
   "status": "proved",
   "theorems": [
    "Configor.Props.C95_reads_are_safe",
    "Configor.Props.C95_float_safe"
   ],
   "note": ""
  },
  {
   "property": "C96",
   "status": "proved",
   "theorems": [
    "Configor.Props.C96_commands_act_on_trees",
    "Configor.Props.C96_programs_act_on_trees",
    "Configor.Props.C96_never_throw",
    "Configor.Props.C96_refused",
    "Configor.Props.C96_clear",
    "Configor.Props.C96_erase",
    "Configor.Props.C96_push",
    "Configor.Props.C96_key",
    "Configor.Props.C96_index"
   ],
   "note": "moving a value into, or swapping it with, a part of itself is left out"
  },
  {
   "property": "C97",
   "status": "proved",
   "theorems": [
    "Configor.Props.C97_extract",
    "Configor.Props.C97_broken"
   ],
   "note": ""
  },
  {
   "property": "C98",
   "status": "proved",
   "theorems": [
    "Configor.Props.C98_extract_as"
   ],
   "note": ""
  },
  {
   "property": "C99",
   "status": "partial",
   "theorems": [
    "Configor.Props.C99_any_buffer_violated",
    "Configor.Props.C99_string_any_buffer_partial",
    "Configor.Props.C99_violated",
    "Configor.Props.C99_string_reported_partial",
    "Configor.Props.C99_arrived_partial",
    "Configor.Props.C99_reported_partial"
   ],
   "note": "false of the code (C99_violated, and C99_any_buffer_violated for every buffer); proved for all values and layouts: a loss that concerns a character of a string or key is reported, so a call that returns has lost only what follows the last of them (C99_arrived_partial, C99_reported_partial); for a string, short escapes and the closing quote"
  },
  {
   "property": "C100",
   "status": "proved",
   "theorems": [
    "Configor.Props.C100_touches_only_named",
    "Configor.Props.C100_threads"
   ],
   "note": "a schedule interleaves whole calls"
  },
  {
   "property": "C101",
   "status": "partial",
   "theorems": [
    "Configor.Props.C101_exactly_partial",
    "Configor.Props.C101_stream_exactly_partial",
    "Configor.Props.C101_indent_option_partial",
    "Configor.Props.C101_stream_width_partial",
    "Configor.Props.C101_violated_step",
    "Configor.Props.C101_violated_deep"
   ],
   "note": "false of the code for an indent of 256 or more and for more than 65536 levels (C101_violated_step, C101_violated_deep); proved below that, and, for indents that are no multiple of 256, exactly for which values the text is the one expected and what it is otherwise"
  },
  {
   "property": "C102",
   "status": "proved",
   "theorems": [
    "Configor.Props.C102_options"
   ],
   "note": "with_precision and with_error_handler are not among the modelled options"
  },
  {
   "property": "C103",
   "status": "proved",
   "theorems": [
    "Configor.Props.C103_insert_extract"
   ],
   "note": ""
  },
  {
   "property": "C104",
   "status": "proved",
   "theorems": [
    "Configor.Props.C104_object_text",
    "Configor.Props.C104_object_stream",
    "Configor.Props.C104_insert_failure"
   ],
   "note": "the condition on the object (Portable) excludes the integers -2^63 and 2^63 and what C73 and C91 show not to survive; floats and unordered containers are not among the types"
  },
  {
   "property": "C105",
   "status": "proved",
   "theorems": [
    "Configor.Props.C105_used_up",
    "Configor.Props.C105_used_up_as",
    "Configor.Props.C105_no_second"
   ],
   "note": ""
  },
  {
   "property": "C106",
   "status": "proved",
   "theorems": [
    "Configor.Props.C106_parse_in_memory",
    "Configor.Props.C106_parse_new"
   ],
   "note": "the allocations of one growing string count as one; memory for error messages is not modelled"
  },
  {
   "property": "C107",
   "status": "partial",
   "theorems": [
    "Configor.Props.C107_violated",
    "Configor.Props.C107_no_wrong_value_partial"
   ],
   "note": "false of the code (C107_violated: the exception is swallowed by the output stream, and short escapes are written without a check); proved for texts without a backslash"
  },
  {
   "property": "C108",
   "status": "proved",
   "theorems": [
    "Configor.Props.C108_no_value",
    "Configor.Props.C108_two_values"
   ],
   "note": ""
  },
  {
   "property": "C109",
   "status": "partial",
   "theorems": [
    "Configor.Props.C109_exactly_partial",
    "Configor.Props.C109_range_exactly_partial",
    "Configor.Props.C109_violated",
    "Configor.Props.C109_erase_scalar_partial"
   ],
   "note": "false of the code (C109_violated: iterators of another value, end(), or a reversed range are undefined behaviour); proved for values that are neither arrays nor objects; for arrays and objects exactly when erase is undefined, and that it never throws (C109_exactly_partial, C109_range_exactly_partial)"
  },
  {
   "property": "C110",
   "status": "partial",
   "theorems": [
    "Configor.Props.C110_violated",
    "Configor.Props.C110_violated_zero",
    "Configor.Props.C110_infinite",
    "Configor.Props.C110_finite_partial"
   ],
   "note": "false of the code (C110_violated: 1e309 is read as infinity, whose dump is undefined); proved for literals up to 10^300"
  },
  {
   "property": "C111",
   "status": "partial",
   "theorems": [
    "Configor.Props.C111_file_violated",
    "Configor.Props.C111_throwing_partial",
    "Configor.Props.C111_adapter_partial"
   ],
   "note": "false of the code for std::FILE* (C111_file_violated: fgetc's EOF is never checked with ferror); proved for stream buffers and adapters that throw"
  },
  {
   "property": "C112",
   "status": "partial",
   "theorems": [
    "Configor.Props.C112_narrower_partial",
    "Configor.Props.C112_encodings_partial",
    "Configor.Props.C112_violated"
   ],
   "note": "false of the code (C112_violated: is_digit and scan_literal compare after truncation to the character type); proved from wider to narrower encodings, and for texts without such characters"
  },
  {
   "property": "C113",
   "status": "partial",
   "theorems": [
    "Configor.Props.C113_dump_partial",
    "Configor.Props.C113_violated",
    "Configor.Props.C113_only_noncharacter_partial"
   ],
   "note": "false of the code (C113_violated: on libstdc++ char16_t streams turn U+FFFF into U+FFFD); proved that this is the only character lost in parsing, and that dumping writes the value with U+FFFD in its place (C113_dump_partial)"
  },
  {
   "property": "C114",
   "status": "proved",
   "theorems": [
    "Configor.Props.C114_prefix",
    "Configor.Props.C114_exact",
    "Configor.Props.C114_adapter_exact",
    "Configor.Props.C114_room_exact",
    "Configor.Props.C114_complete",
    "Configor.Props.C114_end",
    "Configor.Props.C114_adapter"
   ],
   "note": ""
  },
  {
   "property": "C115",
   "status": "partial",
   "theorems": [
    "Configor.Props.C115_comments",
    "Configor.Props.C115_nesting",
    "Configor.Props.C115_violated",
    "Configor.Props.C115_bound_partial",
    "Configor.Props.C115_accepted_partial",
    "Configor.Props.C115_dumped_partial"
   ],
   "note": "false of the code (C115_violated: skip_comments and skip_spaces call each other for every comment, so texts of the number 1 need any number of active calls); proved that the calls are bounded by the slashes and opening brackets of the text. Compilers may turn these calls into jumps; the language does not promise it"
  },
  {
   "property": "C116",
   "status": "proved",
   "theorems": [
    "Configor.Props.C116_construct",
    "Configor.Props.C116_assign",
    "Configor.Props.C116_any_order",
    "Configor.Props.C116_sequences",
    "Configor.Props.C116_maps",
    "Configor.Props.C116_pointers",
    "Configor.Props.C116_bound"
   ],
   "note": "the objects are given by the shape of their conversion; memory of the C++ objects themselves is not modelled"
  },
  {
   "property": "C117",
   "status": "partial",
   "theorems": [
    "Configor.Props.C117_violated",
    "Configor.Props.C117_violated_by_memory",
    "Configor.Props.C117_lost_exactly_partial",
    "Configor.Props.C117_lost_by_assignment_partial"
   ],
   "note": "false of the code (C117_violated: the converting constructor does not release what to_value has built when it throws; C117_violated_by_memory); proved exactly how many blocks are lost when a part throws, none if the call ends normally"
  },
  {
   "property": "C118",
   "status": "partial",
   "theorems": [
    "Configor.Props.C118_violated",
    "Configor.Props.C118_alive_partial",
    "Configor.Props.C118_pointers_partial",
    "Configor.Props.C118_exactly_partial"
   ],
   "note": "false of the code (C118_violated: reset destroys the old content before it allocates the new); proved when no allocation fails, and for pointers; c is unusable exactly if one of the first two allocations fails (C118_exactly_partial)"
  },
  {
   "property": "C119",
   "status": "proved",
   "theorems": [
    "Configor.Props.C119_prefix",
    "Configor.Props.C119_dump",
    "Configor.Props.C119_full_buffer"
   ],
   "note": ""
  },
  {
   "property": "C120",
   "status": "proved",
   "theorems": [
    "Configor.Props.C120_dump_handler"
   ],
   "note": ""
  },
  {
   "property": "C121",
   "status": "partial",
   "theorems": [
    "Configor.Props.C121_violated",
    "Configor.Props.C121_stable_partial"
   ],
   "note": "false of the code (C121_violated: 1000000.5 is saved as 1e+06, and that as 1000000.0); proved for the default style with 1 to 11 digits, for values whose floats are whole numbers in the range of int64_t or numbers with a fraction that are written without a positive exponent. Values without floats: C31"
  },
  {
   "property": "C122",
   "status": "proved",
   "theorems": [
    "Configor.Props.C122_bind",
    "Configor.Props.C122_bind_many"
   ],
   "note": "the preprocessor is modelled as in the C++ standard (with the usual hide sets); that the functions compile and do what they say is C++ and is modelled in Model/Convert"
  },
  {
   "property": "C123",
   "status": "proved",
   "theorems": [
    "Configor.Props.C123_same_end",
    "Configor.Props.C123_std_map",
    "Configor.Props.C123_members_in_text_order",
    "Configor.Props.C123_tree_unique",
    "Configor.Props.C123_insertion_order",
    "Configor.Props.C123_load_after_save",
    "Configor.Props.C123_unordered_load_after_save"
   ],
   "note": "an object type is modelled by its emplace and its iteration; std::map, fifo_map and std::unordered_map are instances"
  },
  {
   "property": "C124",
   "status": "partial",
   "theorems": [
    "Configor.Props.C124_same_end",
    "Configor.Props.C124_message_partial",
    "Configor.Props.C124_malformed_code",
    "Configor.Props.C124_record",
    "Configor.Props.C124_violated",
    "Configor.Props.C124_violated_nul"
   ],
   "note": "false of the code (C124_violated: if a text goes on behind its value, the message names the end of the input, whatever is there; C124_violated_nul: a keyword that is cut off by the end of the text puts a NUL into the message, and what() ends there); proved: every other message is the right one, and the recording handler gets what() of the exception, except for a malformed first character, which is thrown"
  },
  {
   "property": "C125",
   "status": "partial",
   "theorems": [
    "Configor.Props.C125_copy_members",
    "Configor.Props.C125_move_members",
    "Configor.Props.C125_copy_elements_partial",
    "Configor.Props.C125_move_elements_partial",
    "Configor.Props.C125_copy_existing",
    "Configor.Props.C125_violated",
    "Configor.Props.C125_mixed",
    "Configor.Props.C125_push_part",
    "Configor.Props.C125_push_self",
    "Configor.Props.C125_wrong_kind",
    "Configor.Props.C125_push_self_violated",
    "Configor.Props.C125_whole_partial"
   ],
   "note": "false of the code: C125_violated (for every non-empty array there is an index i with which c[i] = c[0] uses a reference into storage that was given up, if the right side is evaluated first, and c[0] = c[i] if the left side is), C125_push_self_violated (null.push_back(itself) gives [[]]), C125_whole_partial (c[k] = c with a new k copies the new null member too). Proved: members of objects in every case, elements exactly when the vector does not grow in the second access, push_back of an element always"
  },
  {
   "property": "C126",
   "status": "partial",
   "theorems": [
    "Configor.Props.C126_same_end",
    "Configor.Props.C126_message_partial",
    "Configor.Props.C126_only_partial",
    "Configor.Props.C126_record",
    "Configor.Props.C126_violated"
   ],
   "note": "false of the code for streams: C126_violated (if the stream cannot take the output, the message blames the encoding of a character although every string can be written). Proved for dumps to strings: which string and which character the message is about and what it says, for all values and encodings, and what a recording handler gets."
  },
  {
   "property": "C127",
   "status": "proved",
   "theorems": [
    "Configor.Props.C127_use",
    "Configor.Props.C127_find",
    "Configor.Props.C127_content",
    "Configor.Props.C127_member_stays",
    "Configor.Props.C127_end_stays",
    "Configor.Props.C127_member_removed",
    "Configor.Props.C127_array_step",
    "Configor.Props.C127_element_stays",
    "Configor.Props.C127_array_for_good",
    "Configor.Props.C127_member_for_good",
    "Configor.Props.C127_erase",
    "Configor.Props.C127_store"
   ],
   "note": "the storage of a vector is named by a number that changes when it is replaced; members of a map are nodes with names of their own (Model/Live)"
  },
  {
   "property": "C128",
   "status": "partial",
   "theorems": [
    "Configor.Props.C128_erase_array_partial",
    "Configor.Props.C128_erase_object_partial",
    "Configor.Props.C128_erase_scalar_partial",
    "Configor.Props.C128_update_array_partial",
    "Configor.Props.C128_update_object_partial",
    "Configor.Props.C128_update_scalar_partial",
    "Configor.Props.C128_violated"
   ],
   "note": "false of the code: C128_violated (a range-for loop over a number that stores an array in it uses an iterator that is not initialized). Proved: the erasing loop for all values (those that are no containers are left as they are, with an exception if their element is to go), the replacing loop for all arrays and objects and for other values as long as the image is neither a container nor null"
  },
  {
   "property": "C129",
   "status": "partial",
   "theorems": [
    "Configor.Props.C129_follows",
    "Configor.Props.C129_message_partial",
    "Configor.Props.C129_names_types_partial",
    "Configor.Props.C129_reference",
    "Configor.Props.C129_order",
    "Configor.Props.C129_violated"
   ],
   "note": "false of the code: C129_violated (the message of reading a sequence, a map or a struct from a value of another type is the same for all values and names no type; that of a missing member of a struct does not name the member). Proved for all types: when get throws, which part the message is about and what it says; get<T&>; that the order of evaluation decides about the message only. The messages of errors inside a field of a bound struct are not part of it: get(x) for fields swallows all exceptions (C75, C92)"
  },
  {
   "property": "C130",
   "status": "proved",
   "theorems": [
    "Configor.Props.C130_dump",
    "Configor.Props.C130_equal",
    "Configor.Props.C130_less",
    "Configor.Props.C130_destroy",
    "Configor.Props.C130_copy",
    "Configor.Props.C130_parsed"
   ],
   "note": "calls of one function in itself, through the containers; the calls of the library between them and their frames are not measured. For the copy constructor only that the room suffices is proved"
  },
  {
   "property": "C131",
   "status": "partial",
   "theorems": [
    "Configor.Props.C131_equal_exactly",
    "Configor.Props.C131_follows",
    "Configor.Props.C131_equal",
    "Configor.Props.C131_stops_array",
    "Configor.Props.C131_stops_object",
    "Configor.Props.C131_violated",
    "Configor.Props.C131_violated_object",
    "Configor.Props.C131_less_partial"
   ],
   "note": "false of the code for <: C131_violated (comparing two equal values of n + 1 nested arrays calls operator< 2^(n+1) - 1 times, since std::lexicographical_compare asks for each pair in both orders). Proved: == is called at most once for each part; < at most 2^(levels - 1) times for each part"
  },
  {
   "property": "C132",
   "status": "partial",
   "theorems": [
    "Configor.Props.C132_content",
    "Configor.Props.C132_use",
    "Configor.Props.C132_erase",
    "Configor.Props.C132_store",
    "Configor.Props.C132_others_partial",
    "Configor.Props.C132_self_partial",
    "Configor.Props.C132_swapped",
    "Configor.Props.C132_violated",
    "Configor.Props.C132_swapped_back_partial",
    "Configor.Props.C132_moved",
    "Configor.Props.C132_gone"
   ],
   "note": "false of the code: C132_violated, in general C132_swapped (after a.swap(b) of arrays or objects every use of an iterator of a is undefined: it still names a, and its place is in the container b has now) and C132_moved (after b = std::move(a) *it throws). Proved: operations on other variables and self-assignment leave iterators alone; after swapping back they are at their element; those of a container that is gone never become usable again; what the operations do to contents"
  },
  {
   "property": "C133",
   "status": "proved",
   "theorems": [
    "Configor.Props.C133_steps",
    "Configor.Props.C133_threads"
   ],
   "note": "a step is one allocation, or one access to a block or a variable; steps take place one after the other (the memory model of C++ below this is not modelled)"
  },
  {
   "property": "C134",
   "status": "proved",
   "theorems": [
    "Configor.Props.C134_calls",
    "Configor.Props.C134_accesses",
    "Configor.Props.C134_string",
    "Configor.Props.C134_cstring",
    "Configor.Props.C134_file",
    "Configor.Props.C134_same_calls",
    "Configor.Props.C134_same_accesses"
   ],
   "note": ""
  },
  {
   "property": "C135",
   "status": "partial",
   "theorems": [
    "Configor.Props.C135_follows",
    "Configor.Props.C135_message_partial",
    "Configor.Props.C135_tells_partial",
    "Configor.Props.C135_reason_partial",
    "Configor.Props.C135_names_partial",
    "Configor.Props.C135_violated"
   ],
   "note": "at() speaks of operator[] (value.hpp:757-813): C135_violated. Proved: exactly which calls throw and with which message, that each message has a reason and that the reasons are right, and that erase, push_back and operator[] are named"
  },
  {
   "property": "C136",
   "status": "proved",
   "theorems": [
    "Configor.Props.C136_texts",
    "Configor.Props.C136_text_order",
    "Configor.Props.C136_values",
    "Configor.Props.C136_last_assignment",
    "Configor.Props.C136_assignments",
    "Configor.Props.C136_make_object"
   ],
   "note": ""
  },
  {
   "property": "C137",
   "status": "proved",
   "theorems": [
    "Configor.Props.C137_back",
    "Configor.Props.C137_plus",
    "Configor.Props.C137_distance",
    "Configor.Props.C137_objects_refuse",
    "Configor.Props.C137_erase_range",
    "Configor.Props.C137_erase_all",
    "Configor.Props.C137_erase_backwards",
    "Configor.Props.C137_one_by_one"
   ],
   "note": ""
  },
  {
   "property": "C138",
   "status": "proved",
   "theorems": [
    "Configor.Props.C138_one_line",
    "Configor.Props.C138_indented",
    "Configor.Props.C138_double"
   ],
   "note": "for doubles in every style of the stream: C138_double; for other float types a bound on the length of their text is assumed"
  },
  {
   "property": "C139",
   "status": "partial",
   "theorems": [
    "Configor.Props.C139_violated",
    "Configor.Props.C139_prefix_partial",
    "Configor.Props.C139_enough_partial",
    "Configor.Props.C139_end_partial",
    "Configor.Props.C139_string_partial",
    "Configor.Props.C139_indent_partial",
    "Configor.Props.C139_arrived_partial"
   ],
   "note": "std::bad_alloc of the string's buffer ends in the ostream (badbit), which the serializer tests only after characters of strings: C139_violated, [12,null] is dumped as [12. Proved: the string gets a beginning of the text, the call is right with enough memory, how it can end, and that a call that returns has lost only what follows the last character of all strings and keys; and that compact dumps, and indented ones of values that nest at most four deep, allocate nothing for the indentation"
  },
  {
   "property": "C140",
   "status": "partial",
   "theorems": [
    "Configor.Props.C140_operators_partial",
    "Configor.Props.C140_arithmetic_partial",
    "Configor.Props.C140_erase_range_partial",
    "Configor.Props.C140_foreign",
    "Configor.Props.C140_violated",
    "Configor.Props.C140_plain_partial",
    "Configor.Props.C140_followed_partial"
   ],
   "note": "erase does not compare the value its iterator names with its own: with an iterator into another array or object it is undefined (C140_foreign, C140_violated). Proved: the operators refuse, values that are no containers refuse, iterators of the value itself do what they should, and erase follows a container that was swapped or moved"
  },
  {
   "property": "C141",
   "status": "proved",
   "theorems": [
    "Configor.Props.C141_settings",
    "Configor.Props.C141_other_flags",
    "Configor.Props.C141_number"
   ],
   "note": ""
  },
  {
   "property": "C142",
   "status": "proved",
   "theorems": [
    "Configor.Props.C142_options",
    "Configor.Props.C142_string",
    "Configor.Props.C142_order"
   ],
   "note": ""
  },
  {
   "property": "C143",
   "status": "partial",
   "theorems": [
    "Configor.Props.C143_one_stream_partial",
    "Configor.Props.C143_agree_partial",
    "Configor.Props.C143_violated",
    "Configor.Props.C143_exactly_partial",
    "Configor.Props.C143_left_behind"
   ],
   "note": "false of the code: the constructors of parser and serializer imbue a stream of their own on the caller's buffer, and thereby the buffer, with the ctype (and so codecvt) facets of the caller's stream; if the buffer had others, the conversion changes and stays changed (C143_violated; what is left in the buffer: C143_left_behind). Proved for all sequences on one stream, and on any number of streams whose locales agree in the conversion; C143_exactly_partial says exactly when a single dump, or a parse before a write, makes no difference"
  },
  {
   "property": "C144",
   "status": "partial",
   "theorems": [
    "Configor.Props.C144_exact_partial",
    "Configor.Props.C144_rounded_partial",
    "Configor.Props.C144_others",
    "Configor.Props.C144_violated"
   ],
   "note": "false of the code: unsigned numbers from 2^63 on wrap, integers beyond 2^53 are rounded when compared with a double, and <= and >= are negations of <, so that they are true of any value that is not a number and of NaN (C144_violated). Proved exact for all values and numbers outside these cases; where integers are rounded, the operators <, > and != say only what is true, and ==, <= and >= all that is true; proved in full for nullptr, bool and strings"
  }
 ]
}