{"id": "C01", "title": "UTF-8 code point round trip", "statement": "Encoding any code point U+0000..U+10FFFF with encoding::utf8 and decoding the bytes again yields the same code point, leaves exactly the bytes that followed it, and leaves the stream good.", "quantifier": "every code point up to 0x10FFFF and every following byte sequence", "why_tests_cant": "1.1 million code points times unbounded suffixes", "anchors": ["include/configor/details/encoding.hpp: utf8::encode, utf8::decode"]}
{"id": "C02", "title": "UTF-8 encoder conforms to RFC 3629", "statement": "encoding::utf8::encode emits exactly the RFC 3629 byte sequence for every code point up to U+10FFFF, and for anything larger writes nothing and sets failbit.", "quantifier": "every 32-bit code point", "why_tests_cant": "whole 32-bit domain", "anchors": ["include/configor/details/encoding.hpp: utf8::encode"]}
{"id": "C03", "title": "UTF-8 decoder only delivers code points, and never accepts a truncated sequence", "statement": "Whenever utf8::decode reports a character with a good stream, the code point is at most U+10FFFF and was produced from exactly 1..6 bytes that are all present in the input; a sequence cut off by end of input always leaves the stream not good.", "quantifier": "every byte sequence", "why_tests_cant": "unbounded byte sequences", "anchors": ["include/configor/details/encoding.hpp: utf8::decode"]}
{"id": "C04", "title": "UTF-8 decoder accepts only well-formed UTF-8", "statement": "Every byte sequence utf8::decode accepts is the RFC 3629 encoding of the code point it reports (no overlong forms, no stray continuation bytes).", "quantifier": "every byte sequence", "why_tests_cant": "unbounded byte sequences; the violating inputs are not in the test data", "anchors": ["include/configor/details/encoding.hpp: utf8::decode"]}
{"id": "C05", "title": "UTF-16 code point round trip", "statement": "Encoding any code point up to U+10FFFF other than a lead surrogate (and other than U+FFFF on a 16 bit type, see C113) with utf16 and decoding again yields the same code point and leaves the following units; code points above U+10FFFF set failbit with no output.", "quantifier": "every code point and every following unit sequence", "why_tests_cant": "whole domain", "anchors": ["include/configor/details/encoding.hpp: utf16::encode, utf16::decode"]}
{"id": "C06", "title": "UTF-16 decoder rejects unpaired lead surrogates", "statement": "A lead surrogate unit that is not followed by a trail surrogate (or is last in the input) always leaves the stream not good; every accepted code point is at most U+10FFFF.", "quantifier": "every unit sequence", "why_tests_cant": "unbounded", "anchors": ["include/configor/details/encoding.hpp: utf16::decode"]}
{"id": "C07", "title": "UTF-32 code point round trip and range check", "statement": "utf32 round-trips every code point up to U+10FFFF and rejects every larger unit.", "quantifier": "every unit and suffix", "why_tests_cant": "whole domain", "anchors": ["include/configor/details/encoding.hpp: utf32::encode, utf32::decode"]}
{"id": "C08", "title": "Surrogate pair arithmetic is a bijection", "statement": "encode_surrogates/decode_surrogates are inverse bijections between U+10000..U+10FFFF and lead x trail surrogate pairs.", "quantifier": "every supplementary code point and every surrogate pair", "why_tests_cant": "whole domain", "anchors": ["include/configor/details/encoding.hpp: unicode::encode_surrogates, decode_surrogates"]}
{"id": "C09", "title": "Whole-text encoding round trip", "statement": "For every text of code points, encoding it with utf8, utf16 (no surrogates, and no U+FFFF on a 16 bit type, see C113) or utf32 and decoding it to the end yields the same text, and two different texts never encode to the same units. The default encoding of a character type is the one of its size.", "quantifier": "every code point sequence of every length", "why_tests_cant": "unbounded length", "anchors": ["include/configor/details/encoding.hpp: utf8, utf16, utf32"]}
{"id": "C10", "title": "Parsing terminates", "statement": "json::parse on any finite string in any of the built-in encodings ends: it returns or throws (or reaches an assert or overflow), it never loops forever.", "quantifier": "every finite input, encoding, and starting value", "why_tests_cant": "unbounded inputs; non-termination cannot be observed by a test", "anchors": ["include/configor/json.hpp: json_parser", "include/configor/details/parser.hpp: basic_parser::do_parse"]}
{"id": "C11", "title": "Parser accepts exactly its grammar", "statement": "json::parse succeeds with value v exactly when the decoded input is, up to its end or first NUL, a sentence of the documented grammar (JSON plus comments, trailing commas, leading '+', and the listed quirks) denoting v.", "quantifier": "every input text and every value", "why_tests_cant": "language equivalence over infinitely many texts", "anchors": ["include/configor/json.hpp: json_parser::scan", "include/configor/details/parser.hpp: do_parse"]}
{"id": "C12", "title": "Standard JSON is accepted", "statement": "Every RFC 8259 text whose integers fit int64, whose numbers avoid the exponent forms e0.. and 0e.., is accepted and yields the value RFC 8259 assigns.", "quantifier": "every such JSON text, any nesting", "why_tests_cant": "unbounded", "anchors": ["include/configor/json.hpp: json_parser", "include/configor/details/parser.hpp: do_parse"]}
{"id": "C13", "title": "Every RFC 8259 text is accepted", "statement": "json::parse accepts every RFC 8259 JSON text whose numbers are in range.", "quantifier": "every JSON text", "why_tests_cant": "unbounded; tests even assert the opposite on 1e0 and 0e1", "anchors": ["include/configor/json.hpp: scan_number, scan_exponent"]}
{"id": "C14", "title": "Only numbers of the JSON number grammar are accepted", "statement": "A number token is accepted only if it is a decimal literal: optional sign, digits, optional fraction, optional exponent with at least one digit.", "quantifier": "every input text", "why_tests_cant": "unbounded; violating inputs are outside the test data", "anchors": ["include/configor/json.hpp: scan_number, scan_integer, scan_exponent, is_digit"]}
{"id": "C15", "title": "Only the exact keywords are literals", "statement": "true, false and null tokens are recognised only for exactly those letters.", "quantifier": "every input text and source character type", "why_tests_cant": "unbounded", "anchors": ["include/configor/json.hpp: scan_literal"]}
{"id": "C16", "title": "Whitespace and comments between tokens do not matter", "statement": "Replacing the gap between two tokens by any other sequence of blanks, tabs, newlines and comments does not change the parsed value.", "quantifier": "every text, every gap", "why_tests_cant": "unbounded gaps and texts", "anchors": ["include/configor/json.hpp: skip_spaces, skip_comments"]}
{"id": "C17", "title": "Block comments end at the first */", "statement": "A /* comment ends at the first */ after it.", "quantifier": "every comment body", "why_tests_cant": "unbounded bodies", "anchors": ["include/configor/json.hpp: skip_comments"]}
{"id": "C18", "title": "No trailing garbage", "statement": "If json::parse succeeds, everything after the value up to the end of the input (or to an embedded NUL) is whitespace or comments.", "quantifier": "every input text", "why_tests_cant": "unbounded", "anchors": ["include/configor/details/parser.hpp: basic_parser::parse", "include/configor/json.hpp: scan"]}
{"id": "C19", "title": "First occurrence of a duplicate key wins", "statement": "Parsing an object text (or building one from an initializer list) keeps, for each key, the value of its first occurrence, and the keys of the result are exactly the keys that occur.", "quantifier": "every member list", "why_tests_cant": "unbounded member lists and duplicates", "anchors": ["include/configor/details/parser.hpp: do_parse", "include/configor/details/value.hpp: value_maker::object"]}
{"id": "C20", "title": "Integer literals are read exactly", "statement": "A decimal literal n with |n| <= 2^63-1 parses to the integer n.", "quantifier": "every such integer, any sign spelling", "why_tests_cant": "2^64 values", "anchors": ["include/configor/json.hpp: scan_integer, get_integer"]}
{"id": "C21", "title": "Integer overflow", "statement": "A literal with |n| > 2^63-1 never silently yields a wrong integer through defined behaviour: reading it performs a signed overflow (undefined behaviour), including INT64_MIN, which dump can produce.", "quantifier": "every integer literal", "why_tests_cant": "unbounded", "anchors": ["include/configor/json.hpp: scan_integer"]}
{"id": "C22", "title": "Parse failures are reported as configor_deserialization_error", "statement": "If json::parse throws, the exception is a configor_deserialization_error.", "quantifier": "every input", "why_tests_cant": "unbounded", "anchors": ["include/configor/json.hpp: fail", "include/configor/details/parser.hpp: fail"]}
{"id": "C23", "title": "Malformed input never aborts the process", "statement": "No input makes json::parse hit an assertion.", "quantifier": "every input", "why_tests_cant": "unbounded; the aborting inputs are not in the tests", "anchors": ["include/configor/json.hpp: scan_integer CONFIGOR_ASSERT"]}
{"id": "C24", "title": "Error handler decides the fate of every parse error", "statement": "With an ignore handler json::parse never throws, with a record handler it records a non-empty message, with strict or no handler the error propagates; the value produced is the same in all cases.", "quantifier": "every input and handler", "why_tests_cant": "unbounded", "anchors": ["include/configor/details/parser.hpp: parse", "include/configor/details/exception.hpp: error_handler_with", "include/configor/json.hpp: json_parser::parse"]}
{"id": "C25", "title": "Content of a value after a failed parse", "statement": "After a failed parse with a swallowing handler, the value is untouched if the first token is bad, and otherwise arrays hold exactly the elements completed before the error (plus the partial last one) and objects exactly the completed members.", "quantifier": "every input", "why_tests_cant": "every failure point", "anchors": ["include/configor/details/parser.hpp: do_parse"]}
{"id": "C26", "title": "String literals denote the right text", "statement": "A string literal made of raw characters and escapes (\\\" \\\\ \\/ \\b \\f \\n \\r \\t \\uXXXX, surrogate pairs) parses to the encoding of exactly the denoted code points (but for U+FFFF on a 16 bit type, see C113).", "quantifier": "every literal", "why_tests_cant": "unbounded length", "anchors": ["include/configor/json.hpp: scan_string, read_escaped_codepoint"]}
{"id": "C27", "title": "Control characters and lone lead surrogates are rejected in strings", "statement": "A string literal containing a raw control character U+0000..U+001F, an unknown escape, fewer than 4 hex digits, or a \\u lead surrogate not followed by a \\u trail surrogate makes parse throw.", "quantifier": "every position in every literal", "why_tests_cant": "unbounded", "anchors": ["include/configor/json.hpp: scan_string"]}
{"id": "C28", "title": "Parsed strings are valid Unicode", "statement": "Every string produced by parsing is a valid encoding of Unicode scalar values.", "quantifier": "every input", "why_tests_cant": "unbounded", "anchors": ["include/configor/json.hpp: scan_string", "include/configor/details/encoding.hpp: utf8::encode"]}
{"id": "C29", "title": "Transcoding between character types", "statement": "Parsing a wide text into a narrow value (or the reverse) yields strings that denote the same code points as the source (but for U+FFFF on a 16 bit type, see C113).", "quantifier": "every text and every pair of Unicode encodings", "why_tests_cant": "unbounded", "anchors": ["include/configor/json.hpp: json_parser", "include/configor/details/encoding.hpp"]}
{"id": "C30", "title": "Arbitrary nesting depth", "statement": "For every depth n the text of n nested arrays parses to n nested arrays and dumps back to the same text.", "quantifier": "every n", "why_tests_cant": "unbounded depth", "anchors": ["include/configor/details/parser.hpp: do_parse", "include/configor/details/serializer.hpp: do_dump"]}
{"id": "C31", "title": "dump then parse is the identity", "statement": "For every value without floats whose integers are not INT64_MIN and whose strings are valid text with no control character other than \\t \\r \\n \\b \\f, parse(dump(v)) == v, for every indent of blanks or tabs.", "quantifier": "every such value of any size and depth, every indent width", "why_tests_cant": "unbounded values", "anchors": ["include/configor/details/serializer.hpp: do_dump", "include/configor/json.hpp: json_serializer, json_parser"]}
{"id": "C32", "title": "dump of control characters is re-readable", "statement": "A string containing any control character dumps to JSON that parses back to the same string.", "quantifier": "every string", "why_tests_cant": "the failing characters are not in the test data", "anchors": ["include/configor/json.hpp: json_hex, put_string"]}
{"id": "C33", "title": "Unicode escaping is loss free", "statement": "With with_unicode_escaping(true) every string dumps to JSON that parses back to the same string.", "quantifier": "every string", "why_tests_cant": "2^20 code points, unbounded strings", "anchors": ["include/configor/json.hpp: json_hex, put_string"]}
{"id": "C34", "title": "Unicode escaping yields pure ASCII", "statement": "With with_unicode_escaping(true), whatever the value, every character dump writes for strings, keys and structure is ASCII.", "quantifier": "every value", "why_tests_cant": "unbounded", "anchors": ["include/configor/json.hpp: put_string"]}
{"id": "C35", "title": "Indentation only adds whitespace", "statement": "dump with indent writes the same text as compact dump except for inserted newlines and indent characters between tokens; both parse to the same value.", "quantifier": "every value, every indent step and blank indent character", "why_tests_cant": "unbounded", "anchors": ["include/configor/json.hpp: next, output_indent", "include/configor/details/serializer.hpp: indent"]}
{"id": "C36", "title": "dump emits members in key order, one per key", "statement": "dump writes the members of an object in strictly increasing key order, each key once.", "quantifier": "every object", "why_tests_cant": "unbounded", "anchors": ["include/configor/details/serializer.hpp: do_dump"]}
{"id": "C37", "title": "dump fails exactly on malformed strings", "statement": "dump throws configor_serialization_error if and only if some string or key in the value cannot be decoded; otherwise it completes.", "quantifier": "every value without out-of-range floats", "why_tests_cant": "unbounded", "anchors": ["include/configor/json.hpp: put_string"]}
{"id": "C38", "title": "dump is injective on re-readable values", "statement": "Two values that are both re-readable and have the same dump are equal.", "quantifier": "every pair of values", "why_tests_cant": "pairs of unbounded values", "anchors": ["include/configor/details/serializer.hpp", "include/configor/json.hpp"]}
{"id": "C39", "title": "dump appends", "statement": "dump into an existing string appends and never changes what was already there.", "quantifier": "every initial string and value", "why_tests_cant": "unbounded", "anchors": ["include/configor/details/serializer.hpp: dump", "include/configor/details/stream.hpp: fast_string_ostreambuf"]}
{"id": "C40", "title": "Indentation buffer is never overrun", "statement": "Writing indentation never reads past the indent buffer, at any nesting depth (including beyond 65535) and any indent step.", "quantifier": "every value and step", "why_tests_cant": "depth is unbounded, wrap-around at 65536", "anchors": ["include/configor/details/serializer.hpp: indent"]}
{"id": "C41", "title": "Objects stay sorted and duplicate free", "statement": "After any sequence of operations on an object its keys are distinct and iterated in increasing order.", "quantifier": "every operation sequence", "why_tests_cant": "unbounded histories", "anchors": ["include/configor/details/value.hpp: operator[], erase, emplace"]}
{"id": "C42", "title": "Object behaves as a finite map", "statement": "Any sequence of operator[] assignments, erase(key), clear, find, count and at on an object behaves like a finite map from keys to values.", "quantifier": "every operation sequence", "why_tests_cant": "unbounded histories", "anchors": ["include/configor/details/value.hpp: operator[], at, find, count, erase"]}
{"id": "C43", "title": "Array element assignment", "statement": "c[i] = v on a null or array makes size max(old, i+1), element i equal v, keeps the other old elements and fills the gap with nulls.", "quantifier": "every array, index and value", "why_tests_cant": "unbounded", "anchors": ["include/configor/details/value.hpp: operator[](size_type)"]}
{"id": "C44", "title": "Array behaves as a sequence", "statement": "Any sequence of push_back, c[i]=v, erase(index), clear on an array behaves like the same operations on a list.", "quantifier": "every operation sequence", "why_tests_cant": "unbounded histories", "anchors": ["include/configor/details/value.hpp"]}
{"id": "C45", "title": "Wrong-type access is reported and changes nothing", "statement": "operator[], at, erase, push_back on a value of the wrong type throw the documented exception and leave the value unchanged.", "quantifier": "every value and argument", "why_tests_cant": "all values", "anchors": ["include/configor/details/value.hpp"]}
{"id": "C46", "title": "Const access never inserts", "statement": "at() and const operator[] throw out_of_range for a missing key or index and otherwise return the stored element; they never change the size.", "quantifier": "every value, key, index", "why_tests_cant": "all values", "anchors": ["include/configor/details/value.hpp: at"]}
{"id": "C47", "title": "Nested assignment through a path", "statement": "j[k1][k2]...[kn] = x creates the missing levels, makes exactly that path read x, and leaves every path that diverges from it unchanged.", "quantifier": "every path and value", "why_tests_cant": "unbounded depth", "anchors": ["include/configor/details/value.hpp: operator[]"]}
{"id": "C48", "title": "erase(index) is bounds checked", "statement": "erase(index) with an index past the end is reported.", "quantifier": "every array and index", "why_tests_cant": "unbounded", "anchors": ["include/configor/details/value.hpp: erase(size_type)"]}
{"id": "C49", "title": "Equality is an equivalence on values without floats", "statement": "operator== is reflexive, symmetric and transitive on float-free values and then coincides with being the same tree.", "quantifier": "all values", "why_tests_cant": "triples of unbounded values", "anchors": ["include/configor/details/value.hpp: operator=="]}
{"id": "C50", "title": "Equality with floats", "statement": "operator== is symmetric; it is transitive over all values.", "quantifier": "all triples of values", "why_tests_cant": "triples", "anchors": ["include/configor/details/value.hpp: operator=="]}
{"id": "C51", "title": "Ordering is asymmetric and irreflexive", "statement": "operator< never holds both ways and never between a value and itself; > <= >= are its mirror images.", "quantifier": "all pairs", "why_tests_cant": "unbounded values", "anchors": ["include/configor/details/value.hpp: operator<"]}
{"id": "C52", "title": "Ordering is a strict weak order", "statement": "operator< is a strict weak order, so values can be sorted or used as set keys.", "quantifier": "all triples", "why_tests_cant": "triples of unbounded values", "anchors": ["include/configor/details/value.hpp: operator<"]}
{"id": "C53", "title": "Equal is consistent with less", "statement": "For values of one scalar kind without floats exactly one of <, ==, > holds.", "quantifier": "all pairs", "why_tests_cant": "all", "anchors": ["include/configor/details/value.hpp"]}
{"id": "C54", "title": "Move and swap", "statement": "Moving out of a value leaves null behind and delivers the old content; swap exchanges contents; self assignment and self move change nothing.", "quantifier": "all values", "why_tests_cant": "unbounded histories", "anchors": ["include/configor/details/value.hpp: basic_value(basic_value&&), operator=, swap"]}
{"id": "C55", "title": "Assigning a value from one of its own parts", "statement": "c = c[path] and c = std::move(c[path]) both leave c equal to what c[path] was.", "quantifier": "every value and path", "why_tests_cant": "aliasing at every depth", "anchors": ["include/configor/details/value.hpp: operator="]}
{"id": "C56", "title": "clear keeps the type", "statement": "clear() keeps the type and leaves the empty or zero value of that type.", "quantifier": "all values", "why_tests_cant": "all", "anchors": ["include/configor/details/value.hpp: clear"]}
{"id": "C57", "title": "size, empty and iteration agree", "statement": "size() equals the number of steps from begin() to end(); empty() holds iff size() is 0.", "quantifier": "all values", "why_tests_cant": "unbounded sizes", "anchors": ["include/configor/details/value.hpp: size, empty", "include/configor/details/iterator.hpp"]}
{"id": "C58", "title": "Iteration visits everything once in order", "statement": "Forward iteration visits all elements once in order, reverse iteration the same in reverse; scalars visit themselves, null nothing.", "quantifier": "all values", "why_tests_cant": "unbounded sizes", "anchors": ["include/configor/details/iterator.hpp"]}
{"id": "C59", "title": "Dereferencing the end is reported", "statement": "Dereferencing end(), or asking it for its key(), throws std::out_of_range; key() at an element of a non-object throws configor_invalid_iterator, for all values.", "quantifier": "all values", "why_tests_cant": "all", "anchors": ["include/configor/details/iterator.hpp: check_iterator, key"]}
{"id": "C60", "title": "Iterator arithmetic", "statement": "On arrays and scalars (it + n) - n returns to it, and the difference of two array iterators is their distance; ++ and -- are inverse.", "quantifier": "all positions and offsets", "why_tests_cant": "unbounded", "anchors": ["include/configor/details/iterator.hpp"]}
{"id": "C61", "title": "find, count and at agree", "statement": "find(key) is end() iff count(key)==0 iff at(key) throws, and otherwise they name the same element.", "quantifier": "all objects and keys", "why_tests_cant": "unbounded", "anchors": ["include/configor/details/value.hpp: find, count, at"]}
{"id": "C62", "title": "Copies are independent", "statement": "After copying a value, mutating either one never changes the other.", "quantifier": "all values and mutation sequences", "why_tests_cant": "unbounded histories", "anchors": ["include/configor/details/value.hpp: basic_value(const basic_value&)"]}
{"id": "C63", "title": "No leak, no double free", "statement": "Any sequence of construct, copy, move, assign, swap, destroy keeps every heap block owned by exactly one value and frees each block exactly once.", "quantifier": "all operation sequences", "why_tests_cant": "unbounded histories", "anchors": ["include/configor/details/value.hpp: value_constructor"]}
{"id": "C64", "title": "Copy assignment is strongly exception safe", "statement": "If an allocation fails at any point during copy assignment, the target keeps its old content.", "quantifier": "every allocation failure point", "why_tests_cant": "all crash points", "anchors": ["include/configor/details/value.hpp: operator=(const basic_value&), create_data"]}
{"id": "C65", "title": "No leak when an allocation fails", "statement": "If an allocation fails at any point during a copy, all memory allocated so far is released.", "quantifier": "every allocation failure point", "why_tests_cant": "all crash points", "anchors": ["include/configor/details/value.hpp: create_data"]}
{"id": "C66", "title": "Integer conversion round trip", "statement": "For every C++ integer type up to 64 bits, value(x).get<T>() == x.", "quantifier": "all values of all widths", "why_tests_cant": "2^64 values", "anchors": ["include/configor/details/conversion.hpp: to_value, from_value"]}
{"id": "C67", "title": "get<T> of an integer that does not fit is reported", "statement": "get<T>() either returns the stored number or fails.", "quantifier": "all integers and widths", "why_tests_cant": "2^64 values", "anchors": ["include/configor/details/conversion.hpp: from_value"]}
{"id": "C68", "title": "Type-strict get", "statement": "get<T>() for bool, integer, float, string succeeds exactly when the stored type matches; get<array>/get<object> also accept null as empty.", "quantifier": "all values", "why_tests_cant": "all", "anchors": ["include/configor/details/conversion.hpp: from_value", "include/configor/details/value.hpp: get"]}
{"id": "C69", "title": "Sequence container round trip", "statement": "For vector, deque, list, forward_list, std::array, C array of any element type that round-trips, converting to a value and back gives the same sequence; set round-trips as a set.", "quantifier": "all sequences", "why_tests_cant": "unbounded", "anchors": ["include/configor/details/conversion.hpp"]}
{"id": "C70", "title": "Map container round trip", "statement": "map and unordered_map with round-tripping values convert to a value and back into an empty map unchanged.", "quantifier": "all maps", "why_tests_cant": "unbounded", "anchors": ["include/configor/details/conversion.hpp"]}
{"id": "C71", "title": "Reading into a container replaces its content", "statement": "get(x) into an existing container leaves exactly the converted content.", "quantifier": "all containers and initial contents", "why_tests_cant": "unbounded", "anchors": ["include/configor/details/conversion.hpp: from_value"]}
{"id": "C72", "title": "Failed get(x) leaves x untouched", "statement": "If value.get(x) returns false, x keeps its old content.", "quantifier": "all values and targets", "why_tests_cant": "unbounded", "anchors": ["include/configor/details/value.hpp: get(_Ty&)", "include/configor/details/conversion.hpp"]}
{"id": "C73", "title": "CONFIGOR_BIND round trip", "statement": "A struct bound with CONFIGOR_BIND whose fields round-trip, with distinct names, converts to a value and back unchanged.", "quantifier": "all structs, field lists and field values", "why_tests_cant": "unbounded field lists", "anchors": ["include/configor/details/conversion.hpp: CONFIGOR_BIND"]}
{"id": "C74", "title": "Missing required field is reported", "statement": "Reading a bound struct from an object lacking a REQUIRED name throws; OPTIONAL fields that are absent keep their default.", "quantifier": "all field lists and objects", "why_tests_cant": "unbounded", "anchors": ["include/configor/details/conversion.hpp: CONFIGOR_BIND"]}
{"id": "C75", "title": "Type mismatch in a bound field is reported", "statement": "Reading a bound struct from an object whose field has the wrong type throws.", "quantifier": "all", "why_tests_cant": "unbounded", "anchors": ["include/configor/details/conversion.hpp: __CONFIGOR_FROM_CONF_REQUIRED"]}
{"id": "C76", "title": "Parsing does not depend on the kind of source", "statement": "Parsing the same characters from std::string, C string, std::FILE* or a stream adapter gives the same result.", "quantifier": "every NUL-free text", "why_tests_cant": "unbounded", "anchors": ["include/configor/details/stream.hpp"]}
{"id": "C77", "title": "Parsing from an adapter terminates", "statement": "Parsing from an adapter that signals the end by '\\0' ends for every text.", "quantifier": "every text", "why_tests_cant": "non-termination cannot be tested", "anchors": ["include/configor/details/stream.hpp: basic_iadapterstream", "include/configor/json.hpp: skip_comments"]}
{"id": "C78", "title": "Block reads from an adapter stream", "statement": "After peeking, read(buf,n) on an adapter stream delivers the n next characters and reports n.", "quantifier": "all adapters, n", "why_tests_cant": "all histories", "anchors": ["include/configor/details/stream.hpp: basic_iadapterstream::streambuf::xsgetn"]}
{"id": "C79", "title": "Decimal literals are evaluated by their decimal value (exact arithmetic)", "statement": "In exact arithmetic the digit and exponent loops compute integer part + fraction times 10^exponent for every literal.", "quantifier": "every literal with exponent below 2^32", "why_tests_cant": "unbounded", "anchors": ["include/configor/json.hpp: scan_float, scan_exponent"]}
{"id": "C80", "title": "Float literals are correctly rounded", "statement": "The double produced for a decimal literal is the double nearest to it.", "quantifier": "every literal", "why_tests_cant": "unbounded; Approx hides it in tests", "anchors": ["include/configor/json.hpp: scan_float"]}
{"id": "C81", "title": "Integral doubles round trip", "statement": "Every double with an integer value of magnitude up to 2^53 dumps as digits followed by .0 and parses back to the same double.", "quantifier": "all such doubles", "why_tests_cant": "2^54 values", "anchors": ["include/configor/json.hpp: put_float, scan_float"]}
{"id": "C82", "title": "Dumped floats stay floats", "statement": "A float dumps to text that parses as a float close to it.", "quantifier": "all doubles", "why_tests_cant": "2^64 values", "anchors": ["include/configor/json.hpp: put_float"]}
{"id": "C83", "title": "dump of any double is defined", "statement": "put_float has defined behaviour for every double.", "quantifier": "all doubles", "why_tests_cant": "2^64 values", "anchors": ["include/configor/json.hpp: put_float"]}
{"id": "C84", "title": "A constant value cannot be changed", "statement": "at() and operator[] on a constant value give read-only access.", "quantifier": "all values and uses", "why_tests_cant": "all uses of a reference", "anchors": ["include/configor/details/value.hpp: at, operator[] const"]}
{"id": "C85", "title": "Erasing by iterator removes exactly the named elements", "statement": "erase(pos) and erase(first,last) remove exactly the elements named and return an iterator to the element after them.", "quantifier": "all arrays, objects and positions", "why_tests_cant": "unbounded", "anchors": ["include/configor/details/value.hpp: erase"]}
{"id": "C86", "title": "make_object keeps the first of equal keys", "statement": "make_object from a list of pairs has exactly the keys of the list, each with the value of its first pair.", "quantifier": "all lists of pairs", "why_tests_cant": "unbounded", "anchors": ["include/configor/details/value.hpp: object_initializer"]}
{"id": "C87", "title": "Only arrays and null convert to sequences", "statement": "get<vector<T>>() and the other sequences refuse every value that is neither an array nor null.", "quantifier": "all values and element types", "why_tests_cant": "unbounded", "anchors": ["include/configor/details/conversion.hpp: from_value(vector, deque, list, forward_list, set)"]}
{"id": "C88", "title": "Only objects and null convert to maps", "statement": "get<map<string,T>>() refuses every value that is neither an object nor null.", "quantifier": "all values and element types", "why_tests_cant": "unbounded", "anchors": ["include/configor/details/conversion.hpp: from_value(map, unordered_map)"]}
{"id": "C89", "title": "A fixed-size array of the wrong length is reported", "statement": "get<array<T,N>>() of an array whose length is not N fails.", "quantifier": "all arrays and N", "why_tests_cant": "unbounded", "anchors": ["include/configor/details/conversion.hpp: from_value(array)"]}
{"id": "C90", "title": "Integers are stored with their value", "statement": "value(x) for an integer x holds the number x.", "quantifier": "all integers of all types", "why_tests_cant": "2^64 values of each type", "anchors": ["include/configor/details/conversion.hpp: to_value (integral)"]}
{"id": "C91", "title": "Smart pointer round trip", "statement": "unique_ptr and shared_ptr to a type that round-trips, null or not, convert to a value and back to an equal pointer.", "quantifier": "all pointees", "why_tests_cant": "unbounded", "anchors": ["include/configor/details/conversion.hpp: to_value/from_value(unique_ptr, shared_ptr)"]}
{"id": "C92", "title": "Missing required field of a nested struct is reported", "statement": "Reading a bound struct throws when a struct in one of its fields lacks a REQUIRED member.", "quantifier": "all nestings", "why_tests_cant": "unbounded", "anchors": ["include/configor/details/conversion.hpp: CONFIGOR_BIND", "include/configor/details/value.hpp: get(T&)"]}
{"id": "C93", "title": "Unknown members are ignored", "statement": "What a bound struct is read as depends only on the members with the names of its fields.", "quantifier": "all objects and field lists", "why_tests_cant": "unbounded", "anchors": ["include/configor/details/conversion.hpp: CONFIGOR_BIND"]}
{"id": "C94", "title": "What a bound struct is written as", "statement": "The value of a bound struct is an object with exactly the REQUIRED fields and those OPTIONAL fields that differ from T{}, each with the value of the field.", "quantifier": "all structs and field lists", "why_tests_cant": "unbounded", "anchors": ["include/configor/details/conversion.hpp: CONFIGOR_BIND"]}
{"id": "C95", "title": "Reading into C++ types is safe", "statement": "get<T>() and get(x) end with a result or an exception for every value, never with undefined behaviour.", "quantifier": "all values, types and initial contents", "why_tests_cant": "unbounded", "anchors": ["include/configor/details/conversion.hpp: from_value", "include/configor/details/value.hpp: get"]}
{"id": "C96", "title": "Operations act as on independent trees", "statement": "Every sequence of constructions, copies, moves, assignments, swaps, push_backs, element accesses, erasures, clears and destructions acts on the contents of the variables as it does on independent trees; a call that fails for lack of memory leaves the contents as they were, or at most an empty container instead of a null; a call on the wrong type throws and changes nothing; moves, swaps, clear, erase and destruction never throw.", "quantifier": "all operation sequences on all variables and parts, and every allocation failure point", "why_tests_cant": "unbounded histories and all crash points", "anchors": ["include/configor/details/value.hpp: basic_value, operator=, swap, push_back, operator[], erase, clear, ~basic_value"]}
{"id": "C97", "title": "Extraction from a stream", "statement": "is >> value, on any istream, skips white space, then sets value to what parsing the rest of the characters gives; if only white space is left the value is not touched.", "quantifier": "all streams with any buffer, all white space classifications and all texts", "why_tests_cant": "unbounded texts, all stream buffers", "anchors": ["include/configor/details/wrapper.hpp: operator>>(istream, basic_value)"]}
{"id": "C98", "title": "Extraction into a C++ object is all or nothing", "statement": "is >> wrap(x) sets x to what the text converts to, or throws and leaves x untouched if the text does not parse or does not convert.", "quantifier": "all streams, texts and conversions", "why_tests_cant": "unbounded", "anchors": ["include/configor/details/wrapper.hpp: operator>>(istream, wrapper)"]}
{"id": "C99", "title": "Lost output is reported", "statement": "If the output stream accepts no characters, dump(os, v) reports it by an exception.", "quantifier": "all values, all output arguments", "why_tests_cant": "all failure points", "anchors": ["include/configor/details/serializer.hpp: dump", "include/configor/json.hpp: put_string, next"]}
{"id": "C100", "title": "Threads with values of their own do not disturb each other", "statement": "Threads that change only values of their own, and otherwise only read values no thread changes, end with what each of them would have alone, in whatever order their calls take place; no call touches memory of values it is not given.", "quantifier": "all programs, all schedules of their calls, all memory states and allocation failures", "why_tests_cant": "all schedules", "anchors": ["include/configor/details/value.hpp: basic_value, operator=, swap, push_back, operator[], erase, clear, ~basic_value, create_data"]}
{"id": "C101", "title": "Indentation shows the nesting depth", "statement": "with_indent(n, ch), or a stream width n, puts every element, member and closing bracket on a line of its own, indented by n times its depth, and leaves scalars, strings and keys as they are.", "quantifier": "every value, depth, indent step and indent character", "why_tests_cant": "unbounded depth, counters that wrap around", "anchors": ["include/configor/json.hpp: json_serializer::with_indent, next, output_indent", "include/configor/details/serializer.hpp: indent"]}
{"id": "C102", "title": "Options of dump do not depend on their order", "statement": "dump with any list of options does what the last option of each kind asks for; what no option sets is taken from the stream.", "quantifier": "all lists of options, all values", "why_tests_cant": "unbounded lists", "anchors": ["include/configor/json.hpp: json_serializer::with_indent, with_unicode_escaping, with_encoding, with_source_encoding, with_target_encoding, prepare"]}
{"id": "C103", "title": "Stream insertion and extraction are inverse", "statement": "os << wrap(v) on a good stream appends a text, clears the stream's width and changes nothing else, and is >> wrap(w) on any stream holding that text, after any white space, sets w to v; on a stream that is not good nothing is written.", "quantifier": "all values (without floats), all encodings, widths and stream buffers, all white space classifications", "why_tests_cant": "unbounded values, all stream buffers", "anchors": ["include/configor/details/wrapper.hpp: operator<<, operator>>", "include/configor/json.hpp: json_serializer::json_serializer"]}
{"id": "C104", "title": "C++ objects survive as JSON text", "statement": "For every type made of booleans, integers, strings, sequences, ordered sets and maps, smart pointers and bound structs: parse(dump(x)).get<T>() equals x, and os << wrap(x), is >> wrap(y) makes y equal to x.", "quantifier": "all such types, nested to any depth, all objects, all encodings and layouts", "why_tests_cant": "types and objects are unbounded", "anchors": ["include/configor/details/conversion.hpp: to_value, from_value, CONFIGOR_BIND", "include/configor/details/wrapper.hpp: operator<<, operator>>", "include/configor/json.hpp: json_parser, json_serializer"]}
{"id": "C105", "title": "One extraction uses the stream up", "statement": "After is >> wrap(x) has parsed a text without NUL, nothing is left in the stream, although its flags are still good; a second extraction leaves its target untouched and sets eofbit and failbit.", "quantifier": "all streams with any buffer, all texts, targets and white space classifications", "why_tests_cant": "unbounded texts, all stream buffers", "anchors": ["include/configor/details/wrapper.hpp: operator>>", "include/configor/details/parser.hpp: parse"]}
{"id": "C106", "title": "Parsing leaves memory in order", "statement": "json::parse(c, ...) into any value, also an element inside a larger one, changes only that value: everything else keeps its content, every block of memory has one owner, no local value is left. If no allocation fails, no memory is lost and the result is the one the text determines, also if it is an error. If one fails, the call is given up with std::bad_alloc or a deserialization error (or what the handler makes of it) or ends as it would have, and the only memory lost was allocated and never used. A variable initialized with parse(...) that throws does not exist.", "quantifier": "all program states, targets, sources, encodings, handlers, and all choices of the allocations that fail", "why_tests_cant": "every allocation of every parse may fail, in every state", "anchors": ["include/configor/details/parser.hpp: parse, do_parse", "include/configor/json.hpp: get_string, scan_string", "include/configor/details/value.hpp: operator=, reset, ~basic_value"]}
{"id": "C107", "title": "Lack of memory does not change the result of parsing", "statement": "If a parse during which an allocation failed returns normally (and no handler swallowed an error), the value is the one the text stands for.", "quantifier": "all program states, sources, encodings and failing allocations", "why_tests_cant": "every allocation of every parse may fail", "anchors": ["include/configor/details/parser.hpp: parse, do_parse", "include/configor/json.hpp: scan_string", "include/configor/details/stream.hpp: overflow"]}
{"id": "C108", "title": "Iterators of no value or of another value are reported", "statement": "Every use of a default-constructed iterator throws configor_invalid_iterator, except ==, which is false. Iterators of two different values are not equal, and their difference and order throw configor_invalid_iterator.", "quantifier": "all iterators, values and offsets", "why_tests_cant": "all pairs of iterators and values", "anchors": ["include/configor/details/iterator.hpp: iterator, check_data, operator-, operator<, operator=="]}
{"id": "C109", "title": "erase reports iterators that name no element", "statement": "erase(pos) and erase(first, last) throw if the iterators do not name elements of the value.", "quantifier": "all values and iterators", "why_tests_cant": "all pairs of iterators and values", "anchors": ["include/configor/details/value.hpp: erase", "include/configor/details/iterator.hpp: iterator"]}
{"id": "C110", "title": "Numbers too large for a double are reported", "statement": "A number literal too large for a double is not silently read as something else: parse throws, or the value can at least be dumped.", "quantifier": "all number literals", "why_tests_cant": "unbounded exponents", "anchors": ["include/configor/json.hpp: scan_float, scan_exponent, put_float"]}
{"id": "C111", "title": "Errors of the source are reported", "statement": "If reading the source fails before its end, parsing does not end normally with what had been read.", "quantifier": "every source, every text and every point at which reading fails", "why_tests_cant": "every failure point of every text", "anchors": ["include/configor/details/stream.hpp: fast_cfile_istreambuf::underflow, basic_iadapterstream::streambuf::underflow", "include/configor/json.hpp: read_next"]}
{"id": "C112", "title": "The encoding of the text does not matter", "statement": "The same text in two encodings is accepted with the same value in both, or rejected in both.", "quantifier": "all texts and pairs of encodings", "why_tests_cant": "all texts", "anchors": ["include/configor/json.hpp: is_digit, scan_literal, read_next", "include/configor/details/encoding.hpp: decode"]}
{"id": "C113", "title": "16 bit strings hold every character", "statement": "Parsing into values with 16 bit strings and dumping them keeps every Unicode character.", "quantifier": "all texts in all encodings", "why_tests_cant": "all texts and characters", "anchors": ["include/configor/details/encoding.hpp: utf16::encode", "include/configor/details/stream.hpp: fast_string_ostreambuf::overflow, fast_string_istreambuf::underflow"]}
{"id": "C114", "title": "Dumping to any stream writes a prefix of the text", "statement": "Whatever the stream buffer or output adapter behind json::dump(os, v) accepts or refuses, and wherever an adapter throws, what arrives is a prefix of the text dumping to a string gives. If nothing is refused it is the whole text and the call ends as it does for a string; otherwise it ends exactly at the first character refused, and the call ends so or with a serialization error.", "quantifier": "all values, options, handlers and all buffers, refusing at any point of any block", "why_tests_cant": "every refusal point of every output", "anchors": ["include/configor/details/serializer.hpp: basic_serializer::dump, dump", "include/configor/details/stream.hpp: basic_oadapter, basic_oadapterstream"]}
{"id": "C115", "title": "The stack use of parsing is bounded by the nesting of the value", "statement": "How many calls of the parser are active at the same time during json::parse depends only on how deep the arrays and objects of the text nest.", "quantifier": "all texts, accepted or not, in all encodings", "why_tests_cant": "unbounded texts", "anchors": ["include/configor/details/parser.hpp: do_parse", "include/configor/json.hpp: skip_spaces, skip_comments"]}
{"id": "C116", "title": "Making values from C++ objects is all or nothing", "statement": "Constructing a value from a C++ object (numbers, strings, values, pointers, sequences, maps, bound structs, nested to any depth) or assigning one to a value or to a part of one either gives the value the object converts to, or throws and leaves every value of the program as it was. The exception is that of the part that cannot be converted, or std::bad_alloc when an allocation failed. Neither the value nor the exception depends on the order in which the compiler evaluates operands.", "quantifier": "all program states, objects, targets, orders of evaluation, parts that throw and failing allocations", "why_tests_cant": "every part of every object may throw, every allocation may fail", "anchors": ["include/configor/details/conversion.hpp: to_value, CONFIGOR_BIND", "include/configor/details/value.hpp: basic_value(_CompatibleTy&&), operator=, reset, create_data"]}
{"id": "C117", "title": "Converting objects does not leak", "statement": "When constructing or assigning a value from a C++ object throws, all memory allocated by the call has been released.", "quantifier": "all program states, objects, and parts that throw or allocations that fail", "why_tests_cant": "every part of every object may throw", "anchors": ["include/configor/details/value.hpp: basic_value(_CompatibleTy&&), create_data", "include/configor/details/conversion.hpp: to_value"]}
{"id": "C118", "title": "to_value leaves its target alive", "statement": "However to_value(c, x) on an existing value c ends, c can be destroyed or assigned afterwards.", "quantifier": "all values, objects and failing allocations", "why_tests_cant": "every allocation may fail", "anchors": ["include/configor/details/value.hpp: value_constructor::reset", "include/configor/details/conversion.hpp: to_value"]}
{"id": "C119", "title": "A text that lost its end is never taken for another value", "statement": "If a text and a beginning of it, cut anywhere, even inside a character, are both accepted, they denote the same value, unless they are numbers. No proper beginning of the text json::dump gives for a value other than a number is accepted; so what has arrived in a buffer that refused part of the output is rejected or denotes the value that was dumped.", "quantifier": "all texts, cuts, encodings and layouts; all values without floats, all buffers refusing output anywhere", "why_tests_cant": "every cut of every text", "anchors": ["include/configor/details/parser.hpp: parse, do_parse", "include/configor/json.hpp: json_parser", "include/configor/details/serializer.hpp: basic_serializer::dump", "include/configor/details/stream.hpp: basic_oadapterstream"]}
{"id": "C120", "title": "The error handler of dump decides only how the call ends", "statement": "With an error handler, json::dump writes what it writes without one. Every exception dumping throws is shown to the handler; the call ends normally if the handler swallows it, with the exception otherwise. If dumping throws nothing the handler is without influence.", "quantifier": "all values, options, handlers and outputs", "why_tests_cant": "all values and failure points", "anchors": ["include/configor/details/serializer.hpp: basic_serializer::dump, dump, error_handler"]}
{"id": "C121", "title": "Saving what was loaded does not change the file", "statement": "What json::dump writes is, when parsed and dumped again with the same options, the same text.", "quantifier": "all values with floats, nested to any depth, all encodings and layouts, all doubles", "why_tests_cant": "all doubles and unbounded values", "anchors": ["include/configor/json.hpp: put_float, put_integer, scan_number, scan_float, scan_exponent", "include/configor/details/serializer.hpp: dump"]}
{"id": "C122", "title": "CONFIGOR_BIND binds exactly the listed fields", "statement": "CONFIGOR_BIND(value_type, custom_type, fields...) becomes, for one to fifty fields, exactly the two functions one would write by hand: one stores each listed field under its name (the given one, or that of the field), an optional one only if it is not the default; the other loads each listed field from its name, an optional one only if the name is there; in the order of the list, and nothing else. With more than fifty fields the result does not compile; no field is left out in silence.", "quantifier": "all lists of REQUIRED and OPTIONAL fields, with and without names, all types, field and name texts, all other macros of the program that do not touch the names used", "why_tests_cant": "all lengths and combinations of fields, and all programs around them", "anchors": ["include/configor/details/conversion.hpp: CONFIGOR_BIND, REQUIRED, OPTIONAL"]}
{"id": "C123", "title": "Objects of another type get the members of the text in its order", "statement": "With another map as object type (template parameter object_type), json::parse accepts the same texts and ends in the same way; every object gets the members of its text, one by one, in the order of the text, and nothing else. With an insertion-ordered map the members stay in the order of the text, the first of each key, and dumping and parsing gives the same value with its members in the same order; with a hash map it gives the same members.", "quantifier": "all texts, encodings, handlers and object types; all values without floats whose objects have distinct keys, in any order", "why_tests_cant": "unbounded texts and all ways a map may order its members", "anchors": ["include/configor/details/parser.hpp: do_parse", "include/configor/details/serializer.hpp: do_dump", "include/configor/configor.hpp: value_tplargs::object_type"]}
{"id": "C124", "title": "The message of a parse error says what is wrong", "statement": "If json::parse throws, what() of the exception says what is wrong at the place where the text cannot be read further: the code of the malformed, unexpected, control or escaped character, the unfinished comment, literal, number or string, or the name of the token that does not fit there and of the bracket that would; a handler with the record policy gets the same message and parse returns normally.", "quantifier": "all texts, valid or not, encodings, character types, contents of the argument and of the handler's error field", "why_tests_cant": "all places of all texts at which reading may stop", "anchors": ["include/configor/details/exception.hpp: configor_deserialization_error, error_handler_with<error_policy::record>", "include/configor/json.hpp: json_parser", "include/configor/details/parser.hpp: fail, do_parse", "include/configor/details/token.hpp: to_string"]}
{"id": "C125", "title": "Copying between parts of one value", "statement": "c[x] = c[y] and c[x] = std::move(c[y]) give the part x the content that the part y had (null if it was missing), leave y unchanged or null, make the missing parts and change nothing else; c.push_back(c[y]) appends that content, c.push_back(c) and c[x] = c take what c was before. This holds whichever side the compiler evaluates first and whether or not the array has to grow.", "quantifier": "all values, indices and keys, capacities and growth policies of the vector, orders of evaluation", "why_tests_cant": "whether a vector moves its elements depends on its history and on the standard library; wrong uses seem to work until it does", "anchors": ["include/configor/details/value.hpp: operator[], operator=, push_back, emplace_back"]}
{"id": "C126", "title": "The message of a failed dump names what cannot be written", "statement": "If json::dump throws, what() of the exception is about the first key or string, in the order of the output, that cannot be written: it shows the code of its first malformed character, or the first code point in it that the target encoding cannot express. A handler with the record policy gets the same message and dump returns normally.", "quantifier": "all values, strings, source and target encodings, character types, layouts and targets of the output", "why_tests_cant": "every character of every string of every value may be the one that fails", "anchors": ["include/configor/details/exception.hpp: configor_serialization_error, error_handler_with<error_policy::record>", "include/configor/json.hpp: put_string, fail", "include/configor/details/serializer.hpp: basic_serializer::dump, do_dump"]}
{"id": "C127", "title": "Which iterators stay usable when the value changes", "statement": "An iterator of an object stays at its member while other members are added, replaced or removed, and the end stays the end; an iterator of an array stays at its position unless the array has to grow, elements at or before it are removed or elements are added at it. it = c.erase(it) removes exactly that element and gives the one after it; *it = x replaces exactly that element. Iterators to removed elements never get usable again.", "quantifier": "all values, all histories of changes, all capacities and growth policies of the vector, all iterators", "why_tests_cant": "unbounded histories; a stale iterator often seems to work", "anchors": ["include/configor/details/iterator.hpp: iterator", "include/configor/details/value.hpp: erase, clear, operator[], push_back, operator=, begin, end, find"]}
{"id": "C128", "title": "Loops that change the value they go through do what they say", "statement": "for (it = c.begin(); it != c.end();) if (t(it)) it = c.erase(it); else ++it; leaves exactly the elements for which t is false, in order; for (auto& e : c) e = f(e); replaces every element by its image and leaves the keys.", "quantifier": "all values, tests and functions, sizes and histories of the value", "why_tests_cant": "unbounded sizes and histories", "anchors": ["include/configor/details/iterator.hpp: iterator, operator++, operator*, operator!=", "include/configor/details/value.hpp: erase, begin, end"]}
{"id": "C129", "title": "The message of a failed conversion says what does not fit", "statement": "If v.get<T>() throws, what() of the exception names the type of the first part of v, in the order of reading, that does not fit T, and the type that is wanted there, or the member that is missing. If v.get<T&>() throws, it names the type of v.", "quantifier": "all values, all types T built from numbers, strings, booleans, sequences, sets, maps, smart pointers and bound structs to any depth, both orders of evaluation of the arguments of emplace", "why_tests_cant": "types and values are unbounded, and the first part that does not fit can be anywhere", "anchors": ["include/configor/details/conversion.hpp: from_value, CONFIGOR_BIND", "include/configor/details/value.hpp: get, do_get_ref, at, operator[]", "include/configor/details/iterator.hpp: key", "include/configor/details/exception.hpp: configor_type_error, configor_invalid_key, configor_invalid_iterator", "include/configor/details/declare.hpp: to_string"]}
{"id": "C130", "title": "Dumping, comparing, copying and destroying a value nest no deeper than the value", "statement": "dump, ==, <, the copy constructor and the destructor of a value nest as many calls as the value has levels, and no more: with room for that many calls they do what they do with unlimited room, with less they do not come through (== and < need only the room for the lower of two values). A value that was parsed has no more levels than the calls were deep when it was parsed.", "quantifier": "all values of any depth and width, all states of memory and failing allocations, all texts", "why_tests_cant": "values of every depth; whether the stack suffices shows only at depths no test tries", "anchors": ["include/configor/details/serializer.hpp: do_dump", "include/configor/details/value.hpp: operator==, operator<, basic_value(const basic_value&), ~basic_value", "include/configor/json.hpp: parse, dump", "include/configor/details/parser.hpp: do_parse"]}
{"id": "C131", "title": "Comparing two values takes effort proportional to their size", "statement": "Comparing two values with == or < calls operator== or operator< at most a constant number of times for each part of the values.", "quantifier": "all pairs of values of any depth and width", "why_tests_cant": "the number of calls at every size: doubling with each level is not seen on small values", "anchors": ["include/configor/details/value.hpp: operator==, operator<, operator<=, operator>, operator>="]}
{"id": "C132", "title": "Iterators stay usable when values are exchanged", "statement": "As with the containers of the standard library, swapping or moving values does not invalidate iterators: after a.swap(b) or b = std::move(a) an iterator of a is at the same element, which is now one of b. Iterators are not affected by operations on other variables, by copying from their variable or by self-assignment; once the array or object is gone they do not become usable again.", "quantifier": "all variables, contents, iterators, and histories of changes, assignments, moves and swaps", "why_tests_cant": "histories of several variables; undefined behaviour often goes unnoticed in a test", "anchors": ["include/configor/details/iterator.hpp: iterator", "include/configor/details/value.hpp: swap, operator=, begin, end, erase"]}
{"id": "C133", "title": "Threads may be interrupted anywhere", "statement": "If each thread changes only values of its own, and otherwise reads values that no thread changes, then no interleaving of their accesses to memory can be noticed: no thread fails or blocks, each ends after as many steps as it would make alone, with the contents it would have if it had run alone, and the shared values have their contents at all times. Copying, assigning, moving, appending, inserting, erasing and destroying need no lock.", "quantifier": "all threads and programs that keep to this rule, all contents, and all schedules that switch threads after any single allocation or access to a block or variable", "why_tests_cant": "schedules: the number of interleavings is beyond counting, and a test sees a few of them", "anchors": ["include/configor/details/value.hpp: basic_value, swap, operator=, push_back, operator[], erase, clear, create_data, destroy_data"]}
{"id": "C134", "title": "Parsing reads each character once", "statement": "A call of parse on a text of k characters asks its decoder for at most k + 2 code points, looks at a character of the stream buffer at most k + 1 times and takes one at most k + 1 times, whether it succeeds or fails: the work of reading is linear in the text, no text is read twice, and no text makes it read on at the end.", "quantifier": "all strings, C strings, files without NULs and other stream buffers that deliver finitely many characters, all encodings, error handlers and values parsed into", "why_tests_cant": "all texts: a test measures single texts, not the worst one", "anchors": ["include/configor/details/parser.hpp: basic_parser::parse, do_parse", "include/configor/json.hpp: json_parser::read_next, scan_number, scan_string, skip_spaces, skip_comments", "include/configor/details/encoding.hpp: decode"]}
{"id": "C135", "title": "Messages of refused calls name the call and the reason", "statement": "When a call of a value or of an iterator throws, what() names the function that was called and the reason: the kind of value it needs, that the element or member is missing, that the iterator is empty or at the end, or that two iterators are of different values.", "quantifier": "all calls of erase, push_back, operator[], at and of the functions and operators of iterators, all arguments and all values", "why_tests_cant": "all values and arguments: a test sees the message of a few failing calls", "anchors": ["include/configor/details/value.hpp: erase, emplace_back, operator[], at", "include/configor/details/iterator.hpp: iterator::key, value, operator+=, operator-, operator<, check_data, check_iterator", "include/configor/details/exception.hpp: configor_type_error, configor_invalid_key, configor_invalid_iterator"]}
{"id": "C136", "title": "The order of members does not matter", "statement": "Two texts, or two programs of assignments, that give the same members in different orders give equal values that are dumped as the same text: parsing does not depend on the order in which the members of objects are written, at any depth, nor assigning to distinct keys or make_object on the order of the pairs. If a key is assigned more than once, the last assignment counts.", "quantifier": "all texts without repeated keys that differ only in the order of members at any depth; all sequences of assignments and all lists of pairs", "why_tests_cant": "all permutations of members at all depths: a test tries one reordering", "anchors": ["include/configor/details/parser.hpp: do_parse", "include/configor/details/value.hpp: operator[], make_object, operator==", "include/configor/details/serializer.hpp: do_dump"]}
{"id": "C137", "title": "Iterator arithmetic and range erase on a value that changes", "statement": "An iterator that may still be used after other changes of its array steps back, moves by any distance inside the array and measures distances and order by present positions. With iterators of objects, moving by a distance, distances and order throw. erase(first, last) removes exactly the elements of the range and returns the position behind it; iterators before the range stay, those of an object behind it as well, and all others must not be used any more. It does what erasing one element after the other does.", "quantifier": "all values, all histories of changes (assignments, insertions, removals of one element or of ranges, clear), all iterators and all distances", "why_tests_cant": "all histories and positions: a test follows one", "anchors": ["include/configor/details/iterator.hpp: iterator::operator--, operator+=, operator-, operator<", "include/configor/details/value.hpp: erase(first, last)"]}
{"id": "C138", "title": "The text of a value is not much larger than the value", "statement": "What dump writes on one line is at most four characters per unit of a string (twelve with Unicode escapes), twenty per integer and a constant per value and member; indentation adds at most one line of the deepest indentation before each value and closing bracket.", "quantifier": "all values, encodings and settings of dump", "why_tests_cant": "all values: a test sees the size of a few texts", "anchors": ["include/configor/details/serializer.hpp: do_dump, indent", "include/configor/json.hpp: json_serializer::put_string, put_integer, put_float, next"]}
{"id": "C139", "title": "Dumping to a string reports lack of memory", "statement": "If json::dump into a string returns normally then the string holds its old content followed by the whole text, also if an allocation failed on the way; otherwise it throws, and the string holds its old content and a beginning of the text.", "quantifier": "all values and settings, all allocations that may fail", "why_tests_cant": "every allocation can be the one that fails: a test can make few of them fail", "anchors": ["include/configor/details/serializer.hpp: dump, indent::reverse", "include/configor/details/stream.hpp: fast_string_ostreambuf", "include/configor/json.hpp: json_serializer::output, fail"]}
{"id": "C140", "title": "Iterators of another value are refused", "statement": "An operation that is given iterators of two different values, or a value's erase that is given an iterator of another value, throws and changes nothing; given iterators of its own value it works there and leaves all other values and their iterators alone, also after values were swapped, copied and moved.", "quantifier": "all values, iterators, positions, and histories of changes, swaps, copies and moves of any number of variables", "why_tests_cant": "a wrong use of an iterator often seems to work: only a model of the containers shows that it is undefined", "anchors": ["include/configor/details/value.hpp: erase, swap, operator=", "include/configor/details/iterator.hpp: operator-, operator<, operator+=, operator--"]}
{"id": "C141", "title": "Number formats come from with_precision or the stream, and always give JSON", "statement": "dump writes doubles in the style that the last with_precision asks for, or else in that of the stream's precision, fixed and scientific; hexfloat gives the default style, a negative precision six digits, and no other flag of the stream (hex, showpos, uppercase, ...) shows in the text. Every finite double in the range of the format is written as a JSON number. Of the stream's own formatting state only the width changes.", "quantifier": "all flags, precisions, widths, fill characters and lists of options, all values", "why_tests_cant": "there are 2^18 sets of flags, any precision and lists of options of any length", "anchors": ["include/configor/json.hpp: json_serializer::json_serializer, with_precision, prepare, put_float", "include/configor/details/serializer.hpp: basic_serializer::basic_serializer, dump"]}
{"id": "C142", "title": "Options of parse do not depend on their order", "statement": "parse with any list of options uses the last source encoding, the last target encoding and the last error handler given, and the defaults for what is not given, for every kind of source.", "quantifier": "all lists of options, all sources and texts", "why_tests_cant": "there are infinitely many lists of options, sources and texts", "anchors": ["include/configor/json.hpp: json_parser::with_encoding, with_source_encoding, with_target_encoding, with_error_handler, prepare", "include/configor/details/parser.hpp: parsable::parse"]}
{"id": "C143", "title": "The bytes in a file do not depend on whether a text is dumped or written", "statement": "A file gets the same bytes by dump(os, v) as by writing the text of v to os, and neither dump nor parse changes what is written to the file afterwards, whatever locales the streams on the file have.", "quantifier": "all sequences of imbue, write, dump and parse on any number of streams that share a buffer, all locales and conversions", "why_tests_cant": "the effect needs locales and several streams on one buffer, and shows only in what is written later", "anchors": ["include/configor/details/serializer.hpp: basic_serializer::basic_serializer", "include/configor/details/parser.hpp: basic_parser::basic_parser"]}
{"id": "C144", "title": "Comparing a value with a C++ number compares the numbers", "statement": "v == x, v != x, v < x, v <= x, v > x and v >= x, and the same with x first, say for a number x what is true of the exact numbers; a value that is not a number, and NaN, is only != to x. Compared with nullptr, a bool or a string literal, v is equal only if it holds the same.", "quantifier": "all values, all numbers of all integral and floating types, all six operators, both sides", "why_tests_cant": "the domain of pairs is too large to enumerate, and the errors of the conversions show only at the ends of the ranges", "anchors": ["include/configor/details/value.hpp: operator== and the other operators with _ScalarTy", "include/configor/details/conversion.hpp: to_value"]}
