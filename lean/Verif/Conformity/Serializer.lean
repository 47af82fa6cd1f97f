import Verif.Conformity.Parser
import Verif.Model.Sink
import Verif.Model.Convert
set_option autoImplicit false
/-! # tests/test_json/test_serializer.cpp, tests/test_json/test_unicode.cpp -/
namespace Configor.Conformity
open Spec Configor.Props

/-- The arguments of `json::dump(v, opts)` on a string: those of a new stream, then the options. -/
def args (st : Dbl.Style) (opts : List DumpOption) : DumpArgs Dbl :=
  (DumpArgs.ofStream .utf8 8 .utf8 8 0 0x20 (Dbl.ops st)).prepare opts

/-- `json::dump(v, opts)`. -/
def dump (v : Value Dbl) (opts : List DumpOption := []) : Except Stop Unit × List Nat := jsonDump (args style opts) none [] v

/-- `wjson::dump(v, opts)` with 32 bit `wchar_t`. -/
def wdump (v : Value Dbl) (opts : List DumpOption := []) : Except Stop Unit × List Nat :=
  jsonDump ((DumpArgs.ofStream .utf32 32 .utf32 32 0 0x20 (Dbl.ops style)).prepare opts) none [] v

/-- A call that succeeds with a text. -/
def gives (t : List Nat) : Except Stop Unit × List Nat := (.ok (), t)

/-- The value of lines 14-24. -/
def sample : Value Dbl := makeObject [kv "pi" (dbl false 3141 1000), kv "happy" (.bool true), kv "name" (str "Nomango"), kv "nothing" .null,
  kv "answer" (makeObject [kv "everything" (.int 42)]), kv "list" (makeArray [.int 1, .int 0, .int 2]),
  kv "object" (makeObject [kv "currency" (str "USD"), kv "value" (dbl false 4299 100)])]

/-! ## test_dump, lines 30-71 -/

example : (dump sample).1 = .ok () ∧ (dump sample [.indent 4 0x20]).1 = .ok () := by decide +kernel
example : dump (dbl false 0 1) = gives (u8 "0.0") ∧ dump (dbl false 1 1) = gives (u8 "1.0") := by decide +kernel
example : wdump (dbl false 0 1) = gives (u32 "0.0") ∧ wdump (dbl false 1 1) = gives (u32 "1.0") := by decide +kernel
example : dump (dbl false 12 10) = gives (u8 "1.2") ∧ dump (dbl false 123 100) = gives (u8 "1.23") := by decide +kernel
example : dump (.obj []) = gives (u8 "{}") ∧ dump (.arr []) = gives (u8 "[]") := by decide +kernel
example : dump (.bool true) = gives (u8 "true") ∧ dump (.bool false) = gives (u8 "false") := by decide +kernel
example : dump (str "\t\r\n\x08\x0C\"\\") = gives (u8 "\"\\t\\r\\n\\b\\f\\\"\\\\\"") := by decide +kernel
example : (dump (.str [0xC0])).1 = .error (.exn .serialization) := by decide +kernel
example : (jsonDump (args style []) (some strictHandler) [] (.str [0xC0])).1 = .error (.exn .serialization) := by decide +kernel
example : (jsonDump (args style []) (some ignoreHandler) [] (.str [0xC0])).1 = .ok () := by decide +kernel

/-! ## test_write_to_stream, lines 73-86 -/

/-- `ss << json::wrap(sample)` on an empty stream with a width and a fill character: the text. -/
def written (width fill : Nat) : Except Stop Unit × List Nat :=
  let r := Configor.insert .utf8 8 .utf8 8 (Dbl.ops style) sample ⟨[], width, fill, true⟩
  (r.1, r.2.text)

example : written 0 0x20 = dump sample := by decide +kernel
example : written 4 0x20 = dump sample [.indent 4 0x20] := by decide +kernel
example : written 2 0x2E = dump sample [.indent 2 0x2E] := by decide +kernel

/-! ## test_adapter, lines 88-124 -/

example : (let r := jsonDumpTo (args style []) (adapterSink fun _ _ => false) none sample; (r.1, r.2.1)) = dump sample := by decide +kernel

/-! ## test_numeric, lines 128-151 -/

example : [0, 2147483647, 9223372036854775807, -0, -2147483647, -9223372036854775807].map (fun i => dump (.int i)) =
    ["0", "2147483647", "9223372036854775807", "0", "-2147483647", "-9223372036854775807"].map (fun s => gives (u8 s)) := by decide +kernel
example : [0, 2147483647, 9223372036854775807, -0, -2147483647, -9223372036854775807].map (fun i => wdump (.int i)) =
    ["0", "2147483647", "9223372036854775807", "0", "-2147483647", "-9223372036854775807"].map (fun s => gives (u32 s)) := by decide +kernel

/-! ## test_dump_intend, lines 153-163 -/

/-- The value built in lines 155-157. -/
def indented : Value Dbl :=
  let r := ValueOps.withIndex 0 (ValueOps.assign (makeObject [kv "num" (.int 1)])) .null
  (ValueOps.withIndex 1 (ValueOps.assign (.bool true)) r.2).2

example : dump indented = gives (u8 "[{\"num\":1},true]") := by decide +kernel
example : dump indented [.indent 4 0x20] = gives (u8 "[\n    {\n        \"num\": 1\n    },\n    true\n]") := by decide +kernel
example : dump indented [.indent 2 0x24] = gives (u8 "[\n$${\n$$$$\"num\":$1\n$$},\n$$true\n]") := by decide +kernel

/-! ## test_dump_minimal_float, lines 165-181 -/

/-- The double nearest to pi, `std::acos(-1.0)`, is 884279719003555 / 2^48. -/
def pi : Dbl := Dbl.round false (884279719003555 * Dbl.one) (2 ^ 48)
/-- `pi / 1000000.0`, lines 168-169. -/
def minimal : Value Dbl := .flt (Dbl.round false (884279719003555 * Dbl.one) (2 ^ 48 * 1000000))

example : dump minimal = gives (u8 "3.14159e-06") := by decide +kernel
example : jsonDump (args (.general 6) []) none [] minimal = gives (u8 "3.14159e-06") := by decide +kernel
example : jsonDump (args (.general 16) []) none [] minimal = gives (u8 "3.141592653589793e-06") := by decide +kernel
example : approx (parse "3.14159e-06").2 false 3141592653589793 1000000000000000000000 = true := by decide +kernel

/-! ## test_float_precision, lines 183-198: `with_precision(4)` also sets `std::ios_base::fixed` -/

example : jsonDump (args (.fixed 4) []) none [] (.flt pi) = gives (u8 "3.1416") := by decide +kernel
example : jsonDump (args (.fixed 12) []) none [] (.flt pi) = gives (u8 "3.141592653590") := by decide +kernel

/-! ## test_wrap, lines 200-212 -/

example : (let r := insertAs .utf8 8 .utf8 8 (Dbl.ops style) (Conv.int true 32).toValue 1 ⟨[], 0, 0x20, true⟩; (r.1, r.2.text)) =
    dump (.int 1) := by decide +kernel
example : (let r := extractAs (dblParse style true) (strSBuf 8) (fun c => c == 0x20) 8 ((Conv.int true 32).get (F := Dbl)) 0 (.ofBuf (.ofString (u8 "1")))
    (r.1, r.2.1)) = (.ok (), 1) := by decide +kernel

/-! ## test_unicode.cpp, test_dump_surrogate, lines 9-20 -/

/-- RAW_STR -/
def raw : String := "我是地球🌍"
/-- QUOTE_STR -/
def quoted : String := "\"我是地球🌍\""
/-- ESCAPED_STR -/
def escaped : String := "\"\\u6211\\u662F\\u5730\\u7403\\uD83C\\uDF0D\""

example : dump (str raw) = gives (u8 quoted) := by decide +kernel
example : dump (str raw) [.unicodeEscaping false] = gives (u8 quoted) := by decide +kernel
example : dump (str raw) [.unicodeEscaping true] = gives (u8 escaped) := by decide +kernel
example : wdump (.str (u32 raw)) = gives (u32 quoted) := by decide +kernel
example : wdump (.str (u32 raw)) [.unicodeEscaping false] = gives (u32 quoted) := by decide +kernel
example : wdump (.str (u32 raw)) [.unicodeEscaping true] = gives (u32 escaped) := by decide +kernel

/-! ## test_ignore_encoding, lines 22-32 -/

example : jsonParse ⟨.ignore, 8, .ignore, 8, true, Dbl.ops style⟩ none .null (u8 quoted) = (.ok (), str raw) := by decide +kernel
example : dump (str raw) [.encoding .ignore] = gives (u8 quoted) := by decide +kernel

/-! ## test_parse_w, lines 34-40 -/

example : (wparse happy).1 = .ok () ∧ at' (wparse happy).2 "happy" = .bool true ∧ approx (at' (wparse happy).2 "pi") false 3141 1000 = true ∧
    at' (wparse happy).2 "name" = .str (u32 "中文测试") := by decide +kernel

end Configor.Conformity
