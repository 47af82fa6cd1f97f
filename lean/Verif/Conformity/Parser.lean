import Verif.Conformity.Common
import Verif.Model.Wrapper
set_option autoImplicit false
/-! # tests/test_json/test_parser.cpp -/
namespace Configor.Conformity
open Spec Configor.Props

/-! ## test_parse, lines 11-71 -/

/-- The text of lines 16, 22, 237. -/
def happy : String := "{ \"happy\": true, \"pi\": 3.141, \"name\": \"中文测试\" }"

/-- The checks of lines 17-19. -/
def happyValue (v : Value Dbl) : Bool :=
  at' v "happy" = .bool true && approx (at' v "pi") false 3141 1000 && at' v "name" = str "中文测试"

example : passes happy = true ∧ happyValue (parse happy).2 = true := by decide +kernel
example : parse "{}" = (.ok (), .obj []) := by decide +kernel
example : parse "[]" = (.ok (), .arr []) := by decide +kernel
example : (["0", "2147483647", "9223372036854775807", "+0", "+2147483647", "+9223372036854775807", "-0", "-2147483647",
    "-9223372036854775807"].map parse) = ([0, 2147483647, 9223372036854775807, 0, 2147483647, 9223372036854775807, 0, -2147483647,
    -9223372036854775807].map fun i => (.ok (), .int i)) := by decide +kernel
example : [("0.25", false, 25, 100), ("1.25", false, 125, 100), ("1.125e2", false, 1125, 10), ("0.125e2", false, 125, 10),
    ("112.5e-2", false, 1125, 1000), ("12.5e-2", false, 125, 1000),
    ("+0.25", false, 25, 100), ("+1.25", false, 125, 100), ("+1.125e2", false, 1125, 10), ("+0.125e2", false, 125, 10),
    ("+112.5e-2", false, 1125, 1000), ("+12.5e-2", false, 125, 1000),
    ("-0.25", true, 25, 100), ("-1.25", true, 125, 100), ("-1.125e2", true, 1125, 10), ("-0.125e2", true, 125, 10),
    ("-112.5e-2", true, 1125, 1000), ("-12.5e-2", true, 125, 1000)].all
      (fun t => passes t.1 && approx (parse t.1).2 t.2.1 t.2.2.1 t.2.2.2) = true := by decide +kernel

/-! ## test_parse_error, lines 73-124 -/

example : ["()", "trux", "falsx", "nulx", "\"", "\"\t\"", "\"\r\"", "\"\n\"", "\"\x08\"", "\"\x0C\"", "\"\\x\"", "\"\\uD8\"", "\"\\uD800\"",
    "\"\\uD800\\uD800\"", "\"\\uD800\\x\"", "0.x", "0e1", "1ex", "1e0"].all fails = true := by decide +kernel
example : passes "{/**/}" = true ∧ passes "{//\n}" = true ∧ fails "{/x\n}" = true := by decide +kernel
example : ["\\", "]", "}", "{]", "[}", "{}{"].all fails = true := by decide +kernel

/-! ## test_error_policy, lines 126-138 -/

/-- `error_handler_with<error_policy::strict>`: rethrows. -/
def strictHandler : Handler := ⟨fun _ => false⟩
/-- `error_handler_with<error_policy::ignore>` and `<record>`. -/
def ignoreHandler : Handler := ⟨fun _ => true⟩

example : (jsonParse (dblParse style true) (some strictHandler) .null (u8 "\x0C")).1 = .error (.exn .deserialization) := by decide +kernel
example : (jsonParse (dblParse style true) (some ignoreHandler) .null (u8 "\x0C")).1 = .ok () := by decide +kernel

/-! ## test_comment, lines 140-160 -/

/-- The text of lines 142-153. -/
def commented : String := "// some comments
        /* some comments */
        {
            // some comments
            /* some comments */ \"happy\": true,  /* some comments */
            // \"pi\": 1,
            \"pi\": 3.141, // some comments
            // \"pi\": 2,
            /*
            some comments
            \"pi\": 3,
            */\"name\": \"中文测试\"
        }// some comments"

example : passes commented = true ∧ happyValue (parse commented).2 = true := by decide +kernel
example : fails "/* aaaa" = true ∧ fails "/* aaaa *" = true := by decide +kernel

/-! ## test_parse_surrogate, lines 162-167 -/

example : parse "\"\\u6211\\u662F\\u5730\\u7403\\uD83C\\uDF0D\"" = (.ok (), str "我是地球🌍") := by decide +kernel

/-! ## test_adapter, lines 223-269 -/

/-- Line 242: an adapter that delivers the text, then `'\0'` for ever. -/
example : parseAdapter (dblParse style true) none .null (u8 happy) 200 = parse happy := by decide +kernel

end Configor.Conformity
