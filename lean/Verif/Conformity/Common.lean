import Verif.Props.ParserCore
import Verif.Props.Float
set_option autoImplicit false
/-!
# The unit tests of the project, on the model

The files in this directory restate the checks of `/repo/tests` about the model, in their order. They are tests of the
model, not proofs about the code: each is one evaluation by the kernel. They show that the model gives the results that the
authors of the code observed.
-/
namespace Configor.Conformity
open Spec Configor.Props

/-- A literal of the tests, in UTF-8: `char` strings. -/
def u8 (s : String) : List Nat := (ascii s).flatMap Spec.utf8

/-- A wide literal on a platform whose `wchar_t` has 32 bits. -/
def u32 (s : String) : List Nat := ascii s

/-- The format of a new stream: six significant digits. -/
def style : Dbl.Style := .general 6

/-- `json::parse(s)`. -/
def parse (s : String) : Outcome Dbl := jsonParse (dblParse style true) none .null (u8 s)

/-- `wjson::parse(s)` with 32 bit `wchar_t`. -/
def wparse (s : String) : Outcome Dbl := jsonParse ⟨.utf32, 32, .utf32, 32, true, Dbl.ops style⟩ none .null (u32 s)

/-- `CHECK_THROWS_AS(json::parse(s), configor_deserialization_error)`. -/
def fails (s : String) : Bool := decide ((parse s).1 = .error (.exn .deserialization))

/-- `CHECK_NOTHROW(json::parse(s))`. -/
def passes (s : String) : Bool := decide ((parse s).1 = .ok ())

/-- `== Approx(n / d)`, up to one part in 10^5 (Catch: 100 times the epsilon of `float`). -/
def approx (v : Value Dbl) (neg : Bool) (n d : Nat) : Bool :=
  match v with
  | .flt (.fin a k) => a == neg && decide ((k * d - n * Dbl.one) * 100000 ≤ n * Dbl.one ∧ (n * Dbl.one - k * d) * 100000 ≤ n * Dbl.one)
  | _ => false

/-- A member of a value, `v[key]` where it exists. -/
def at' (v : Value Dbl) (key : String) : Value Dbl :=
  match ValueOps.atKey (u8 key) ValueOps.read v with
  | (.ok x, _) => x
  | _ => .null

/-- An element of a value, `v[i]` where it exists. -/
def idx (v : Value Dbl) (i : Nat) : Value Dbl :=
  match ValueOps.atIndex i ValueOps.read v with
  | (.ok x, _) => x
  | _ => .null

/-- A double. -/
def dbl (neg : Bool) (n d : Nat) : Value Dbl := .flt (Dbl.round neg (n * Dbl.one) d)

/-- A string value. -/
def str (s : String) : Value Dbl := .str (u8 s)

/-- A key with its value. -/
def kv (k : String) (v : Value Dbl) : List Nat × Value Dbl := (u8 k, v)

end Configor.Conformity
