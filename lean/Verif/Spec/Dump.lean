import Verif.Spec.Texts
import Verif.Spec.Unicode
import Verif.Spec.Decoding
import Verif.Model.Serializer
/-!
# The text `json::dump` writes, as a function of the value

A plain recursive printer, without the state machine of the code. `enc` gives the units of a
character that is written as it is, `txt` the text of a string, `num` and `flt` the text of
numbers.
-/
namespace Spec
open Configor (Value DumpArgs strSBuf)

/-- How a text is laid out: on one line, or with line ends and indentation by multiples of
`step` characters `ch`. -/
structure Style where
  pretty : Bool
  step : Nat
  ch : Nat

/-- A line end. -/
def Style.nl (st : Style) : List Nat := if st.pretty then [0x0A] else []

/-- Indentation at a depth. Quirks: depths count modulo 2^16, and no indentation is written
if the indent character is NUL. -/
def Style.indent (st : Style) (d : Nat) : List Nat :=
  if st.pretty ∧ st.ch ≠ 0 then List.replicate (d % 65536 * st.step) st.ch else []

/-- What stands between `:` and a value. -/
def Style.space (st : Style) : List Nat := if st.pretty then [st.ch] else []

/-- A hex digit, upper case. -/
def hexChar (d : Nat) : Nat := if d < 10 then 0x30 + d else 0x37 + d

/-- Four hex digits. -/
def hex4 (n : Nat) : List Nat := [hexChar (n / 4096 % 16), hexChar (n / 256 % 16), hexChar (n / 16 % 16), hexChar (n % 16)]

/-- The hex digits `\u` escapes of characters below U+10000 are written with. Quirk: leading
zeros are dropped down to two digits. -/
def hexShort (n : Nat) : List Nat :=
  if n < 0x100 then (hex4 n).drop 2 else if n < 0x1000 then (hex4 n).drop 1 else hex4 n

/-- A `\u` escape, with a surrogate pair for characters from U+10000 on. -/
def uniEscape (c : Nat) : List Nat :=
  if c < 0x10000 then [0x5C, 0x75] ++ hexShort c
  else [0x5C, 0x75] ++ hex4 (0xD800 + (c - 0x10000) / 1024) ++ [0x5C, 0x75] ++ hex4 (0xDC00 + (c - 0x10000) % 1024)

/-- The letter of a short escape. -/
def shortEscape (c : Nat) : Option Nat :=
  if c = 0x09 then some 0x74 else if c = 0x0D then some 0x72 else if c = 0x0A then some 0x6E
  else if c = 0x08 then some 0x62 else if c = 0x0C then some 0x66
  else if c = 0x22 then some 0x22 else if c = 0x5C then some 0x5C else none

/-- A character is written as `\u` escape: control characters and, if asked for, everything
from U+007F on. -/
def Escaped (uesc : Bool) (c : Nat) : Prop := c < 0x20 ∨ (uesc = true ∧ 0x7F ≤ c)

instance (uesc : Bool) (c : Nat) : Decidable (Escaped uesc c) := by unfold Escaped; infer_instance

/-- One character of a string literal. -/
def charText (uesc : Bool) (enc : Nat → List Nat) (c : Nat) : List Nat :=
  match shortEscape c with
  | some e => [0x5C, e]
  | none => if Escaped uesc c then uniEscape c else enc c

/-- What the text depends on. -/
structure Printer (F : Type) where
  style : Style
  uesc : Bool
  enc : Nat → List Nat
  txt : List Nat → List Nat
  num : Int → List Nat
  flt : F → List Nat

variable {F : Type} (P : Printer F)

/-- A string literal. -/
def Printer.literal (s : List Nat) : List Nat :=
  0x22 :: (P.txt s).flatMap (charText P.uesc P.enc) ++ [0x22]

/-- The inside of an array or object at depth `d` with the given items. -/
def Printer.items (d : Nat) : List (List Nat) → List Nat
  | [] => []
  | [t] => P.style.indent d ++ t
  | t :: ts => P.style.indent d ++ t ++ [0x2C] ++ P.style.nl ++ Printer.items d ts

/-- An array or object at depth `d`. -/
def Printer.block (d : Nat) (op cl : Nat) (ts : List (List Nat)) : List Nat :=
  [op] ++ (if ts = [] then [] else P.style.nl ++ P.items (d + 1) ts) ++ P.style.nl ++ P.style.indent d ++ [cl]

mutual
/-- The text of a value at depth `d`. -/
def Printer.text (d : Nat) : Value F → List Nat
  | .null => [0x6E, 0x75, 0x6C, 0x6C]
  | .bool true => [0x74, 0x72, 0x75, 0x65]
  | .bool false => [0x66, 0x61, 0x6C, 0x73, 0x65]
  | .int i => P.num i
  | .flt f => P.flt f
  | .str s => P.literal s
  | .arr xs => P.block d 0x5B 0x5D (Printer.texts (d + 1) xs)
  | .obj ms => P.block d 0x7B 0x7D (Printer.members (d + 1) ms)

/-- The texts of the elements of an array. -/
def Printer.texts (d : Nat) : List (Value F) → List (List Nat)
  | [] => []
  | x :: xs => Printer.text d x :: Printer.texts d xs

/-- The texts of the members of an object. -/
def Printer.members (d : Nat) : List (List Nat × Value F) → List (List Nat)
  | [] => []
  | (k, v) :: ms => (P.literal k ++ [0x3A] ++ P.style.space ++ Printer.text d v) :: Printer.members d ms
end

/-! ## Tokens -/

mutual
/-- The tokens of a value. -/
def Printer.toks : Value F → List (List Nat)
  | .null => [[0x6E, 0x75, 0x6C, 0x6C]]
  | .bool true => [[0x74, 0x72, 0x75, 0x65]]
  | .bool false => [[0x66, 0x61, 0x6C, 0x73, 0x65]]
  | .int i => [P.num i]
  | .flt f => [P.flt f]
  | .str s => [P.literal s]
  | .arr xs => [0x5B] :: Printer.elemToks xs ++ [[0x5D]]
  | .obj ms => [0x7B] :: Printer.memberToks ms ++ [[0x7D]]

/-- The tokens of the elements of an array. -/
def Printer.elemToks : List (Value F) → List (List Nat)
  | [] => []
  | x :: xs => Printer.toks x ++ (if xs.isEmpty then [] else [[0x2C]]) ++ Printer.elemToks xs

/-- The tokens of the members of an object. -/
def Printer.memberToks : List (List Nat × Value F) → List (List Nat)
  | [] => []
  | (k, v) :: ms => [P.literal k, [0x3A]] ++ Printer.toks v ++ (if ms.isEmpty then [] else [[0x2C]]) ++ Printer.memberToks ms
end

/-- The text consists of the tokens with gaps `G` before, between and behind them. -/
inductive Spaced (G : List Nat → Prop) : List (List Nat) → List Nat → Prop where
  | nil {g} : G g → Spaced G [] g
  | cons {g t ts l} : G g → Spaced G ts l → Spaced G (t :: ts) (g ++ t ++ l)

/-- Blanks, tabs and line ends. -/
def Blanks (g : List Nat) : Prop := ∀ c ∈ g, c = 0x20 ∨ c = 0x09 ∨ c = 0x0A ∨ c = 0x0D

/-- `f` is a floating point number somewhere in the value. -/
inductive HasFloat : Value F → F → Prop where
  | flt {f} : HasFloat (.flt f) f
  | elem {xs x f} : x ∈ xs → HasFloat x f → HasFloat (.arr xs) f
  | member {ms k v f} : (k, v) ∈ ms → HasFloat v f → HasFloat (.obj ms) f

mutual
/-- The value with `g f` in the place of every float `f`. -/
def withFloats (g : F → Value F) : Value F → Value F
  | .null => .null
  | .bool b => .bool b
  | .int i => .int i
  | .flt f => g f
  | .str s => .str s
  | .arr xs => .arr (withFloatsElems g xs)
  | .obj ms => .obj (withFloatsMembers g ms)

/-- The same for the elements of an array. -/
def withFloatsElems (g : F → Value F) : List (Value F) → List (Value F)
  | [] => []
  | x :: xs => withFloats g x :: withFloatsElems g xs

/-- The same for the members of an object. -/
def withFloatsMembers (g : F → Value F) : List (List Nat × Value F) → List (List Nat × Value F)
  | [] => []
  | (k, v) :: ms => (k, withFloats g v) :: withFloatsMembers g ms
end

/-- `i` is an integer somewhere in the value. -/
inductive HasInt : Value F → Int → Prop where
  | int {i} : HasInt (.int i) i
  | elem {xs x i} : x ∈ xs → HasInt x i → HasInt (.arr xs) i
  | member {ms k v i} : (k, v) ∈ ms → HasInt v i → HasInt (.obj ms) i

/-- `u` is the value or stands somewhere in it. -/
inductive Within : Value F → Value F → Prop where
  | refl {v} : Within v v
  | elem {xs x u} : x ∈ xs → Within x u → Within (.arr xs) u
  | member {ms k v u} : (k, v) ∈ ms → Within v u → Within (.obj ms) u

/-- The keys of every object in the value increase strictly, as in every `std::map`. -/
def KeysSorted (v : Value F) : Prop := ∀ ms, Within v (.obj ms) → ms.Pairwise fun a b => a.1 < b.1

/-! ## What a call can write -/

/-- A code point the call can write: escaped, or in the target encoding. -/
def Writable (A : DumpArgs F) (c : Nat) : Prop :=
  shortEscape c ≠ none ∨ Escaped A.uesc c ∨ storeWith (A.te.encode A.tw) [c] ≠ none

/-- A string the call can write: the source encoding can decode it and its code points can be
written. -/
def Fine (A : DumpArgs F) (s : List Nat) : Prop :=
  ∃ cps, ReadsAs (A.se.decode A.sw (strSBuf A.sw)) (onString s) cps ∧ ∀ c ∈ cps, Writable A c

/-- A floating point number the call can write: if it has no fraction it is within the range of
`int64_t`. -/
def FloatOk (A : DumpArgs F) (f : F) : Prop := A.fo.isIntegral f = true → ∃ i, A.fo.toI64 f = some i

/-- A code point that `json::parse` reads back: no control characters but those with a short
escape and, if Unicode is escaped, nothing from U+007F to U+0FFF, whose escapes have too few
digits. -/
def Rereadable (uesc : Bool) (c : Nat) : Prop :=
  IsScalar c ∧ (shortEscape c ≠ none ∨ (0x20 ≤ c ∧ (uesc = true → c < 0x7F ∨ 0x1000 ≤ c)))

end Spec
