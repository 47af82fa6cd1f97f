import Verif.Spec.Height
import Verif.Spec.Dump
/-! # How long the text of a value can be -/
namespace Spec
open Configor (Value FloatOps)

variable {F : Type}

mutual
/-- Room for the text of a value without line ends and indentation, if a unit of a string needs at most `m` characters and a floating
point number at most `w`: two characters for quotes or brackets, one for a comma, two for a colon with a blank. -/
def textRoom (m w : Nat) : Value F → Nat
  | .null => 4
  | .bool _ => 5
  | .int _ => 20
  | .flt _ => w
  | .str s => 2 + m * s.length
  | .arr xs => 2 + roomElems m w xs
  | .obj ms => 2 + roomMembers m w ms

/-- The sum over the elements. -/
def roomElems (m w : Nat) : List (Value F) → Nat
  | [] => 0
  | x :: xs => textRoom m w x + 1 + roomElems m w xs

/-- The sum over the members. -/
def roomMembers (m w : Nat) : List (List Nat × Value F) → Nat
  | [] => 0
  | (k, x) :: ms => 2 + m * k.length + 2 + textRoom m w x + 1 + roomMembers m w ms
end

/-- A floating point number is written with at most `w` characters: those without a fraction as 64 bit integers with `.0`, which is 22
characters at most, the others as the output stream formats them. -/
structure FloatFits (fo : FloatOps F) (w : Nat) (f : F) : Prop where
  whole : fo.isIntegral f = true → 22 ≤ w ∧ ∀ i, fo.toI64 f = some i → -9223372036854775808 ≤ i ∧ i < 9223372036854775808
  other : fo.isIntegral f = false → (fo.fmt f).length ≤ w

end Spec
