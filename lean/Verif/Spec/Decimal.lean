import Verif.Spec.Rfc8259
import Verif.Model.Dbl
import Verif.Model.Value
import Mathlib.Algebra.Order.Field.Rat
/-!
# The numbers that literals and doubles denote
-/
namespace Spec
open Configor (FloatOps Dbl)

/-- The exponent of a literal. -/
def Rfc.Lit.exponent (n : Rfc.Lit) : ℤ :=
  match n.exp with
  | none => 0
  | some (_, s, ds) => if s = some 0x2D then -(Rfc.decimal ds : ℤ) else Rfc.decimal ds

/-- The number of digits behind the point. -/
def Rfc.Lit.fracDigits (n : Rfc.Lit) : ℕ :=
  match n.frac with
  | none => 0
  | some ds => ds.length

/-- The number a literal denotes without its exponent and sign: `12.34` is 12 + 34/100. -/
def Rfc.Lit.mantissa (n : Rfc.Lit) : ℚ :=
  Rfc.decimal n.int + (match n.frac with | none => 0 | some ds => (Rfc.decimal ds : ℚ) / 10 ^ ds.length)

/-- The number a literal denotes. -/
def Rfc.Lit.exact (n : Rfc.Lit) : ℚ := (if n.minus then -1 else 1) * n.mantissa * 10 ^ n.exponent

/-- Arithmetic without rounding. -/
structure ExactOps (fo : FloatOps ℚ) : Prop where
  ofInt : ∀ i : ℤ, fo.ofInt i = i
  add : ∀ a b, fo.add a b = a + b
  mul : ∀ a b, fo.mul a b = a * b
  neg : ∀ a, fo.neg a = -a
  tenth : fo.tenth = 1 / 10

/-- The number a finite double denotes. -/
def dblValue : Dbl → Option ℚ
  | .fin a k => some ((if a then -1 else 1) * (k : ℚ) / 2 ^ 1074)
  | _ => none

/-- The number that an integer or a finite double is. -/
def numValue : Configor.Value Dbl → Option ℚ
  | .int i => some i
  | .flt f => dblValue f
  | _ => none

end Spec
