import Verif.Model.Scalar
/-!
# What comparisons with numbers should say
-/
set_option autoImplicit false
namespace Spec
open Configor

/-- An exact number: minus infinity, a number of units of 2^-1074, or infinity. -/
inductive Amount where
  | low
  | units (n : Int)
  | high
  deriving DecidableEq

/-- Less, as numbers. -/
def Amount.Less : Amount → Amount → Prop
  | .low, .units _ => True
  | .low, .high => True
  | .units m, .units n => m < n
  | .units _, .high => True
  | _, _ => False

instance (a b : Amount) : Decidable (a.Less b) := by
  cases a <;> cases b <;> unfold Amount.Less <;> infer_instance

/-- The number that a double is; NaN is none. -/
def dblAmount : Dbl → Option Amount
  | .nan => none
  | .inf true => some .low
  | .inf false => some .high
  | .fin true k => some (.units (-k))
  | .fin false k => some (.units k)

/-- The number that an integer is. -/
def intAmount (i : Int) : Amount := .units (i * 2 ^ 1074)

/-- The number that a value holds, if it holds one. -/
def valueAmount : Value Dbl → Option Amount
  | .int i => some (intAmount i)
  | .flt f => dblAmount f
  | _ => none

/-- The number that a scalar is, if it is one. -/
def scalarAmount : Scalar → Option Amount
  | .int _ _ i => some (intAmount i)
  | .dbl f => dblAmount f
  | _ => none

/-- The relation that an operator stands for, where something that is not a number is in no relation to any but being different. -/
def CmpHolds : CmpOp → Option Amount → Option Amount → Prop
  | .eq, some a, some b => a = b
  | .ne, some a, some b => a ≠ b
  | .lt, some a, some b => a.Less b
  | .le, some a, some b => a.Less b ∨ a = b
  | .gt, some a, some b => b.Less a
  | .ge, some a, some b => b.Less a ∨ a = b
  | .ne, _, _ => True
  | _, _, _ => False

instance (op : CmpOp) (a b : Option Amount) : Decidable (CmpHolds op a b) := by
  cases op <;> cases a <;> cases b <;> unfold CmpHolds <;> infer_instance

/-- The scalar is a number of an arithmetic type other than `bool`. -/
def ScalarArith : Scalar → Prop
  | .int s w i => (w = 8 ∨ w = 16 ∨ w = 32 ∨ w = 64) ∧ if s then -2 ^ (w - 1) ≤ i ∧ i < 2 ^ (w - 1) else 0 ≤ i ∧ i < 2 ^ w
  | .dbl f => f.Valid
  | _ => False

/-- No integer is too large for a signed number of 64 bits. -/
def ScalarFits : Scalar → Prop
  | .int _ _ i => -2 ^ 63 ≤ i ∧ i < 2 ^ 63
  | _ => True

/-- If an integer is compared with a double, it has at most 53 bits. -/
def SmallIfMixed : Value Dbl → Scalar → Prop
  | .int i, .dbl _ => i.natAbs ≤ 2 ^ 53
  | .flt _, .int _ _ i => i.natAbs ≤ 2 ^ 53
  | _, _ => True

/-- A number of the value is one that a value can hold. -/
def HeldNumber : Value Dbl → Prop
  | .int i => -2 ^ 63 ≤ i ∧ i < 2 ^ 63
  | .flt f => f.Valid
  | _ => True

end Spec
