import Verif.Model.Convert
import Verif.Model.ValueOps
import Verif.Model.Dbl
/-!
# Comparison with scalars

The operators of value.hpp:856-1003 that take a value and a C++ scalar.
-/
namespace Configor

/-- A C++ scalar that can be compared with a value: `nullptr`, a `bool`, an integral number of `w` bits, a `double` (a `float` is
one of them; `long double` is not modelled), or a string literal, given by its units. Enumerations and other pointers are not
modelled. `_ScalarTy`, value.hpp:856-1003. -/
inductive Scalar where
  | null
  | bool (b : Bool)
  | int (signed : Bool) (w : Nat) (i : Int)
  | dbl (f : Dbl)
  | str (s : List Nat)

/-- `basic_value(x)`, value.hpp:81, 158-163 and conversion.hpp:55-86. -/
def Scalar.toValue : Scalar → Value Dbl
  | .null => .null
  | .bool b => .bool b
  | .int _ _ i => .int (Conv.castTo true 64 i)
  | .dbl f => .flt f
  | .str s => .str s

/-- A comparison operator. value.hpp:821-1003. -/
inductive CmpOp where
  | eq | ne | lt | le | gt | ge
  deriving DecidableEq

/-- The operator on two values. value.hpp:821-854, 870-873, 889-933, 949-952, 968-971, 987-990. -/
def CmpOp.run (fo : FloatOps Dbl) : CmpOp → Value Dbl → Value Dbl → Bool
  | .eq => Value.eq fo
  | .ne => Value.ne fo
  | .lt => Value.lt fo
  | .le => Value.le fo
  | .gt => Value.gt fo
  | .ge => Value.ge fo

/-- `v op x`. value.hpp:856-860, 875-879, 935-939, 954-958, 973-977, 992-996. -/
def CmpOp.valueScalar (fo : FloatOps Dbl) (op : CmpOp) (v : Value Dbl) (x : Scalar) : Bool := op.run fo v x.toValue

/-- `x op v`. value.hpp:862-866, 881-885, 941-945, 960-964, 979-983, 998-1002. -/
def CmpOp.scalarValue (fo : FloatOps Dbl) (op : CmpOp) (x : Scalar) (v : Value Dbl) : Bool := op.run fo x.toValue v

end Configor
