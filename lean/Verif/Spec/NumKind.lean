import Verif.Spec.Values
import Verif.Model.Dbl
/-!
# Values made of numbers of both types
-/
set_option autoImplicit false
namespace Spec
open Configor

/-- The nesting of containers around numbers. -/
inductive NumKind where
  | num
  | arr (k : NumKind)
  | obj (k : NumKind)

/-- The value is made of numbers, integers up to 2^53 and doubles other than NaN, in containers nested alike. -/
inductive HasNumKind : NumKind → Value Dbl → Prop where
  | int {i : Int} : i.natAbs ≤ 9007199254740992 → HasNumKind .num (.int i)
  | flt {f : Dbl} : f ≠ .nan → HasNumKind .num (.flt f)
  | arr {k xs} : (∀ x ∈ xs, HasNumKind k x) → HasNumKind (.arr k) (.arr xs)
  | obj {k ms} : (∀ m ∈ ms, HasNumKind k m.2) → HasNumKind (.obj k) (.obj ms)

/-- A number of either type: an integer of 64 bits or a double other than NaN. -/
inductive AnyNumber : Value Dbl → Prop where
  | int {i : Int} : i.natAbs ≤ 9223372036854775808 → AnyNumber (.int i)
  | flt {f : Dbl} : f ≠ .nan → AnyNumber (.flt f)

end Spec
