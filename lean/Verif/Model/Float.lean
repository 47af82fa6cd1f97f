/-!
# The floating point type as a parameter
-/
namespace Configor

/-- The operations on `float_type` (configor.hpp: `double`) the library uses.
Instances: exact rationals and IEEE binary64, see `Model/Dbl.lean`.
Used at json.hpp:529-599, 863-874, value.hpp:821-933 and conversion.hpp:71-75. -/
structure FloatOps (F : Type) where
  /-- conversion of an integer, json.hpp:533, 543, 553 -/
  ofInt : Int → F
  /-- json.hpp:543, 553 -/
  add : F → F → F
  /-- json.hpp:543, 552, 553, 594, 595, 597 -/
  mul : F → F → F
  /-- json.hpp:171 -/
  neg : F → F
  /-- `0.1`, json.hpp:542, 552, 583 -/
  tenth : F
  /-- `ceil(f) == floor(f)`, json.hpp:865 -/
  isIntegral : F → Bool
  /-- `static_cast<int64_t>(f)`, json.hpp:868; `none` is undefined behaviour -/
  toI64 : F → Option Int
  /-- `os << f` with the stream's precision and float flags, json.hpp:872 -/
  fmt : F → List Nat
  /-- `==`, value.hpp:841-852 -/
  eq : F → F → Bool
  /-- `<`, value.hpp:909-920 -/
  lt : F → F → Bool

end Configor
