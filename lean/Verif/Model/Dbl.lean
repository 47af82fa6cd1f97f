import Verif.Model.Float
import Verif.Model.Serializer
/-!
# `double`

IEEE 754 binary64 with rounding to nearest, ties to even (configor.hpp: `float_type` is `double`), and
the formatting of `std::ostream`. A finite number is kept as a whole number of units of 2^-1074, the smallest
positive double, with a sign. The ABI: x86-64, where `double` arithmetic is not done in a wider type.
-/
namespace Configor

/-- A double. `fin neg k` is `k · 2^-1074`, or its opposite; there are two zeros. All NaNs are one.
`float_type` is `double`, configor.hpp:41. -/
inductive Dbl where
  | nan
  | inf (neg : Bool)
  | fin (neg : Bool) (k : Nat)
  deriving DecidableEq

namespace Dbl

/-- One, in units. For configor.hpp:41. -/
@[irreducible] def one : Nat := 2 ^ 1074

/-- The first power of two that is too large, in units: 2^1024. For configor.hpp:41. -/
@[irreducible] def huge : Nat := 2 ^ 2098

/-- The whole number nearest to `n / d`, ties to even.
Rounding of `double` arithmetic, configor.hpp:41. -/
def nearest (n d : Nat) : Nat :=
  if 2 * (n % d) < d ∨ (2 * (n % d) = d ∧ n / d % 2 = 0) then n / d else n / d + 1

/-- The distance of the doubles around a number of units: 53 significant bits, but no less than a unit.
For configor.hpp:41. -/
def ulp (q : Nat) : Nat := 2 ^ (Nat.log2 q - 52)

/-- `n / d` units, rounded to 53 significant bits. For configor.hpp:41. -/
def roundUnits (n d : Nat) : Nat := nearest n (d * ulp (n / d)) * ulp (n / d)

/-- The double nearest to `n / d` units, or its opposite. For configor.hpp:41. -/
def round (neg : Bool) (n d : Nat) : Dbl :=
  if roundUnits n d < huge then .fin neg (roundUnits n d) else .inf neg

/-- Conversion of an integer. Used at json.hpp:533, 544, 555. -/
def ofInt (i : Int) : Dbl := round (decide (i < 0)) (i.natAbs * one) 1

/-- The number of units, with its sign. For configor.hpp:41. -/
def units (neg : Bool) (k : Nat) : Int := if neg then -(k : Int) else k

/-- Addition. Used at json.hpp:544, 555. -/
def add : Dbl → Dbl → Dbl
  | .nan, _ => .nan
  | _, .nan => .nan
  | .inf a, .inf b => if a = b then .inf a else .nan
  | .inf a, .fin _ _ => .inf a
  | .fin _ _, .inf b => .inf b
  | .fin a k, .fin b l =>
    if units a k + units b l = 0 then .fin (a && b) 0
    else round (decide (units a k + units b l < 0)) (units a k + units b l).natAbs 1

/-- Multiplication. Used at json.hpp:544, 554, 555, 595, 597. -/
def mul : Dbl → Dbl → Dbl
  | .nan, _ => .nan
  | _, .nan => .nan
  | .inf a, .inf b => .inf (a != b)
  | .inf a, .fin b l => if l = 0 then .nan else .inf (a != b)
  | .fin a k, .inf b => if k = 0 then .nan else .inf (a != b)
  | .fin a k, .fin b l => round (a != b) (k * l) one

/-- The opposite. Used at json.hpp:171. -/
def neg : Dbl → Dbl
  | .nan => .nan
  | .inf a => .inf !a
  | .fin a k => .fin (!a) k

/-- The literal `0.1`. json.hpp:543, 554, 582. -/
def tenth : Dbl := round false one 10

/-- `==`. Used at value.hpp:821-854. -/
def eq : Dbl → Dbl → Bool
  | .inf a, .inf b => a == b
  | .fin a k, .fin b l => units a k == units b l
  | _, _ => false

/-- `<`. Used at value.hpp:889-933. -/
def lt : Dbl → Dbl → Bool
  | .inf a, .inf b => a && !b
  | .inf a, .fin _ _ => a
  | .fin _ _, .inf b => !b
  | .fin a k, .fin b l => units a k < units b l
  | _, _ => false

/-- `std::ceil(f) == std::floor(f)`. json.hpp:865. -/
def isIntegral : Dbl → Bool
  | .nan => false
  | .inf _ => true
  | .fin _ k => k % one == 0

/-- `static_cast<int64_t>(f)`: undefined if the number without its fraction does not fit.
json.hpp:868. -/
def toI64 : Dbl → Option Int
  | .fin a k =>
    if -9223372036854775808 ≤ units a (k / one) ∧ units a (k / one) ≤ 9223372036854775807 then some (units a (k / one)) else none
  | _ => none

/-! ## Formatting -/

/-- How a stream writes floats: its `precision()` and `flags() & floatfield`, where hexadecimal is ruled out by
json.hpp:731-735. -/
inductive Style where
  | general (p : Nat)
  | fixed (p : Nat)
  | scientific (p : Nat)

/-- The last `n` digits of a number. For json.hpp:872. -/
def lastDigits : Nat → Nat → List Nat
  | 0, _ => []
  | n + 1, v => lastDigits n (v / 10) ++ [0x30 + v % 10]

/-- The digits of a number. For json.hpp:872. -/
def natText (v : Nat) : List Nat := (digits 10 v).map digitChar

/-- `v / 10^p` with `p` digits after the point. For json.hpp:872. -/
def pointed (p v : Nat) : List Nat :=
  natText (v / 10 ^ p) ++ (if p = 0 then [] else 0x2E :: lastDigits p v)

/-- `e+05` and the like: a sign and at least two digits. For json.hpp:872. -/
def exponentText (x : Int) : List Nat :=
  0x65 :: (if x < 0 then 0x2D else 0x2B) :: (if x.natAbs < 10 then lastDigits 2 x.natAbs else natText x.natAbs)

/-- The decimal exponent of a positive number of units: the largest `x` with `10^x` not above the number.
For json.hpp:872. -/
def exponent10 (k : Nat) : Int :=
  if one ≤ k then ((natText (k / one)).length : Int) - 1
  else -((natText ((one - 1) / k)).length : Int)

/-- `k` units divided by `10^(x - p)`, rounded to a whole number. For json.hpp:872. -/
def scaled (k : Nat) (p : Nat) (x : Int) : Nat :=
  if (p : Int) < x then nearest k (one * 10 ^ (x - p).toNat) else nearest (k * 10 ^ (p - x).toNat) one

/-- `p + 1` significant digits and the exponent of the first. For json.hpp:872. -/
def significant (p k : Nat) : Nat × Int :=
  if k = 0 then (0, 0)
  else if scaled k p (exponent10 k) = 10 ^ (p + 1) then (10 ^ p, exponent10 k + 1)
  else (scaled k p (exponent10 k), exponent10 k)

/-- A text with a point, without zeros at the end of its fraction and without a point at its end.
For json.hpp:872. -/
def stripped (t : List Nat) : List Nat :=
  if 0x2E ∈ t then
    let u := (t.reverse.dropWhile (· == 0x30))
    (if u.head? = some 0x2E then u.tail else u).reverse
  else t

/-- `printf` of a number without its sign: `%.pf`, `%.pe` and `%.pg`. For json.hpp:872. -/
def magnitude (k : Nat) : Style → List Nat
  | .fixed p => pointed p (nearest (k * 10 ^ p) one)
  | .scientific p => pointed p (significant p k).1 ++ exponentText (significant p k).2
  | .general p =>
    let q := (if p = 0 then 1 else p) - 1
    let (d, x) := significant q k
    if x < -4 ∨ (q : Int) < x then stripped (pointed q d) ++ exponentText x
    else stripped (pointed ((q : Int) - x).toNat d)

/-- `os << f`, with a point as the decimal point. The sign of a NaN is not kept. json.hpp:872. -/
def fmt (st : Style) : Dbl → List Nat
  | .nan => [0x6E, 0x61, 0x6E]
  | .inf a => (if a then [0x2D] else []) ++ [0x69, 0x6E, 0x66]
  | .fin a k => (if a then [0x2D] else []) ++ magnitude k st

/-- `double` as `float_type`, written in the given style. configor.hpp:41, json.hpp:680-687. -/
def ops (st : Style) : FloatOps Dbl where
  ofInt := ofInt
  add := add
  mul := mul
  neg := neg
  tenth := tenth
  isIntegral := isIntegral
  toI64 := toI64
  fmt := fmt st
  eq := eq
  lt := lt

/-- A number of units that a double can have: 53 significant bits, below 2^1024.
For configor.hpp:41. -/
def Representable (k : Nat) : Prop := k < huge ∧ ulp k ∣ k

/-- The values of type `double`. configor.hpp:41. -/
def Valid : Dbl → Prop
  | .fin _ k => Representable k
  | _ => True

end Dbl
end Configor
