import Verif.Spec.Size
import Verif.Model.Dbl
/-! # How long the text of a double can be -/
namespace Spec
open Configor (Dbl)

/-- Room for a double. A whole number takes 22 characters at most, as an integer with `.0`. Any other is below 2^52, so it takes a sign,
16 digits, a point and the `p` digits asked for in fixed style, and a sign, `p + 1` digits, a point and an exponent of up to five characters
in scientific style. In the default style there are at least one and at most `p` significant digits; besides the exponent, up to four zeros
after the point can be added. -/
def doubleRoom : Dbl.Style → Nat
  | .general p => max 22 (max p 1 + 7)
  | .fixed p => max 22 (p + 18)
  | .scientific p => max 22 (p + 8)

end Spec
