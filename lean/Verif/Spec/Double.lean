import Verif.Model.Dbl
import Verif.Spec.Rfc8259
/-!
# What a double denotes
-/
namespace Spec
open Configor (Dbl)

/-- The double is the whole number `i`: its units of 2^-1074 make up `i`. Both zeros are 0. -/
def Whole : Dbl → Int → Prop
  | .fin a k, i => (if a then -(k : Int) else k) = i * (Dbl.one : Int)
  | _, _ => False

/-- `-0.0` -/
def NegZero (f : Dbl) : Prop := f = .fin true 0

/-- The double lies nearer to the positive number `n / d` than another one does. -/
def Nearer (n d : Nat) : Dbl → Dbl → Prop
  | .fin a k, .fin b l =>
    ((if a then -(k : Int) else k) * d - n * (Dbl.one : Int)).natAbs < ((if b then -(l : Int) else l) * d - n * (Dbl.one : Int)).natAbs
  | _, _ => False

instance (n d : Nat) : ∀ f g, Decidable (Nearer n d f g)
  | .fin a k, .fin b l => by unfold Nearer; infer_instance
  | .fin _ _, .nan => isFalse (by simp [Nearer])
  | .fin _ _, .inf _ => isFalse (by simp [Nearer])
  | .nan, _ => isFalse (by simp [Nearer])
  | .inf _, _ => isFalse (by simp [Nearer])

/-- A double that does not fit `int64_t`: an infinity or a whole number out of range. -/
def OutOfRange (f : Dbl) : Prop :=
  (∃ a, f = .inf a) ∨ ∃ i, Whole f i ∧ (i < -9223372036854775808 ∨ 9223372036854775807 < i)

/-- The text of a whole number: a sign, its decimal digits without leading zeros, and `.0`. -/
def WholeText (i : Int) (t : List Nat) : Prop :=
  ∃ ds, t = (if i < 0 then [0x2D] else []) ++ ds ++ [0x2E, 0x30] ∧ ds ≠ [] ∧ (∀ d ∈ ds, Rfc.Digit d) ∧
    Rfc.decimal ds = i.natAbs ∧ (i ≠ 0 → ds.head? ≠ some 0x30)

end Spec
