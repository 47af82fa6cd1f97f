import Verif.Proofs.SizeDouble
import Verif.Props.Size
import Verif.Props.Float
/-!
# How long the text of a value with doubles can be
-/
set_option autoImplicit false
set_option exponentiation.threshold 2000
namespace Configor.Props
open Configor Spec

/-! ## C138 -/

/-- C138, for `double`. A whole number is written with 22 characters at most, any other double with as many as `doubleRoom` says; with
the default style and up to 15 digits that is 22, too. -/
theorem C138_double (A : DumpArgs Dbl) (st : Dbl.Style) (hA : A.fo = Dbl.ops st) (str r : List Nat) (v : Value Dbl)
    (h : jsonDump A none str v = (.ok (), r)) (hi : ∀ i, HasInt v i → -9223372036854775808 ≤ i ∧ i < 9223372036854775808)
    (hf : ∀ f, HasFloat v f → f.Valid) :
    r.length ≤ str.length + textRoom (if A.uesc then 12 else 4) (doubleRoom st) v +
      if A.pretty then (2 * nodes v - 1) * (1 + A.step * (height v - 1)) else 0 := by
  have hF : ∀ f, HasFloat v f → FloatFits A.fo (doubleRoom st) f := fun f hv => hA ▸ Dbl.double_fits st (hf f hv)
  by_cases hp : A.pretty = true
  · rw [if_pos hp]
    exact C138_indented A _ str r v h hi hF
  · rw [if_neg hp]
    exact C138_one_line A (by simpa using hp) _ str r v h hi hF

example : doubleRoom (.general 6) = 22 ∧ doubleRoom (.general 17) = 24 ∧ doubleRoom (.scientific 16) = 24 ∧ doubleRoom (.fixed 6) = 24 := by decide

/-- Doubles that need all of the room: -2^51 - 1/2 in fixed style, and the one below zero that is next to it in the others. -/
example : (Dbl.fmt (.fixed 6) (.fin true (2 ^ 51 * Dbl.one + Dbl.one / 2))) = ascii "-2251799813685248.500000" := by decide +kernel
example : (Dbl.fmt (.fixed 6) (.fin true (2 ^ 51 * Dbl.one + Dbl.one / 2))).length = doubleRoom (.fixed 6) := by decide +kernel
example : Dbl.fmt (.scientific 16) (.fin true 1) = ascii "-4.9406564584124654e-324" := by decide +kernel
example : Dbl.fmt (.general 17) (.fin true 1) = ascii "-4.9406564584124654e-324" := by decide +kernel
example : jsonDump (dblDump (.general 6)) none [] (.arr [.flt (.fin true (Dbl.one / 4)), .flt (.fin false Dbl.one)]) =
    (.ok (), ascii "[-0.25,1.0]") := by decide +kernel

end Configor.Props
