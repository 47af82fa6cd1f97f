import Verif.Proofs.Size
import Verif.Props.Dump
/-!
# How long the text of a value can be
-/
set_option autoImplicit false
namespace Configor.Props
open Spec

variable {F : Type}

theorem float_room {A : DumpArgs F} {w : Nat} {f : F} (h : FloatFits A.fo w f) (ho : FloatOk A f) : (A.printer'.flt f).length ≤ w := by
  cases hf : A.fo.isIntegral f with
  | false => rw [(prints_printer' A).flt f hf]; exact h.other hf
  | true =>
    obtain ⟨i, hi⟩ := ho hf
    have h1 := h.whole hf
    have h2 := decText_length (h1.2 i hi).1 (h1.2 i hi).2
    rw [(prints_printer' A).intFlt f i hf hi]
    simp
    omega

/-! ## C138 -/

/-- C138. On one line, the text of a value is not longer than its parts allow: 20 characters for an integer, four for each unit of a
string, or twelve with Unicode escapes, and so on (`textRoom`). -/
theorem C138_one_line (A : DumpArgs F) (hp : A.pretty = false) (w : Nat) (str r : List Nat) (v : Value F)
    (h : jsonDump A none str v = (.ok (), r)) (hi : ∀ i, HasInt v i → -9223372036854775808 ≤ i ∧ i < 9223372036854775808)
    (hf : ∀ f, HasFloat v f → FloatFits A.fo w f) : r.length ≤ str.length + textRoom (if A.uesc then 12 else 4) w v := by
  have := dump_length (w := w) h hi fun f hv => float_room (hf f hv) ((jsonDump_good h).1.2 f hv)
  simpa [hp] using this

example : jsonDump (dumpArgs true false 0 0) none [] (.arr [.str [0xF0, 0x9F, 0x98, 0x80], .int (-9223372036854775808)]) =
    (.ok (), ascii "[\"\\uD83D\\uDE00\",-9223372036854775808]") := by decide +kernel
example : textRoom 12 0 (.arr [.str [0xF0, 0x9F, 0x98, 0x80], .int (-9223372036854775808)] : Value Unit) = 74 := rfl
/-- A text that needs all of the room: nothing is left but the comma after the last element. -/
example : jsonDump (dumpArgs false false 0 0) none [] (.arr [.str [1, 2], .bool false]) = (.ok (), ascii "[\"\\u01\\u02\",false]") ∧
    textRoom 4 0 (.arr [.str [1, 2], .bool false] : Value Unit) = (ascii "[\"\\u01\\u02\",false]").length + 1 := by decide +kernel

/-- C138. With indentation, line ends and indentation add at most `1 + step * (height - 1)` characters before each value and before
each closing bracket, except before the first value: the text is bounded by the number of values times the height. -/
theorem C138_indented (A : DumpArgs F) (w : Nat) (str r : List Nat) (v : Value F)
    (h : jsonDump A none str v = (.ok (), r)) (hi : ∀ i, HasInt v i → -9223372036854775808 ≤ i ∧ i < 9223372036854775808)
    (hf : ∀ f, HasFloat v f → FloatFits A.fo w f) :
    r.length ≤ str.length + textRoom (if A.uesc then 12 else 4) w v + (2 * nodes v - 1) * (1 + A.step * (height v - 1)) := by
  have h1 := dump_length (w := w) h hi fun f hv => float_room (hf f hv) ((jsonDump_good h).1.2 f hv)
  have h2 : 1 ≤ nodes v := by cases v <;> simp [nodes]
  generalize 1 + A.step * (height v - 1) = W at *
  split at h1
  · have : 2 * nodes v * W = (2 * nodes v - 1) * W + W := by
      obtain ⟨n, hn⟩ : ∃ n, 2 * nodes v = n + 1 := ⟨2 * nodes v - 1, by omega⟩
      rw [hn]; simp [Nat.add_mul]
    omega
  · simp at h1
    omega

/-- For examples. -/
def twoParts : Value Unit := .arr [.arr [.null], .obj [([0x61], .int 1)]]

example : (jsonDump (dumpArgs false true 4 0x20) none [] twoParts).1 = .ok () ∧ (jsonDump (dumpArgs false true 4 0x20) none [] twoParts).2.length = 56 ∧
    textRoom 4 0 twoParts + (2 * nodes twoParts - 1) * (1 + 4 * (height twoParts - 1)) = 123 := by decide +kernel

end Configor.Props
