import Verif.Proofs.DumpPlain
import Verif.Props.DumpHeap
/-!
# When the memory for the indentation does not matter
-/
set_option autoImplicit false
namespace Configor.Props
open Spec

variable {F : Type}

/-! ## C139 -/

/-- C139, partial: without an indentation character, without indentation, or for values that nest at most four deep, what a dump does and
writes does not depend on whether the indentation string can grow: nothing is allocated for it. -/
theorem C139_indent_partial (A : DumpArgs F) (Y : DumpMemory) (grows : List Nat → Nat → Bool) (h : Option Handler) (str : List Nat) (v : Value F)
    (hA : A.ch = 0 ∨ (A.step = 0 ∧ A.pretty = false) ∨ (A.step ≠ 0 ∧ nest v ≤ 4)) :
    jsonDumpMem A Y h str v = jsonDumpMem A { Y with indent := grows } h str v := by
  refine dumpMem_like (Y := Y) (Z := { Y with indent := grows }) ?_ rfl rfl rfl h str v ?_
  · rcases hA with h | ⟨_, h⟩ | ⟨h, _⟩
    · exact .inl h
    · exact .inr (.inr h)
    · exact .inr (.inl h)
  · rcases hA with h | ⟨h, _⟩ | ⟨_, h⟩
    · exact .inl h
    · exact .inr (.inl h)
    · exact .inr (.inr h)

/-- Four deep nothing is allocated for the indentation, five deep it is; and with an indentation of `0` it is for the space behind a colon. -/
example :
    let Y : DumpMemory := ⟨true, fun _ _ => true, fun _ _ => false, fun _ => true⟩
    jsonDumpMem (dumpArgs false true 1 0x20) Y none [] (.arr [.arr [.arr [.arr []]]]) = (.ok (), ascii "[\n [\n  [\n   [\n   ]\n  ]\n ]\n]") ∧
    jsonDumpMem (dumpArgs false true 1 0x20) Y none [] (.arr [.arr [.arr [.arr [.arr []]]]]) =
      (.error (.exn .badAlloc), ascii "[\n [\n  [\n   [\n    [") ∧
    jsonDumpMem (dumpArgs false true 0 0x20) Y none [] (.obj [(ascii "a", .null)]) = (.error (.exn .badAlloc), ascii "{\n\"a\":") ∧
    jsonDumpMem (dumpArgs false false 0 0x20) Y none [] (.arr [.arr [.arr [.arr [.arr []]]]]) = (.ok (), ascii "[[[[[]]]]]") := by decide +kernel

end Configor.Props
