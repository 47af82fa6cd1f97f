import Verif.Proofs.DumpHeap
import Verif.Props.Sink
/-!
# Dumping to a string when memory runs out
-/
set_option autoImplicit false
namespace Configor.Props
open Spec

variable {F : Type}

/-! ## C139 -/

/-- C139 is false: memory for three characters, and `json::dump` of `[12,null]` returns `[12` without an exception. The exception of the
string's buffer ends in the `ostream`, whose state is tested only after characters of strings. -/
theorem C139_violated :
    jsonDumpMem (dumpArgs false false 0 0x20) (memoryFor 3) none [] (.arr [.int 12, .null]) = (.ok (), ascii "[12") ∧
    jsonDump (dumpArgs false false 0 0x20) none [] (.arr [.int 12, .null]) = (.ok (), ascii "[12,null]") := by decide +kernel

/-- C139, partial: whatever allocations fail, the string keeps its old content, and what is added is a beginning of the text. Missing: that
a call that returns has written all of it, which is false. -/
theorem C139_prefix_partial (A : DumpArgs F) (Y : DumpMemory) (h : Option Handler) (str : List Nat) (v : Value F) :
    ∃ t, (jsonDumpMem A Y h str v).2 = str ++ t ∧ t <+: (jsonDump A h [] v).2 := by
  have hp := (C114_prefix A Y.sink h v).1
  rcases dumpMem_near A Y h str v with e | ⟨_, ⟨u, h1, h2⟩, _⟩
  · exact ⟨_, congrArg Prod.snd e, hp⟩
  · exact ⟨u, h2, h1.trans hp⟩

example : jsonDumpMem (dumpArgs false true 2 0x20) ⟨true, fun _ _ => true, fun _ _ => false, fun _ => true⟩ none (ascii "x=")
    (.arr [.arr [.arr [.arr [.arr [.int 1]]]]]) = (.error (.exn .badAlloc), ascii "x=[\n  [\n    [\n      [\n        [") := by decide +kernel

/-- C139, partial: with enough memory the call does what it does without this care. -/
theorem C139_enough_partial (A : DumpArgs F) (Y : DumpMemory) (hY : Y.Ample) (h : Option Handler) (str : List Nat) (v : Value F) :
    jsonDumpMem A Y h str v = ((jsonDump A h [] v).1, str ++ (jsonDump A h [] v).2) := by
  have hc := C114_complete A Y.sink (ample_takes hY) h v
  simp only at hc
  rcases dumpMem_near A Y h str v with e | ⟨h1, _⟩
  · have e : jsonDumpMem A Y h str v = _ := e
    rw [e, ← hc]
  · exact absurd hY h1

example : (⟨true, fun _ _ => true, fun _ _ => true, fun _ => true⟩ : DumpMemory).Ample := ⟨rfl, fun _ _ => rfl, fun _ _ => rfl, fun _ => rfl⟩

/-- C139, partial: the call ends as it does with enough memory, or with `std::bad_alloc` or a serialization error, or normally because the
handler swallowed one of these. It is never undefined for lack of memory. -/
theorem C139_end_partial (A : DumpArgs F) (Y : DumpMemory) (h : Option Handler) (str : List Nat) (v : Value F) :
    let r := jsonDumpMem A Y h str v
    r.1 = (jsonDump A h [] v).1 ∨ r.1 = .error (.exn .badAlloc) ∨ r.1 = .error (.exn .serialization) ∨
      (r.1 = .ok () ∧ ∃ hd e, h = some hd ∧ (e = .badAlloc ∨ e = .serialization) ∧ hd.swallows e = true) := by
  rcases dumpMem_near A Y h str v with e | ⟨_, _, h1 | ⟨h1, hd, h2, h3⟩⟩
  · have e : (jsonDumpMem A Y h str v).1 = _ := congrArg Prod.fst e
    simp only
    rw [e]
    rcases C114_end A Y.sink h v with h1 | h1 | ⟨h1, hd, h2, h3⟩
    · exact .inl h1
    · exact .inr (.inr (.inl h1))
    · exact .inr (.inr (.inr ⟨h1, hd, _, h2, .inr rfl, h3⟩))
  · exact .inr (.inl h1)
  · exact .inr (.inr (.inr ⟨h1, hd, _, h2, .inl rfl, h3⟩))

example : (jsonDumpMem (dumpArgs false false 0 0x20) (memoryFor 3) none [] (.str (ascii "abc"))).1 = .error (.exn .serialization) ∧
    (jsonDumpMem (dumpArgs false false 0 0x20) { memoryFor 3 with message := fun _ => false } none [] (.str (ascii "abc"))).1 = .error (.exn .badAlloc) := by
  decide +kernel

/-- C139, partial: when dumping a string returns, at most a tail of short escapes and the closing quote is lost. -/
theorem C139_string_partial (A : DumpArgs F) (hA : A.pretty = false) (Y : DumpMemory) (str s : List Nat)
    (hr : (jsonDumpMem A Y none str (.str s)).1 = .ok ()) :
    ∃ t, (jsonDumpMem A Y none str (.str s)).2 = str ++ t ∧ Lost EscChar (jsonDump A none [] (.str s)).2 t := by
  rcases dumpMem_near A Y none str (.str s) with e | ⟨_, _, h1 | ⟨_, hd, h2, _⟩⟩
  · have e1 : (jsonDumpMem A Y none str (.str s)).1 = (jsonDumpTo A Y.sink none (.str s)).1 := congrArg Prod.fst e
    exact ⟨_, congrArg Prod.snd e, C99_string_any_buffer_partial A hA Y.sink s (e1 ▸ hr)⟩
  · exact absurd (h1.symm.trans hr) (by simp)
  · cases h2

example : jsonDumpMem (dumpArgs false false 0 0x20) (memoryFor 4) none [] (.str (ascii "abc\t")) = (.ok (), ascii "\"abc") := by decide +kernel

end Configor.Props
