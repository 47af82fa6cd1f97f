import Verif.Proofs.Tested
import Verif.Props.DumpHeap
/-!
# What has arrived when a call of `dump` returns: C99 and C139, the part that holds

`A.printer'.text 0 v` is the text of `v` (C36). `A.printer'.marked 0 v` is the same text with a mark at each character that stands for a
character of a string or key, other than the short escapes.
-/
set_option autoImplicit false
namespace Configor.Props
open Spec

variable {F : Type}

/-- The marked text is the text that `dump` writes. -/
theorem marked_text (A : DumpArgs F) (v : Value F) : (A.printer'.marked 0 v).map Prod.fst = A.printer'.text 0 v := marked_fst v 0

/-- C99, the part that holds, for every buffer and every value. When dumping ends normally, then the buffer has taken a beginning of the
text that ends after the last character of all strings and keys, or later: nothing but punctuation, numbers, literals, layout, quotes and
short escapes is lost. Missing: that those are not lost, for which the property is false. -/
theorem C99_arrived_partial (A : DumpArgs F) (K : Sink) (v : Value F) (hr : (jsonDumpTo A K none v).1 = .ok ()) :
    MarkedArrived (A.printer'.marked 0 v) (jsonDumpTo A K none v).2.1 :=
  dumpTo_arrived (prints_printer' A) K v hr

example : jsonDumpTo (dumpArgs false false 0 0x20) (room 4) none (.arr [.str (ascii "ab"), .int 12]) = (.ok (), ascii "[\"ab", true) ∧
    (dumpArgs false false 0 0x20).printer'.marked 0 (.arr [.str (ascii "ab"), .int 12]) =
      tagged false (ascii "[\"") ++ tagged true (ascii "ab") ++ tagged false (ascii "\",12]") := by decide +kernel

/-- C99, the part that holds: a loss that concerns a character of a string or key is reported. -/
theorem C99_reported_partial (A : DumpArgs F) (K : Sink) (v : Value F) (hok : (jsonDump A none [] v).1 = .ok ()) (i c : Nat)
    (hm : (A.printer'.marked 0 v)[i]? = some (c, true)) (hi : (jsonDumpTo A K none v).2.1.length ≤ i) :
    (jsonDumpTo A K none v).1 = .error (.exn .serialization) := by
  have lost : (jsonDumpTo A K none v).1 ≠ .ok () := by
    intro hr
    obtain ⟨a, b, h1, h2, h3⟩ := C99_arrived_partial A K v hr
    rw [h2, List.length_map] at hi
    rw [h1, List.getElem?_append_right hi] at hm
    have := h3 _ (List.mem_of_getElem? hm)
    cases this
  rcases C114_end A K none v with h | h | ⟨_, hd, h, _⟩
  · rw [hok] at h; exact absurd h lost
  · exact h
  · cases h

example : (jsonDumpTo (dumpArgs false true 2 0x20) (room 12) none (.obj [(ascii "a", .null), (ascii "b", .null)])).1 =
    .error (.exn .serialization) ∧
    (jsonDumpTo (dumpArgs false true 2 0x20) (room 12) none (.obj [(ascii "a", .null), (ascii "b", .null)])).2.1.length = 12 ∧
    ((dumpArgs false true 2 0x20).printer'.marked 0 (.obj [(ascii "a", .null), (ascii "b", .null)]))[18]? = some (0x62, true) := by decide +kernel

/-- C139, partial: when dumping to a string returns, whatever allocations failed, the text has arrived up to the last character of all
strings and keys at least. -/
theorem C139_arrived_partial (A : DumpArgs F) (Y : DumpMemory) (str : List Nat) (v : Value F) (hr : (jsonDumpMem A Y none str v).1 = .ok ()) :
    ∃ t, (jsonDumpMem A Y none str v).2 = str ++ t ∧ MarkedArrived (A.printer'.marked 0 v) t := by
  rcases dumpMem_near A Y none str v with e | ⟨_, _, h1 | ⟨_, hd, h2, _⟩⟩
  · have e1 : (jsonDumpMem A Y none str v).1 = (jsonDumpTo A Y.sink none v).1 := congrArg Prod.fst e
    exact ⟨_, congrArg Prod.snd e, C99_arrived_partial A Y.sink v (e1 ▸ hr)⟩
  · exact absurd (h1.symm.trans hr) (by simp)
  · cases h2

example : jsonDumpMem (dumpArgs false false 0 0x20) (memoryFor 8) none (ascii "x=") (.obj [(ascii "ab", .str []), (ascii "c", .null)]) =
    (.error (.exn .serialization), ascii "x={\"ab\":\"\"") ∧
    jsonDumpMem (dumpArgs false false 0 0x20) (memoryFor 11) none (ascii "x=") (.obj [(ascii "ab", .str []), (ascii "c", .null)]) =
    (.ok (), ascii "x={\"ab\":\"\",\"c") := by decide +kernel

end Configor.Props
