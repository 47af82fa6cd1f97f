import Verif.Proofs.Sink
import Verif.Props.Dump
import Verif.Props.Stream
set_option autoImplicit false
/-!
# Dumping to stream buffers that may refuse characters

A `Sink` is any stream buffer: it decides from all it has taken how many characters of the next block it takes. The
buffer of an output adapter is `adapterSink`.
-/
namespace Configor.Props
open Spec

variable {F : Type}

/-! ## C114 -/

/-- C114. What arrives in any stream buffer is the beginning of the text that dumping to a string gives. If nothing was
refused it is that text, and the call ends as it does for a string. -/
theorem C114_prefix (A : DumpArgs F) (K : Sink) (h : Option Handler) (v : Value F) :
    let r := jsonDumpTo A K h v
    let i := jsonDump A h [] v
    r.2.1 <+: i.2 ∧ (r.2.2 = false → r.1 = i.1 ∧ r.2.1 = i.2) := by
  rcases dumpTo_follows A K h v with ⟨h1, _⟩ | ⟨h1, h2, _⟩
  · have e1 : (jsonDumpTo A K h v).1 = (jsonDump A h [] v).1 := congrArg Prod.fst h1
    have e2 : (jsonDumpTo A K h v).2.1 = (jsonDump A h [] v).2 := congrArg Prod.snd h1
    exact ⟨⟨[], by rw [e2, List.append_nil]⟩, fun _ => ⟨e1, e2⟩⟩
  · refine ⟨h1.prefix, fun h => ?_⟩
    rw [h2] at h
    cases h

/-- C114. What arrives in any stream buffer, exactly: the whole text, after which the call ends as it does for a string, or the
text up to the first character that the buffer refuses. -/
theorem C114_exact (A : DumpArgs F) (K : Sink) (h : Option Handler) (v : Value F) :
    let r := jsonDumpTo A K h v
    let i := jsonDump A h [] v
    ((r.1, r.2.1) = i ∧ Took K i.2) ∨ (Stopped K i.2 r.2.1 ∧ r.2.2 = true) :=
  (dumpTo_follows A K h v).imp id fun h => ⟨h.1, h.2.1⟩

/-- C114. An output adapter gets exactly the characters before the first one that it throws at. If it throws at none then the
call ends as it does for a string. -/
theorem C114_adapter_exact (A : DumpArgs F) (thr : List Nat → Nat → Bool) (h : Option Handler) (v : Value F) :
    let r := jsonDumpTo A (adapterSink thr) h v
    let i := jsonDump A h [] v
    let n := adapterTakes thr [] i.2
    r.2.1 = i.2.take n ∧ (n = i.2.length → r.1 = i.1) ∧ (n < i.2.length → r.2.2 = true) := by
  rcases dumpTo_follows A (adapterSink thr) h v with ⟨h1, h2⟩ | ⟨h1, h2, _⟩
  · have e1 : (jsonDumpTo A (adapterSink thr) h v).1 = (jsonDump A h [] v).1 := congrArg Prod.fst h1
    have e2 : (jsonDumpTo A (adapterSink thr) h v).2.1 = (jsonDump A h [] v).2 := congrArg Prod.snd h1
    have := took_adapter h2
    refine ⟨?_, fun _ => e1, fun h => absurd h (by omega)⟩
    show (jsonDumpTo A (adapterSink thr) h v).2.1 = List.take (adapterTakes thr [] (jsonDump A h [] v).2) (jsonDump A h [] v).2
    rw [this, e2, List.take_length]
  · have := stopped_adapter h1
    exact ⟨this.1, fun h => by have := this.2; omega, fun _ => h2⟩

/-- C114. A buffer with room for `k` characters gets exactly the first `k` characters of the text. If there is room for the
whole text then the call ends as it does for a string. -/
theorem C114_room_exact (A : DumpArgs F) (k : Nat) (h : Option Handler) (v : Value F) :
    let r := jsonDumpTo A (room k) h v
    let i := jsonDump A h [] v
    r.2.1 = i.2.take k ∧ (i.2.length ≤ k → r.1 = i.1) ∧ (k < i.2.length → r.2.2 = true) := by
  rcases dumpTo_follows A (room k) h v with ⟨h1, h2⟩ | ⟨h1, h2, _⟩
  · have e1 : (jsonDumpTo A (room k) h v).1 = (jsonDump A h [] v).1 := congrArg Prod.fst h1
    have e2 : (jsonDumpTo A (room k) h v).2.1 = (jsonDump A h [] v).2 := congrArg Prod.snd h1
    have := took_room h2
    refine ⟨?_, fun _ => e1, fun h => absurd h (by omega)⟩
    show (jsonDumpTo A (room k) h v).2.1 = List.take k (jsonDump A h [] v).2
    rw [e2, List.take_of_length_le this]
  · have := stopped_room h1
    exact ⟨this.1, fun h => by have := this.2; omega, fun _ => h2⟩

/-- C114. A buffer that takes every character, like that of an adapter that does not throw, gets the text, and the call
ends as it does for a string. -/
theorem C114_complete (A : DumpArgs F) (K : Sink) (hK : Takes K) (h : Option Handler) (v : Value F) :
    let r := jsonDumpTo A K h v
    (r.1, r.2.1) = jsonDump A h [] v :=
  (dumpTo_follows A K h v).elim (·.1) fun h => absurd hK h.1.refuses

/-- C114. If the buffer refuses characters the call either ends as it does for a string, or with a serialization error,
which a handler may swallow. -/
theorem C114_end (A : DumpArgs F) (K : Sink) (h : Option Handler) (v : Value F) :
    let r := jsonDumpTo A K h v
    r.1 = (jsonDump A h [] v).1 ∨ r.1 = .error (.exn .serialization) ∨
      (r.1 = .ok () ∧ ∃ hd, h = some hd ∧ hd.swallows .serialization = true) :=
  (dumpTo_follows A K h v).elim (fun h => .inl (congrArg Prod.fst h.1)) (·.2.2)

/-- C114. An output adapter that throws nothing gets the text. -/
theorem C114_adapter (A : DumpArgs F) (thr : List Nat → Nat → Bool) (ht : ∀ got c, thr got c = false) (h : Option Handler) (v : Value F) :
    let r := jsonDumpTo A (adapterSink thr) h v
    (r.1, r.2.1) = jsonDump A h [] v :=
  C114_complete A _ (adapter_takes ht) h v

example : jsonDumpTo (dumpArgs false false 0 0x20) (room 5) none (.arr [.int 1, .str (ascii "ab")]) =
    (.error (.exn .serialization), ascii "[1,\"a", true) := by decide +kernel
/-- Both cases of `C114_exact` occur. -/
example : Stopped (room 5) (ascii "[1,\"ab\"]") (ascii "[1,\"a") :=
  ⟨ascii "[1,\"a", ascii "b", ascii "\"]", rfl, .block (cs := ascii "[1,\"a") .none (by decide), by decide, rfl⟩
example : adapterTakes (fun _ c => c == 0x62) [] (ascii "[\n  true,\n  \"ab\"\n]") = 14 := by decide +kernel
example : jsonDumpTo (dumpArgs false false 0 0x20) (room 8) none (.arr [.int 1, .str (ascii "ab")]) =
    (.ok (), ascii "[1,\"ab\"]", false) := by decide +kernel
example : jsonDumpTo (dumpArgs false false 0 0x20) (blocks 5) none (.arr [.bool true, .null]) =
    (.ok (), ascii "[true", true) := by decide +kernel
example : jsonDumpTo (dumpArgs false true 2 0x20) (adapterSink fun _ c => c == 0x62) none (.arr [.bool true, .str (ascii "ab")]) =
    (.error (.exn .serialization), ascii "[\n  true,\n  \"a", true) := by decide +kernel
/-- The buffer of an adapter that throws nothing meets the hypothesis of `C114_complete`. -/
example : Takes (adapterSink fun _ _ => false) := adapter_takes fun _ _ => rfl

/-! ## C99, for every buffer -/

/-- C99 fails for every buffer, whatever it refuses: dumping a value of nulls, booleans, integers and arrays ends normally. -/
theorem C99_any_buffer_violated (A : DumpArgs F) (hA : A.pretty = false) (K : Sink) (h : Option Handler) (v : Value F)
    (hv : Plain v = true) : (jsonDumpTo A K h v).1 = .ok () :=
  dumpTo_plain hA K h v hv

example : jsonDumpTo (dumpArgs false false 0 0x20) (room 3) none (.arr [.int 12, .null, .arr [.bool true]]) = (.ok (), ascii "[12", true) := by
  decide +kernel

/-- C99, the part that holds, for every buffer. When dumping a string ends normally, then what the buffer has not taken is a
tail of short escapes and the closing quote. -/
theorem C99_string_any_buffer_partial (A : DumpArgs F) (hA : A.pretty = false) (K : Sink) (str : List Nat)
    (hr : (jsonDumpTo A K none (.str str)).1 = .ok ()) :
    Lost EscChar (jsonDump A none [] (.str str)).2 (jsonDumpTo A K none (.str str)).2.1 :=
  stringTo_lost A hA K str hr

example : jsonDumpTo (dumpArgs false false 0 0x20) (room 4) none (.str (ascii "ab\t\n")) = (.ok (), ascii "\"ab\\", true) := by
  decide +kernel
example : jsonDumpTo (dumpArgs false false 0 0x20) (room 4) none (.str (ascii "ab\t\nc")) =
    (.error (.exn .serialization), ascii "\"ab\\", true) := by
  decide +kernel

end Configor.Props
