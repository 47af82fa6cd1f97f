import Verif.Proofs.DumpMessage
import Verif.Props.Dump
/-!
# What the exception of a failed dump says

C126. `texts`, `ReadOn` and `Trouble` are in Spec/DumpMessage.lean. `jsonDumpSays` is `jsonDump` with `what()` of the exception.
-/
set_option autoImplicit false
namespace Configor.Props
open Spec

variable {F : Type}

/-- C126. The end of the call and what it writes are those of `jsonDump`, also for a stream that rejects all output. -/
theorem C126_same_end (A : DumpArgs F) (str : List Nat) (v : Value F) :
    jsonDump A none str v = ((match (jsonDumpSays A str v).1 with | .error (e, _) => .error e | .ok u => .ok u), (jsonDumpSays A str v).2) ∧
    (dumpRejected A none v).1 = (match dumpRejectedSays A v with | .error (e, _) => .error e | .ok u => .ok u) := by
  constructor
  · have h := mute_body A v (Serializer.init A str)
    unfold jsonDump Serializer.dump jsonDumpSays
    simp only
    rw [h]
    rcases DMsg.body A v (Serializer.init A str) with ⟨⟨e, m⟩ | u, s⟩
    · cases e <;> rfl
    · rfl
  · have h := mute_body A v { Serializer.init A [] with os := ⟨[], true⟩ }
    unfold dumpRejected Serializer.dump dumpRejectedSays
    simp only
    rw [h]
    rcases DMsg.body A v { Serializer.init A [] with os := ⟨[], true⟩ } with ⟨⟨e, m⟩ | u, s⟩
    · cases e <;> rfl
    · rfl

theorem dumpSays_body {A : DumpArgs F} {str out what : List Nat} {v : Value F} {e : Err}
    (hu : ∀ t ∈ texts v, ∀ u ∈ t, A.sw = 8 ∨ u ≠ 2 ^ A.sw - 1) (h : jsonDumpSays A str v = (.error (.exn e, what), out)) :
    e = .serialization ∧ ∃ pre t post i, texts v = pre ++ t :: post ∧ (∀ x ∈ pre, Fine A x) ∧ Trouble A t i ∧
      what = text! "value serialization error: " ++ i := by
  have hw := writes_body A v hu (Serializer.init A str) rfl
  unfold jsonDumpSays at h
  simp only at h
  generalize DMsg.body A v (Serializer.init A str) = r at hw h
  rcases r with ⟨⟨e', m⟩ | u, s⟩
  · simp only [Prod.mk.injEq, Except.error.injEq] at h
    obtain ⟨⟨rfl, rfl⟩, _⟩ := h
    obtain ⟨he, pre, t, post, i, h1, h2, h3, rfl⟩ := hw
    exact ⟨he, pre, t, post, i, h1, h2, h3, by rw [whatOf_serialization, trouble_what h3]; rfl⟩
  · simp at h

/-- C126, partial: a dump to a string fails at the first key or string, in the order of the output, that cannot be written
(provided the floats in the value can be written), and the message says what is wrong there: the code of the first malformed
character, or the first code point that cannot be written (`Trouble`). (For strings without a unit that is taken for the end of
the string.) -/
theorem C126_message_partial (A : DumpArgs F) (str : List Nat) (v : Value F) (hf : ∀ f, HasFloat v f → FloatOk A f)
    (hu : ∀ t ∈ texts v, ∀ u ∈ t, A.sw = 8 ∨ u ≠ 2 ^ A.sw - 1) (pre : List (List Nat)) (t : List Nat) (post : List (List Nat))
    (ht : texts v = pre ++ t :: post) (hp : ∀ x ∈ pre, Fine A x) (hn : ¬ Fine A t) :
    ∃ m out, Trouble A t m ∧ jsonDumpSays A str v = (.error (.exn .serialization, text! "value serialization error: " ++ m), out) := by
  have h1 := (C37_fails_exactly A str v hf).1.2 ⟨t, texts_hasText v t (by rw [ht]; simp), hn⟩
  rw [(C126_same_end A str v).1] at h1
  rcases hr : jsonDumpSays A str v with ⟨⟨e, what⟩ | u, out⟩
  · rw [hr] at h1
    simp only [Except.error.injEq] at h1
    subst h1
    obtain ⟨_, pre', t', post', i, h2, h3, h4, rfl⟩ := dumpSays_body hu hr
    obtain ⟨_, rfl, _⟩ := first_bad (ht.symm.trans h2) hp h3 hn (trouble_not_fine h4)
    exact ⟨i, out, h4, rfl⟩
  · rw [hr] at h1
    simp at h1

/-- C126, partial: whatever the floats in the value, an exception of a dump to a string is about the first key or string that
cannot be written. -/
theorem C126_only_partial (A : DumpArgs F) (str out what : List Nat) (v : Value F) (e : Err)
    (hu : ∀ t ∈ texts v, ∀ u ∈ t, A.sw = 8 ∨ u ≠ 2 ^ A.sw - 1) (h : jsonDumpSays A str v = (.error (.exn e, what), out)) :
    e = .serialization ∧ ∃ pre t post m, texts v = pre ++ t :: post ∧ (∀ x ∈ pre, Fine A x) ∧ ¬ Fine A t ∧ Trouble A t m ∧
      what = text! "value serialization error: " ++ m := by
  obtain ⟨he, pre, t, post, i, h1, h2, h3, h4⟩ := dumpSays_body hu h
  exact ⟨he, pre, t, post, i, h1, h2, trouble_not_fine h3, h3, h4⟩

/-- The hypotheses are met: the second string of an array is malformed. -/
example : jsonDumpSays (dumpArgs false false 0 0) [] (.arr [.str [0x61], .str [0x62, 0xF8, 0x80], .str [0xFF]]) =
    (.error (.exn .serialization, text! "value serialization error: unexpected character '\\u8103F'"), text! "[\"a\",\"b") := by
  decide +kernel
example : texts (.obj [(text! "k", .arr [.str (text! "a"), .int 1]), (text! "l", .str [])] : Value Unit) =
    [text! "k", text! "a", text! "l", []] := rfl
/-- A code point beyond Unicode, in a `char32_t` string read without an encoding. -/
example : (jsonDumpSays ({ dumpArgs false false 0 0 with se := .ignore, sw := 32 } : DumpArgs Unit) [] (.str [0x61, 0x110000])).1 =
    .error (.exn .serialization, text! "value serialization error: encoding failed with codepoint '\\u110000'") := by
  decide +kernel

/-- C126. With a handler that records the message, `dump` to a string returns normally whenever it would throw, and the handler's
`error` is `what()` of the exception; on success `error` is left as it was. The string is the same. -/
theorem C126_record (A : DumpArgs F) (error str : List Nat) (v : Value F) :
    (∀ out, jsonDumpSays A str v = (.ok (), out) → jsonDumpRecord A error str v = ((.ok (), out), error)) ∧
    (∀ e what out, jsonDumpSays A str v = (.error (.exn e, what), out) → jsonDumpRecord A error str v = ((.ok (), out), what)) := by
  unfold jsonDumpSays jsonDumpRecord
  rcases DMsg.body A v (Serializer.init A str) with ⟨⟨e, m⟩ | u, s⟩
  · refine ⟨fun out h => by simp at h, ?_⟩
    intro e' what out h
    simp only [Prod.mk.injEq, Except.error.injEq] at h
    obtain ⟨⟨rfl, rfl⟩, rfl⟩ := h
    rfl
  · refine ⟨fun out h => ?_, fun e what out h => by simp at h⟩
    simp only [Prod.mk.injEq] at h
    obtain ⟨_, rfl⟩ := h
    rfl

/-- C126 is violated for streams: if the stream cannot take the output (a full disk), the message blames the encoding of a
character, although every string can be written. -/
theorem C126_violated : ∃ v : Value Unit, (∀ t, HasText v t → Fine (dumpArgs false false 0 0) t) ∧
    dumpRejectedSays (dumpArgs false false 0 0) v =
      .error (.exn .serialization, text! "value serialization error: encoding failed with codepoint '\\u0061'") := by
  refine ⟨.str [0x61], ?_, by decide +kernel⟩
  have h := (C37_fails_exactly (dumpArgs false false 0 0) [] (.str [0x61]) (fun f h => by cases h)).2.1
  exact h (by decide +kernel)

end Configor.Props
