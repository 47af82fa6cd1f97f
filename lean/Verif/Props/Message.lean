import Verif.Proofs.MessageErase
import Verif.Proofs.MessageText
import Verif.Props.ParserCore
import Verif.Props.Stack
/-!
# What the exception of a failed parse says

C124. `Says`, `Trailing` and `cString` are in Spec/Message.lean. `jsonParseSays` is `jsonParse` with `what()` of the exception.
-/
set_option autoImplicit false
namespace Configor.Props
open Spec

variable {F : Type}

/-- C124. The end of the call and the content of its argument are those of `jsonParse`. -/
theorem C124_same_end (A : ParseArgs F) (c : Value F) (str : List Nat) :
    jsonParse A none c str = ((match (jsonParseSays A c str).1 with | .error (e, _) => .error e | .ok u => .ok u),
      (jsonParseSays A c str).2) := by
  have h := erases_parseAll (A.cfg (strSBuf A.sw) (2 * str.length + 4)) (2 * str.length + 4) c
    (Lex.init (.ofBuf (.ofString str)) (A.fo.ofInt 0))
  unfold jsonParse parseFrom jsonParseSays
  simp only
  rw [← h]
  rcases (Msg.parse (A.cfg (strSBuf A.sw) (2 * str.length + 4)) (2 * str.length + 4) c
    (Lex.init (.ofBuf (.ofString str)) (A.fo.ofInt 0))) with ⟨⟨e, m⟩ | u, s, v⟩ <;> rfl

/-- C124, partial: the message says what is wrong at the place where the text cannot be read further, except that it names the
end of the input if there is something behind the value of the text (`Trailing`), and that it ends at a NUL (`cString`). -/
theorem C124_message_partial (A : ParseArgs F) (hA : A.Usual) (c v : Value F) (str : List Nat) (l : List (Option Nat))
    (hl : Sees A str l) (e : Err) (what : List Nat) (h : jsonParseSays A c str = (.error (.exn e, what), v)) :
    ∃ m, what = cString (text! "value deserialization error: " ++ m) ∧ (Says A.dialect l m ∨ Trailing A.dialect l m) := by
  have hi := (sees_iff A str l).1 hl
  subst hi
  have hs := says_string hA c str (n := 2 * str.length + 4) (by omega)
  unfold jsonParseSays at h
  simp only at h
  rcases hr : (Msg.parse (A.cfg (strSBuf A.sw) (2 * str.length + 4)) (2 * str.length + 4) c
    (Lex.init (.ofBuf (.ofString str)) (A.fo.ofInt 0))) with ⟨⟨e', m⟩ | u, s, v'⟩
  · rw [hr] at h hs
    simp only [Prod.mk.injEq, Except.error.injEq] at h
    obtain ⟨⟨rfl, rfl⟩, rfl⟩ := h
    obtain ⟨i, rfl, hi⟩ := hs e m rfl
    exact ⟨i, rfl, hi⟩
  · rw [hr] at h
    simp at h

/-- The hypotheses are met: an array that ends with a brace. -/
example : jsonParseSays (utf8Args true) (F := Unit) .null (text! "[1, }") =
    (.error (.exn .deserialization,
      text! "value deserialization error: unexpected token, expect 'end_array', but got 'end_object'"), .arr [.int 1]) := rfl

/-- An escape that is cut off. -/
example : (match (jsonParseSays (utf8Args true) (F := Unit) .null (text! "{\"a\\u00e~\":1}")).1 with | .error (_, m) => m | .ok _ => []) =
    text! "value deserialization error: '\\u' must be followed by 4 hex digits, but got '\\u007E'" := by decide +kernel

/-- C124. The code shown for a malformed character is what the decoder makes of the first malformed character in the string
(`malformedCode`): the decoder delivers some code points `q`, is then at the place `k` of the string, and what it finds there is
malformed. (For strings
without a unit that is taken for the end of the string.) -/
theorem C124_malformed_code (A : ParseArgs F) (c v : Value F) (str : List Nat) (hu : ∀ u ∈ str, A.sw = 8 ∨ u ≠ 2 ^ A.sw - 1) (e : Err)
    (rest : List Nat)
    (h : jsonParseSays A c str = (.error (.exn e, text! "value deserialization error: decoding failed" ++ rest), v)) :
    ∃ q k, ReadOn (A.se.decode A.sw (strSBuf A.sw)) (onString str) q (readUpTo str k) ∧
      Delivers (A.se.decode A.sw (strSBuf A.sw)) (readUpTo str k) [none] ∧
      Shown (text! "value deserialization error: decoding failed with codepoint") (malformedCode A.se (str.drop k))
        (text! "value deserialization error: decoding failed" ++ rest) := by
  unfold jsonParseSays at h
  simp only at h
  rcases hr : (Msg.parse (A.cfg (strSBuf A.sw) (2 * str.length + 4)) (2 * str.length + 4) c
    (Lex.init (.ofBuf (.ofString str)) (A.fo.ofInt 0))) with ⟨⟨e', m⟩ | u, s, v'⟩
  · rw [hr] at h
    simp only [Prod.mk.injEq, Except.error.injEq] at h
    obtain ⟨⟨rfl, hw⟩, rfl⟩ := h
    obtain ⟨q, k, hq, hk, x, hx, hi⟩ := code_string (i := text! "decoding failed" ++ rest) c hu (2 * str.length + 4) (congrArg Prod.fst hr) hw rfl
    exact ⟨q, k, hq, hk, x, hx, congrArg (text! "value deserialization error: " ++ ·) hi⟩
  · rw [hr] at h
    simp at h

example : (jsonParseSays (utf8Args true) (F := Unit) .null [0x5B, 0xF8, 0x80]).1 = .error (.exn .deserialization,
    text! "value deserialization error: decoding failed with codepoint '\\u8103F'") := by decide +kernel

/-- C124. With a handler that records the message, `parse` returns normally whenever it would throw, and the handler's `error` is
`what()` of the exception; only the exception about a malformed first character is not given to the handler. On success `error` is
left as it was. -/
theorem C124_record (A : ParseArgs F) (c : Value F) (str error : List Nat) (l : List (Option Nat)) (hl : Sees A str l) :
    (∀ v, jsonParseSays A c str = (.ok (), v) → jsonParseRecord A error c str = ((.ok (), v), error)) ∧
    (∀ e what v, jsonParseSays A c str = (.error (.exn e, what), v) →
      jsonParseRecord A error c str =
        if l.head? = some none then ((.error (.exn e), v), error) else ((.ok (), v), what)) := by
  have hi := (sees_iff A str l).1 hl
  subst hi
  have hf := first_read A str (2 * str.length + 4)
  unfold jsonParseRecord
  rcases hr : Msg.readNext (A.cfg (strSBuf A.sw) (2 * str.length + 4)) (Lex.init (.ofBuf (.ofString str)) (A.fo.ofInt 0)) with ⟨⟨e, m⟩ | u, s⟩
  · have hn := hf.1 ⟨_, _, hr⟩
    unfold jsonParseSays Msg.parse
    simp only [hr, hn, if_true, Prod.mk.injEq, Except.error.injEq, and_imp]
    refine ⟨fun v h => by simp at h, ?_⟩
    rintro e' what v rfl _ rfl
    simp
  · have hn : ¬ (itemsOf A.se A.sw str).head? = some none := by
      intro h
      obtain ⟨m, s', h'⟩ := hf.2 h
      rw [hr] at h'
      cases h'
    unfold jsonParseSays Msg.parse
    simp only [hr, hn, if_false]
    rcases Msg.parseBody (A.cfg (strSBuf A.sw) (2 * str.length + 4)) (2 * str.length + 4) c s with ⟨⟨e, m⟩ | u, s', v'⟩
    · simp only [Prod.mk.injEq, Except.error.injEq, and_imp]
      refine ⟨fun v h => by simp at h, ?_⟩
      rintro e' what v rfl rfl rfl
      simp
    · simp only [Prod.mk.injEq, true_and]
      refine ⟨fun v h => ⟨h, trivial⟩, fun e' what v h => by simp at h⟩

/-- Both cases: a trailing comma is recorded, a malformed first byte is thrown. -/
example : jsonParseRecord (utf8Args true) (text! "old") (F := Unit) .null (text! "{,") =
    ((.ok (), .obj []), text! "value deserialization error: unexpected token, expect 'end_object', but got 'value_separator'") ∧
    jsonParseRecord (utf8Args true) (text! "old") (F := Unit) .null [0xFF] = ((.error (.exn .deserialization), .null), text! "old") ∧
    jsonParseRecord (utf8Args true) (text! "old") (F := Unit) .null (text! "{}") = ((.ok (), .obj []), text! "old") := ⟨rfl, rfl, rfl⟩

/-- C124 is false: behind the value of the text `1 2` there is an integer, but the message is the one for an empty text, and it is
not what `Says` asks for. -/
theorem C124_violated (b : Bool) : ∃ (str : List Nat) (l : List (Option Nat)) (what : List Nat) (v : Value Unit),
    Sees (utf8Args b) str l ∧ jsonParseSays (utf8Args b) .null str = (.error (.exn .deserialization, what), v) ∧
    jsonParseSays (utf8Args b) .null [] = (.error (.exn .deserialization, what), .null) ∧
    ¬ ∃ m, what = text! "value deserialization error: " ++ m ∧ Says (utf8Args b).dialect l m := by
  refine ⟨text! "1 2", (text! "1 2").map some, text! "value deserialization error: unexpected token 'end_of_input'", .int 1,
    (sees_iff _ _ _).2 (by rw [itemsOf_reads (reads_ascii b (text! "1 2") (by decide))]), by cases b <;> rfl, by cases b <;> rfl, ?_⟩
  rintro ⟨m, hm, hs⟩
  have hm' : text! "value deserialization error: " ++ text! "unexpected token 'end_of_input'" = text! "value deserialization error: " ++ m := hm
  rw [← List.append_cancel_left hm'] at hs
  rcases finish_first (says_end (by decide) hs) with h | h | h
  · revert h; unfold IsBlank; decide
  · cases h
  · cases h

/-- C124 is false in another way: if a keyword ends with the text, the message ends in the middle of a sentence, because it has a
NUL in it. -/
theorem C124_violated_nul (b : Bool) : jsonParseSays (F := Unit) (utf8Args b) .null (text! "tru") =
    (.error (.exn .deserialization, text! "value deserialization error: unexpected character '"), .null) := by
  cases b <;> rfl

end Configor.Props
