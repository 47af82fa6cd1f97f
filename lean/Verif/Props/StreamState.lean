import Verif.Spec.StreamState
import Verif.Props.ParserCore
/-!
# Options of `parse`, and locales of streams
-/
set_option autoImplicit false
namespace Configor.Props
open Configor Spec

variable {F σ : Type}

theorem lastAsked_cons {β α : Type} (f : β → Option α) (o : β) (opts : List β) (dflt : α) :
    lastAsked f (o :: opts) dflt = lastAsked f opts ((f o).getD dflt) := by
  simp only [lastAsked, List.filterMap_cons]
  cases f o with
  | none => rfl
  | some a =>
    simp only [Option.getD_some]
    cases h : opts.filterMap f with
    | nil => rfl
    | cons b bs =>
      rw [List.getLast?_cons_cons, List.getLast?_eq_some_getLast (by simp : b :: bs ≠ [])]
      rfl

/-! ## C142 -/

/-- C142. `parse` with a list of options uses the last source encoding, the last target encoding and the last handler in the list, in
whatever order these come, and the defaults for the rest; for every kind of source. -/
theorem C142_options (A : ParseArgs F) (B : SBuf σ) (n : Nat) (opts : List ParseOption) (c : Value F) (b : σ) :
    parseWith A B n opts c b =
      parseFrom { A with se := lastAsked sourceAsked opts A.se, te := lastAsked targetAsked opts A.te } B n (lastAsked handlerAsked opts none) c b := by
  suffices e : ∀ h : Option Handler, ParseSettings.prepare ⟨A, h⟩ opts =
      ⟨{ A with se := lastAsked sourceAsked opts A.se, te := lastAsked targetAsked opts A.te }, lastAsked handlerAsked opts h⟩ by
    unfold parseWith
    rw [e]
  unfold ParseSettings.prepare
  induction opts generalizing A with
  | nil => intro h; rfl
  | cons o opts ih =>
    intro h
    rw [List.foldl_cons]
    simp only [lastAsked_cons]
    cases o <;> exact ih _ _

/-- C142, for strings. -/
theorem C142_string (A : ParseArgs F) (opts : List ParseOption) (c : Value F) (str : List Nat) :
    jsonParseWith A opts c str =
      jsonParse { A with se := lastAsked sourceAsked opts A.se, te := lastAsked targetAsked opts A.te } (lastAsked handlerAsked opts none) c str :=
  C142_options A _ _ opts c _

/-- C142. Two lists that agree on the last option of each kind do the same: the order of options of different kinds does not matter,
and earlier options of a kind do not count. -/
theorem C142_order (A : ParseArgs F) (B : SBuf σ) (n : Nat) (opts opts' : List ParseOption) (c : Value F) (b : σ)
    (h1 : (opts.filterMap sourceAsked).getLast? = (opts'.filterMap sourceAsked).getLast?)
    (h2 : (opts.filterMap targetAsked).getLast? = (opts'.filterMap targetAsked).getLast?)
    (h3 : (opts.filterMap handlerAsked).getLast? = (opts'.filterMap handlerAsked).getLast?) :
    parseWith A B n opts c b = parseWith A B n opts' c b := by
  rw [C142_options, C142_options]
  unfold lastAsked
  rw [h1, h2, h3]

/-- A handler is set and taken back; the text is Latin-1-like UTF-32 in the end, and the strings are UTF-8. -/
example : jsonParseWith (utf8Args true) [.handler (some ⟨fun _ => true⟩), .encoding .utf32, .handler none, .targetEncoding .utf8] .null
    [0x22, 0xE9, 0x22] = (.ok (), .str [0xC3, 0xA9]) := by decide +kernel
example : jsonParseWith (utf8Args true) [.handler none, .targetEncoding .utf8, .handler (some ⟨fun _ => true⟩)] .null [0x5B, 0x31] =
    (.ok (), .arr [.int 1]) := by decide +kernel

/-! ## C143 -/

/-- C143, partial. A file that only one stream writes to, whose buffer converts as the stream's locale says (as after `imbue`), gets the same
bytes by `dump` as by writing the texts, whatever is written, dumped and parsed in whatever order, and whatever locales are set. -/
theorem C143_one_stream_partial (conv : Nat → List Nat → List Nat) (x : Nat) (us : List StreamUse) (hx : ∀ u ∈ us, usedStream u = x) (s : Shared)
    (h : s.buffer.ctype = (s.own x).ctype) : (s.run conv us).bytes = (s.run conv (us.flatMap plainly)).bytes := by
  suffices key : ∀ (us : List StreamUse), (∀ u ∈ us, usedStream u = x) → ∀ s t : Shared, s.bytes = t.bytes → s.own x = t.own x →
      s.buffer.ctype = (s.own x).ctype → t.buffer.ctype = (t.own x).ctype → (s.run conv us).bytes = (t.run conv (us.flatMap plainly)).bytes from
    key us hx s s rfl rfl h h
  intro us
  induction us with
  | nil => intro _ s t e _ _ _; exact e
  | cons u us ih =>
    intro hx s t e1 e2 e3 e4
    have hu := hx u (by simp)
    have ih := ih fun v hv => hx v (by simp [hv])
    have e5 : s.buffer.ctype = t.buffer.ctype := by rw [e3, e4, e2]
    cases u with
    | imbue y l => obtain rfl : y = x := hu; exact ih _ _ e1 (by simp [Shared.step]) (by simp [Shared.step]) (by simp [Shared.step])
    | write y t => exact ih _ _ (by simp [Shared.step, Shared.put, e1, e5]) e2 e3 e4
    | dump y t =>
      obtain rfl : y = x := hu
      refine ih _ _ ?_ e2 rfl e4
      simp [Shared.step, Shared.put, Shared.taken, Locale.with, e1, e4, e2]
    | parse y => obtain rfl : y = x := hu; exact ih _ _ e1 e2 rfl e4

/-- C143, partial. So it is for any number of streams on one buffer, if all locales that are set have the same conversion. -/
theorem C143_agree_partial (conv : Nat → List Nat → List Nat) (k : Nat) (us : List StreamUse) (hu : ∀ u ∈ us, SetsOnly k u) (s : Shared)
    (h : s.buffer.ctype = k) (ho : ∀ x, (s.own x).ctype = k) : (s.run conv us).bytes = (s.run conv (us.flatMap plainly)).bytes := by
  suffices key : ∀ (us : List StreamUse), (∀ u ∈ us, SetsOnly k u) → ∀ s t : Shared, s.bytes = t.bytes → s.buffer.ctype = k → t.buffer.ctype = k →
      (∀ x, (s.own x).ctype = k) → (s.run conv us).bytes = (t.run conv (us.flatMap plainly)).bytes from key us hu s s rfl h h ho
  intro us
  induction us with
  | nil => intro _ s t e _ _ _; exact e
  | cons u us ih =>
    intro hu s t e1 e2 e3 e4
    have h1 := hu u (by simp)
    have ih := ih fun v hv => hu v (by simp [hv])
    cases u with
    | imbue y l =>
      refine ih _ _ e1 h1 h1 ?_
      intro x
      simp only [Shared.step]
      split
      · exact h1
      · exact e4 x
    | write y t => exact ih _ _ (by simp [Shared.step, Shared.put, e1, e2, e3]) e2 e3 e4
    | dump y t => exact ih _ _ (by simp [Shared.step, Shared.put, Shared.taken, Locale.with, e1, e3, e4]) (e4 y) e3 e4
    | parse y => exact ih _ _ e1 (e4 y) e3 e4

/-- For examples: conversion 0 stops at the first character that is not ASCII, conversion 1 does not. -/
def asciiOnly (k : Nat) (t : List Nat) : List Nat := if k = 0 then t.takeWhile (· < 128) else t

/-- For examples: the buffer of a file with conversion 1, which the streams 1, 2, ... share; only stream 0 has the file's locale. -/
def sharedFile : Shared := ⟨fun x => if x = 0 then ⟨0, 1, 0, 0, 0, 0⟩ else .classic, ⟨0, 1, 0, 0, 0, 0⟩, []⟩

example : sharedFile.buffer.ctype = (sharedFile.own 0).ctype ∧
    (sharedFile.run asciiOnly [.dump 0 [0xE9, 0x22], .imbue 0 .classic, .parse 0, .dump 0 [0x41, 0xE9]]).bytes = [0xE9, 0x22, 0x41] := by decide

/-- C143 is false of the code: `dump` through another stream on the same buffer changes the buffer's conversion to that of the other stream's
locale, so that other bytes get into the file than by writing the text through that stream; and even parsing through it spoils what the first
stream writes afterwards. -/
theorem C143_violated :
    (∃ (conv : Nat → List Nat → List Nat) (s : Shared) (x : Nat) (t : List Nat), (s.run conv [.dump x t]).bytes ≠ (s.run conv [.write x t]).bytes) ∧
    ∃ (conv : Nat → List Nat → List Nat) (s : Shared) (x y : Nat) (t : List Nat), s.buffer.ctype = (s.own x).ctype ∧
      (s.run conv [.parse y, .write x t]).bytes ≠ (s.run conv [.write x t]).bytes :=
  ⟨⟨asciiOnly, sharedFile, 1, [0x22, 0xE9, 0x22], by decide⟩, ⟨asciiOnly, sharedFile, 0, 1, [0x22, 0xE9, 0x22], by decide⟩⟩

/-- C143, partial: exactly when a single call makes no difference: `dump` through a stream if the buffer converts as its locale says, and parsing
through it before writing through any stream as well. -/
theorem C143_exactly_partial (s : Shared) (x : Nat) :
    ((∀ conv t, (s.run conv [.dump x t]).bytes = (s.run conv [.write x t]).bytes) ↔ s.buffer.ctype = (s.own x).ctype) ∧
    ∀ y, (∀ conv t, (s.run conv [.parse x, .write y t]).bytes = (s.run conv [.write y t]).bytes) ↔ s.buffer.ctype = (s.own x).ctype := by
  refine ⟨⟨fun h => ?_, fun h conv t => C143_one_stream_partial conv x [.dump x t] (by simp [usedStream]) s h⟩, fun y => ⟨fun h => ?_, fun h conv t => ?_⟩⟩
  · have := h (fun k _ => [k]) []
    simpa [Shared.run, Shared.step, Shared.put, Shared.taken, Locale.with, eq_comm] using this
  · have := h (fun k _ => [k]) []
    simpa [Shared.run, Shared.step, Shared.put, Shared.taken, Locale.with, eq_comm] using this
  · simp [Shared.run, Shared.step, Shared.put, Shared.taken, Locale.with, h]

example : sharedFile.buffer.ctype = (sharedFile.own 0).ctype ∧ sharedFile.buffer.ctype ≠ (sharedFile.own 1).ctype := by decide

/-- C143: what is left behind. After any uses and then a `dump` or `parse` through the stream `x`, the buffer has the collation and the
character conversion of `x`, and for numbers, money, time and messages those of the classic locale, whatever it had before. The locales
of the streams themselves are as before the call. -/
theorem C143_left_behind (conv : Nat → List Nat → List Nat) (s : Shared) (us : List StreamUse) (x : Nat) (t : List Nat) (u : StreamUse)
    (hu : u = .dump x t ∨ u = .parse x) :
    (s.run conv (us ++ [u])).own = (s.run conv us).own ∧
    (s.run conv (us ++ [u])).buffer = ⟨((s.run conv us).own x).collate, ((s.run conv us).own x).ctype, 0, 0, 0, 0⟩ := by
  simp only [Shared.run, List.foldl_append, List.foldl_cons, List.foldl_nil]
  rcases hu with rfl | rfl <;> exact ⟨rfl, rfl⟩

/-- The hypotheses are met where it makes a difference: stream 1 has another locale than the buffer. -/
example : (sharedFile.run asciiOnly ([] ++ [.parse 1])).buffer ≠ sharedFile.buffer ∧
    (sharedFile.run asciiOnly [.imbue 1 ⟨3, 4, 5, 6, 7, 8⟩, .parse 1]).buffer = ⟨3, 4, 0, 0, 0, 0⟩ := by decide

end Configor.Props
