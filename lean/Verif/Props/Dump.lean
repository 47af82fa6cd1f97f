import Verif.Proofs.DumpToks
/-!
# Properties of `json::dump`

C30 (writing half) to C40. `jsonDump A h str v` is `json::dump(str, v, options)`: how the call
ends and the string afterwards.
-/
set_option autoImplicit false
namespace Configor.Props
open Spec

variable {F : Type}

/-- A call on UTF-8 strings. -/
def dumpArgs (uesc pretty : Bool) (step ch : Nat) : DumpArgs Unit := ⟨.utf8, 8, .utf8, 8, uesc, pretty, step, ch, unitFloat⟩

/-- An example: `{"a":[1,true,"é\n"],"b":{},"c":[[],-5]}`. -/
def sample : Value Unit :=
  .obj [([0x61], .arr [.int 1, .bool true, .str [0xC3, 0xA9, 0x0A]]), ([0x62], .obj []), ([0x63], .arr [.arr [], .int (-5)])]

/-! ## C36 -/

/-- C36. What a successful call appends is the text of the value as the printer of `Spec/Dump.lean`
writes it: every object with its members in the order of the map, each once. -/
theorem C36_dump_text (A : DumpArgs F) (str r : List Nat) (v : Value F) (h : jsonDump A none str v = (.ok (), r)) :
    r = str ++ A.printer'.text 0 v :=
  (jsonDump_good h).2

/-- C36. The members of an object are written in strictly increasing order of their keys, each
key once: the text is that of the members `ms`, in this order, and their keys increase. -/
theorem C36_members_in_order (A : DumpArgs F) (str r : List Nat) (ms : List (List Nat × Value F)) (hs : KeysSorted (.obj ms))
    (h : jsonDump A none str (.obj ms) = (.ok (), r)) :
    ms.Pairwise (fun a b => a.1 < b.1) ∧
    ∃ texts : List (List Nat), texts = ms.map (fun m => A.printer'.literal m.1 ++ [0x3A] ++ A.style.space ++ A.printer'.text 1 m.2) ∧
      r = str ++ A.printer'.block 0 0x7B 0x7D texts := by
  refine ⟨hs ms .refl, _, rfl, ?_⟩
  rw [C36_dump_text A str r _ h]
  have : ∀ (ms : List (List Nat × Value F)), A.printer'.members 1 ms =
      ms.map (fun m => A.printer'.literal m.1 ++ [0x3A] ++ A.style.space ++ A.printer'.text 1 m.2) := by
    intro ms
    induction ms with
    | nil => rfl
    | cons m ms ih => obtain ⟨k, v⟩ := m; simp only [Printer.members, List.map_cons, ih]; rfl
  rw [← this]
  rfl

example : jsonDump (dumpArgs false false 0 0) none (ascii "x=") sample =
    (.ok (), ascii "x={\"a\":[1,true,\"" ++ [0xC3, 0xA9] ++ ascii "\\n\"],\"b\":{},\"c\":[[],-5]}") := by decide +kernel
theorem sample_sorted : KeysSorted sample := by
  have h0 : ∀ ms : List (List Nat × Value Unit), ¬ Within (.int 1) (.obj ms) := by intro ms h; cases h
  intro ms h
  cases h with
  | refl => decide
  | member hm h =>
    simp at hm
    rcases hm with ⟨rfl, rfl⟩ | ⟨rfl, rfl⟩ | ⟨rfl, rfl⟩
    · cases h with
      | elem hx h => simp at hx; rcases hx with rfl | rfl | rfl <;> cases h
    · cases h with
      | refl => decide
      | member hm _ => simp at hm
    · cases h with
      | elem hx h =>
        simp at hx
        rcases hx with rfl | rfl
        · cases h with | elem hx _ => simp at hx
        · cases h

/-! ## C30 -/

/-- C30, the writing half: nested arrays of any depth are written as that many brackets. -/
theorem C30_nested_dump (A : DumpArgs F) (hp : A.pretty = false) (str : List Nat) (n : Nat) :
    jsonDump A none str (nested n : Value F) = (.ok (), str ++ brackets n) := by
  have hg : GoodVal A (nested n : Value F) := by
    have : ∀ n, (∀ s, ¬ HasText (nested n : Value F) s) ∧ ∀ f, ¬ HasFloat (nested n : Value F) f := by
      intro n
      induction n with
      | zero => exact ⟨fun s h => by cases h with | elem h => simp at h, fun s h => by cases h with | elem h => simp at h⟩
      | succ n ih =>
        refine ⟨fun s h => ?_, fun s h => ?_⟩
        · cases h with | elem h h' => simp at h; subst h; exact ih.1 s h'
        · cases h with | elem h h' => simp at h; subst h; exact ih.2 s h'
    exact goodVal_scalar (this n).1 (this n).2
  rw [jsonDump_ok A str _ hg]
  have ht : ∀ n d, A.printer'.text d (nested n : Value F) = brackets n := by
    have hnl : A.printer'.style.nl = [] := by simp [DumpArgs.printer', DumpArgs.printer, DumpArgs.style, Style.nl, hp]
    have hin : ∀ d, A.printer'.style.indent d = [] := by simp [DumpArgs.printer', DumpArgs.printer, DumpArgs.style, Style.indent, hp]
    intro n
    induction n with
    | zero => intro d; simp [nested, Printer.text, Printer.block, Printer.texts, hnl, hin, brackets]
    | succ n ih =>
      intro d
      simp only [nested, Printer.text, Printer.block, Printer.texts, hnl, hin, ih]
      unfold brackets
      rw [List.replicate_succ (n := n + 1), List.replicate_succ' (n := n + 1)]
      simp [Printer.items, hin]
  rw [ht]

example : jsonDump (dumpArgs false false 0 0) none [] (nested 3) = (.ok (), ascii "[[[[]]]]") := by decide +kernel

/-! ## C31 -/

/-- C31. Dumping a value and parsing the text again gives the value: for every value without
floats whose integers are not INT64_MIN (and fit `int64_t`) and whose strings and keys are valid
text of code points that can be read back (`Rereadable`), for every encoding of the value and of
the text, compact or with any indent of blanks or tabs. -/
theorem C31_dump_parse (A : DumpArgs F) (B : ParseArgs F) (hAB : Reverses A B) (spec spec' : Nat → List Nat)
    (hs : Target A.se A.sw spec) (ht : Target A.te A.tw spec') (hb : A.pretty = true → A.ch = 0x20 ∨ A.ch = 0x09)
    (v : Value F) (hv : KeysSorted v) (hf : ∀ f, ¬ HasFloat v f)
    (hi : ∀ i, HasInt v i → -9223372036854775808 < i ∧ i < 9223372036854775808)
    (htx : ∀ s, HasText v s → ∃ cps : List Nat, s = cps.flatMap spec ∧
      ∀ c ∈ cps, Rereadable A.uesc c ∧ (A.sw = 16 ∨ A.tw = 16 → c ≠ 0xFFFF)) :
    ∃ t, (∀ str, jsonDump A none str v = (.ok (), str ++ t)) ∧ ∀ h c, jsonParse B h c t = (.ok (), v) := by
  have := dump_parse hAB hs ht hb v hv hi (fun f h => absurd h (hf f)) htx
  exact ⟨_, this.1, this.2⟩

example : Reverses (dumpArgs false true 4 0x20) (utf8Args true) := ⟨rfl, rfl, rfl, rfl⟩
example : Target (dumpArgs false true 4 0x20).se (dumpArgs false true 4 0x20).sw utf8 := .utf8
example : ∀ s, HasText sample s → ∃ cps : List Nat, s = cps.flatMap utf8 ∧
    ∀ c ∈ cps, Rereadable false c ∧ ((8 : Nat) = 16 ∨ (8 : Nat) = 16 → c ≠ 0xFFFF) := by
  have ok : ∀ cps : List Nat, (∀ c ∈ cps, IsScalar c ∧ (shortEscape c ≠ none ∨ 0x20 ≤ c)) →
      ∃ cps' : List Nat, cps.flatMap utf8 = cps'.flatMap utf8 ∧
        ∀ c ∈ cps', Rereadable false c ∧ ((8 : Nat) = 16 ∨ (8 : Nat) = 16 → c ≠ 0xFFFF) := fun cps h =>
    ⟨cps, rfl, fun c hc => ⟨⟨(h c hc).1, (h c hc).2.imp id fun h => ⟨h, nofun⟩⟩, by simp⟩⟩
  intro s h
  cases h with
  | key hm =>
    simp at hm
    rcases hm with ⟨rfl, _⟩ | ⟨rfl, _⟩ | ⟨rfl, _⟩
    · exact ok [0x61] (by decide)
    · exact ok [0x62] (by decide)
    · exact ok [0x63] (by decide)
  | member hm h =>
    simp at hm
    rcases hm with ⟨rfl, rfl⟩ | ⟨rfl, rfl⟩ | ⟨rfl, rfl⟩
    · cases h with
      | elem hx h =>
        simp at hx
        rcases hx with rfl | rfl | rfl
        · cases h
        · cases h
        · cases h; exact ok [0xE9, 0x0A] (by decide)
    · cases h with
      | key hm => simp at hm
      | member hm => simp at hm
    · cases h with
      | elem hx h =>
        simp at hx
        rcases hx with rfl | rfl
        · cases h with | elem hx _ => simp at hx
        · cases h
example : jsonParse (utf8Args true) none .null (jsonDump (dumpArgs false true 2 0x20) none [] sample).2 = (.ok (), sample) := by
  decide +kernel
example : jsonDump (dumpArgs false true 2 0x20) none [] sample =
    (.ok (), ascii "{\n  \"a\": [\n    1,\n    true,\n    \"" ++ [0xC3, 0xA9] ++
      ascii "\\n\"\n  ],\n  \"b\": {\n  },\n  \"c\": [\n    [\n    ],\n    -5\n  ]\n}") := by decide +kernel

/-! ## C32 -/

/-- C32 is false. U+0001 is written as `\u01`, which cannot be read; and U+0001 before `00` is
written as `\u0100`, which is read as another string. -/
theorem C32_violated (b : Bool) :
    jsonDump (dumpArgs false false 0 0) none [] (.str [0x01]) = (.ok (), ascii "\"\\u01\"") ∧
    (jsonParse (utf8Args b) none .null (ascii "\"\\u01\"")).1 = .error (.exn .deserialization) ∧
    jsonDump (dumpArgs false false 0 0) none [] (.str [0x01, 0x30, 0x30]) = (.ok (), ascii "\"\\u0100\"") ∧
    jsonParse (utf8Args b) none .null (ascii "\"\\u0100\"") = (.ok (), .str [0xC4, 0x80]) := by
  cases b <;> decide +kernel

/-- C32, partial: strings whose control characters are `\t \r \n \b \f` are read back. Missing:
the other control characters, for which it is false. -/
theorem C32_control_characters_partial (A : DumpArgs F) (B : ParseArgs F) (hAB : Reverses A B) (spec spec' : Nat → List Nat)
    (hs : Target A.se A.sw spec) (ht : Target A.te A.tw spec') (hb : A.pretty = true → A.ch = 0x20 ∨ A.ch = 0x09)
    (hu : A.uesc = false) (cps : List Nat) (hc : ∀ c ∈ cps, IsScalar c ∧ (A.sw = 16 ∨ A.tw = 16 → c ≠ 0xFFFF) ∧
      (c < 0x20 → c = 0x09 ∨ c = 0x0D ∨ c = 0x0A ∨ c = 0x08 ∨ c = 0x0C)) :
    ∃ t, (∀ str, jsonDump A none str (.str (cps.flatMap spec)) = (.ok (), str ++ t)) ∧
      ∀ h c, jsonParse B h c t = (.ok (), .str (cps.flatMap spec)) := by
  refine C31_dump_parse A B hAB spec spec' hs ht hb _ (fun ms h => by cases h) (fun f h => by cases h) (fun i h => by cases h) ?_
  intro s h
  cases h
  refine ⟨cps, rfl, fun c h => ⟨⟨(hc c h).1, ?_⟩, (hc c h).2.1⟩⟩
  rcases Nat.lt_or_ge c 0x20 with hl | hl
  · left
    rcases (hc c h).2.2 hl with rfl | rfl | rfl | rfl | rfl <;> decide
  · exact Or.inr ⟨hl, by rw [hu]; nofun⟩

example : jsonParse (utf8Args true) none .null (jsonDump (dumpArgs false false 0 0) none [] (.str [0x09, 0x41, 0x0C])).2 =
    (.ok (), .str [0x09, 0x41, 0x0C]) := by decide +kernel

/-! ## C33 -/

/-- C33 is false. With Unicode escaping `é` (U+00E9) is written as `\uE9`, which cannot be read;
`é00` is written as `\uE900`, which is read as U+E900, so two strings have the same text. -/
theorem C33_violated (b : Bool) :
    jsonDump (dumpArgs true false 0 0) none [] (.str [0xC3, 0xA9]) = (.ok (), ascii "\"\\uE9\"") ∧
    (jsonParse (utf8Args b) none .null (ascii "\"\\uE9\"")).1 = .error (.exn .deserialization) ∧
    jsonDump (dumpArgs true false 0 0) none [] (.str [0xC3, 0xA9, 0x30, 0x30]) = (.ok (), ascii "\"\\uE900\"") ∧
    jsonDump (dumpArgs true false 0 0) none [] (.str [0xEE, 0xA4, 0x80]) = (.ok (), ascii "\"\\uE900\"") ∧
    jsonParse (utf8Args b) none .null (ascii "\"\\uE900\"") = (.ok (), .str [0xEE, 0xA4, 0x80]) := by
  cases b <;> decide +kernel

/-- C33, partial: strings without control characters (but `\t \r \n \b \f`) and without
characters from U+007F to U+0FFF are read back. Missing: those characters, for which it is
false. -/
theorem C33_unicode_escaping_partial (A : DumpArgs F) (B : ParseArgs F) (hAB : Reverses A B) (spec spec' : Nat → List Nat)
    (hs : Target A.se A.sw spec) (ht : Target A.te A.tw spec') (hb : A.pretty = true → A.ch = 0x20 ∨ A.ch = 0x09)
    (cps : List Nat) (hc : ∀ c ∈ cps, IsScalar c ∧ (A.sw = 16 ∨ A.tw = 16 → c ≠ 0xFFFF) ∧
      (c = 0x09 ∨ c = 0x0D ∨ c = 0x0A ∨ c = 0x08 ∨ c = 0x0C ∨ (0x20 ≤ c ∧ c < 0x7F) ∨ 0x1000 ≤ c)) :
    ∃ t, (∀ str, jsonDump A none str (.str (cps.flatMap spec)) = (.ok (), str ++ t)) ∧
      ∀ h c, jsonParse B h c t = (.ok (), .str (cps.flatMap spec)) := by
  refine C31_dump_parse A B hAB spec spec' hs ht hb _ (fun ms h => by cases h) (fun f h => by cases h) (fun i h => by cases h) ?_
  intro s h
  cases h
  refine ⟨cps, rfl, fun c h => ⟨⟨(hc c h).1, ?_⟩, (hc c h).2.1⟩⟩
  rcases (hc c h).2.2 with rfl | rfl | rfl | rfl | rfl | ⟨h1, h2⟩ | h1
  · exact Or.inl (by decide)
  · exact Or.inl (by decide)
  · exact Or.inl (by decide)
  · exact Or.inl (by decide)
  · exact Or.inl (by decide)
  · exact Or.inr ⟨h1, fun _ => Or.inl h2⟩
  · exact Or.inr ⟨by omega, fun _ => Or.inr h1⟩

/-- `漢😀` -/
example : jsonDump (dumpArgs true false 0 0) none [] (.str ([0x6F22, 0x1F600].flatMap utf8)) = (.ok (), ascii "\"\\u6F22\\uD83D\\uDE00\"") := by
  decide +kernel

/-! ## C34 -/

/-- C34. With Unicode escaping, whatever the value and however the call ends, everything it has
appended is ASCII (for an ASCII indent character and a locale that writes floats in ASCII). -/
theorem C34_ascii_output (A : DumpArgs F) (hw : 8 ≤ A.tw) (hu : A.uesc = true) (hc : A.ch < 128)
    (hf : ∀ f, ∀ c ∈ A.fo.fmt f, c < 128) (h : Option Handler) (str : List Nat) (v : Value F) :
    ∃ t, (jsonDump A h str v).2 = str ++ t ∧ ∀ c ∈ t, c < 128 :=
  jsonDump_adds ⟨fun _ h => h, hc, hf, Or.inl ⟨hu, hw⟩⟩ h str v

example : (8 ≤ (dumpArgs true true 4 0x20).tw) ∧ (dumpArgs true true 4 0x20).ch < 128 := by decide
/-- Without it, it is not. -/
example : jsonDump (dumpArgs false false 0 0) none [] (.str [0xC3, 0xA9]) = (.ok (), [0x22, 0xC3, 0xA9, 0x22]) := by decide +kernel

/-! ## C35 -/

/-- C35. Indented with blanks or tabs, `dump` writes the tokens of the compact text with nothing
but blanks, tabs and line ends around them. -/
theorem C35_only_whitespace (A : DumpArgs F) (hb : A.pretty = true → A.ch = 0x20 ∨ A.ch = 0x09) (str r : List Nat) (v : Value F)
    (h : jsonDump A none str v = (.ok (), r)) :
    ∃ l, r = str ++ l ∧ Spaced Blanks (A.printer'.toks v) l ∧
      jsonDump { A with pretty := false } none str v = (.ok (), str ++ (A.printer'.toks v).flatten) := by
  obtain ⟨hg, hr⟩ := jsonDump_good h
  refine ⟨_, hr, ?_, ?_⟩
  · refine text_toks ⟨⟨by simp [Blanks], ?_⟩, nl_blank _, indent_blank (st := A.style) hb, space_blank (st := A.style) hb⟩ 0 v
    intro a b ha hb c hc
    exact (List.mem_append.1 hc).elim (ha c) (hb c)
  · have := jsonDump_ok { A with pretty := false } str v hg
    rw [this]
    have hl : Lays (· = []) (DumpArgs.printer' { A with pretty := false }) :=
      ⟨⟨rfl, fun ha hb => by rw [ha, hb]; rfl⟩, rfl, fun d => rfl, rfl⟩
    rw [spaced_flatten (text_toks hl 0 v)]
    have he := toks_same (P := DumpArgs.printer' { A with pretty := false }) (P' := A.printer') rfl rfl rfl v
    exact congrArg (fun t => (Except.ok (), str ++ List.flatten t)) he

/-- C35. The compact and the indented text are parsed to the same value, the one written. -/
theorem C35_same_value (A : DumpArgs F) (B : ParseArgs F) (hAB : Reverses A B) (spec spec' : Nat → List Nat)
    (hs : Target A.se A.sw spec) (ht : Target A.te A.tw spec') (step ch : Nat) (hb : ch = 0x20 ∨ ch = 0x09)
    (v : Value F) (hv : KeysSorted v) (hf : ∀ f, ¬ HasFloat v f)
    (hi : ∀ i, HasInt v i → -9223372036854775808 < i ∧ i < 9223372036854775808)
    (htx : ∀ s, HasText v s → ∃ cps : List Nat, s = cps.flatMap spec ∧
      ∀ c ∈ cps, Rereadable A.uesc c ∧ (A.sw = 16 ∨ A.tw = 16 → c ≠ 0xFFFF)) (h : Option Handler) (c : Value F) :
    jsonParse B h c (jsonDump { A with pretty := false } none [] v).2 = (.ok (), v) ∧
    jsonParse B h c (jsonDump { A with pretty := true, step := step, ch := ch } none [] v).2 = (.ok (), v) := by
  obtain ⟨t, h1, h2⟩ := C31_dump_parse { A with pretty := false } B ⟨hAB.se, hAB.sw, hAB.te, hAB.tw⟩ spec spec' hs ht (by nofun)
    v hv hf hi htx
  obtain ⟨t', h1', h2'⟩ := C31_dump_parse { A with pretty := true, step := step, ch := ch } B ⟨hAB.se, hAB.sw, hAB.te, hAB.tw⟩
    spec spec' hs ht (fun _ => hb) v hv hf hi htx
  rw [h1 [], h1' []]
  exact ⟨h2 h c, h2' h c⟩

example : (dumpArgs false true 2 0x20).printer'.toks (.arr [.int 1, .str [0x20]]) =
    [ascii "[", ascii "1", ascii ",", ascii "\" \"", ascii "]"] := by decide +kernel
example : (jsonDump (dumpArgs false true 2 0x20) none [] (.arr [.int 1, .str [0x20]])).2 = ascii "[\n  1,\n  \" \"\n]" := by decide +kernel

/-! ## C37 -/

/-- C37. For a value whose floats can be written, `dump` throws `configor_serialization_error`
exactly if some string or key cannot be decoded or has a code point the target encoding cannot
represent, and completes otherwise. -/
theorem C37_fails_exactly (A : DumpArgs F) (str : List Nat) (v : Value F) (hf : ∀ f, HasFloat v f → FloatOk A f) :
    ((jsonDump A none str v).1 = .error (.exn .serialization) ↔ ∃ s, HasText v s ∧ ¬ Fine A s) ∧
    ((jsonDump A none str v).1 = .ok () ↔ ∀ s, HasText v s → Fine A s) := by
  have h := jsonDump_spec (prints_printer' A) str v
  rcases hd : jsonDump A none str v with ⟨e | _, r⟩
  · rw [hd] at h
    rcases h with ⟨rfl, s, hs, hn⟩ | ⟨_, f, hf', hn⟩
    · exact ⟨⟨fun _ => ⟨s, hs, hn⟩, fun _ => rfl⟩, nofun, fun h => absurd (h s hs) hn⟩
    · exact absurd (hf f hf') hn
  · rw [hd] at h
    exact ⟨⟨nofun, fun ⟨s, hs, hn⟩ => absurd (h.1.1 s hs) hn⟩, fun _ => h.1.1, fun _ => rfl⟩

/-- C37. With Unicode encodings on both sides the strings that make it fail are those that
cannot be decoded. -/
theorem C37_malformed_strings (A : DumpArgs F) (he : A.se ≠ .ignore) (spec' : Nat → List Nat) (ht : Target A.te A.tw spec')
    (str : List Nat) (v : Value F) (hf : ∀ f, HasFloat v f → FloatOk A f) :
    (jsonDump A none str v).1 = .error (.exn .serialization) ↔
      ∃ s, HasText v s ∧ ¬ ∃ cps, ReadsAs (A.se.decode A.sw (strSBuf A.sw)) (onString s) cps := by
  rw [(C37_fails_exactly A str v hf).1]
  have hfine : ∀ s, Fine A s ↔ ∃ cps, ReadsAs (A.se.decode A.sw (strSBuf A.sw)) (onString s) cps := by
    intro s
    refine ⟨fun ⟨cps, h, _⟩ => ⟨cps, h⟩, fun ⟨cps, h⟩ => ⟨cps, h, fun c hc => Or.inr (Or.inr ?_)⟩⟩
    rw [(ht.store [c] (spec' c)).2 ⟨by simpa using readsAs_le he h c hc, by simp⟩]
    simp
  simp only [hfine]

/-- A truncated UTF-8 character. -/
example : (jsonDump (dumpArgs false false 0 0) none [] (.arr [.str [0x61, 0xE2, 0x82]])).1 = .error (.exn .serialization) := by
  decide +kernel
example : ¬ ∃ cps, ReadsAs (Enc.utf8.decode 8 (strSBuf 8)) (onString [0x61, 0xE2, 0x82]) cps := by
  have h : (jsonDump (dumpArgs false false 0 0) none [] (.str [0x61, 0xE2, 0x82])).1 = .error (.exn .serialization) := by decide +kernel
  obtain ⟨s, hs, hn⟩ := (C37_malformed_strings (dumpArgs false false 0 0) (by decide) utf8 .utf8 [] _ (fun f h => by cases h)).1 h
  cases hs
  exact hn

/-! ## C120 -/

/-- C120. An error handler never changes what is written. Every exception of `dump` is shown to it: the call returns normally if
the handler does not throw for it, and the exception goes on otherwise. Without an exception the handler has no influence. -/
theorem C120_dump_handler (A : DumpArgs F) (h : Handler) (str : List Nat) (v : Value F) :
    (jsonDump A (some h) str v).2 = (jsonDump A none str v).2 ∧
    (∀ e, (jsonDump A none str v).1 = .error (.exn e) →
      (h.swallows e = true → (jsonDump A (some h) str v).1 = .ok ()) ∧
      (h.swallows e = false → (jsonDump A (some h) str v).1 = .error (.exn e))) ∧
    ((∀ e, (jsonDump A none str v).1 ≠ .error (.exn e)) → (jsonDump A (some h) str v).1 = (jsonDump A none str v).1) := by
  unfold jsonDump Serializer.dump
  generalize (do Serializer.doDump A v; Serializer.next A .endOfInput : M Ser Unit) (Serializer.init A str) = r
  rcases r with ⟨(e | _), s⟩
  · cases e with
    | exn e => cases hs : h.swallows e <;> simp [hs]
    | _ => simp
  · simp

/-- A malformed string in an array, with the handlers of the policies `ignore` and `strict`: what precedes it is written. -/
example : jsonDump (dumpArgs false false 0 0x20) (some ⟨fun _ => true⟩) [] (.arr [.int 1, .str [0x61, 0xC3], .int 2] : Value Unit) =
      (.ok (), ascii "[1,\"a") ∧
    jsonDump (dumpArgs false false 0 0x20) (some ⟨fun _ => false⟩) [] (.arr [.int 1, .str [0x61, 0xC3], .int 2] : Value Unit) =
      (.error (.exn .serialization), ascii "[1,\"a") := by decide +kernel

/-! ## C38 -/

/-- C38. Two values that can be read back and have the same text are equal. -/
theorem C38_injective (A : DumpArgs F) (spec spec' : Nat → List Nat)
    (hs : Target A.se A.sw spec) (ht : Target A.te A.tw spec') (hb : A.pretty = true → A.ch = 0x20 ∨ A.ch = 0x09)
    (v v' : Value F) (hv : KeysSorted v) (hf : ∀ f, ¬ HasFloat v f)
    (hi : ∀ i, HasInt v i → -9223372036854775808 < i ∧ i < 9223372036854775808)
    (htx : ∀ s, HasText v s → ∃ cps : List Nat, s = cps.flatMap spec ∧
      ∀ c ∈ cps, Rereadable A.uesc c ∧ (A.sw = 16 ∨ A.tw = 16 → c ≠ 0xFFFF))
    (hv' : KeysSorted v') (hf' : ∀ f, ¬ HasFloat v' f)
    (hi' : ∀ i, HasInt v' i → -9223372036854775808 < i ∧ i < 9223372036854775808)
    (htx' : ∀ s, HasText v' s → ∃ cps : List Nat, s = cps.flatMap spec ∧
      ∀ c ∈ cps, Rereadable A.uesc c ∧ (A.sw = 16 ∨ A.tw = 16 → c ≠ 0xFFFF))
    (str : List Nat) (h : (jsonDump A none str v).2 = (jsonDump A none str v').2) : v = v' := by
  have hB : Reverses A ⟨A.te, A.tw, A.se, A.sw, true, A.fo⟩ := ⟨rfl, rfl, rfl, rfl⟩
  obtain ⟨t, h1, h2⟩ := C31_dump_parse A _ hB spec spec' hs ht hb v hv hf hi htx
  obtain ⟨t', h1', h2'⟩ := C31_dump_parse A _ hB spec spec' hs ht hb v' hv' hf' hi' htx'
  rw [h1 str, h1' str] at h
  have : t = t' := List.append_cancel_left h
  subst this
  have := (h2 none .null).symm.trans (h2' none .null)
  simpa using this

/-- The examples of C31 meet the hypotheses; different values, different texts. -/
example : (jsonDump (dumpArgs false false 0 0) none [] (.arr [.int 1, .int 2])).2 ≠
    (jsonDump (dumpArgs false false 0 0) none [] (.arr [.int 12])).2 := by decide +kernel

/-! ## C39 -/

/-- C39. However the call ends, with or without an error handler, the string still starts with
what it was; on success what is appended does not depend on it. -/
theorem C39_dump_appends (A : DumpArgs F) (h : Option Handler) (str : List Nat) (v : Value F) :
    (∃ t, (jsonDump A h str v).2 = str ++ t) ∧
    ((jsonDump A none str v).1 = .ok () → ∃ t, ∀ str', jsonDump A none str' v = (.ok (), str' ++ t)) := by
  constructor
  · obtain ⟨t, ht, _⟩ := jsonDump_adds (A := A) (Q := fun _ => True) ⟨fun _ _ => trivial, trivial, fun _ _ _ => trivial,
      Or.inr fun _ => trivial⟩ h str v
    exact ⟨t, ht⟩
  · intro hok
    rcases hd : jsonDump A none str v with ⟨e | _, r⟩
    · rw [hd] at hok; cases hok
    · exact ⟨_, fun str' => jsonDump_ok A str' v (jsonDump_good hd).1⟩

/-- Also after an error. -/
example : jsonDump (dumpArgs false false 0 0) none [0x78] (.arr [.int 1, .str [0xE2]]) =
    (.error (.exn .serialization), ascii "x[1,\"") := by decide +kernel

/-! ## C40 -/

/-- C40. Whatever the value, its nesting depth (also beyond 65535) and the indent step, writing
indentation never reads past the indent buffer: undefined behaviour can only come from a float
that has no fraction and is outside the range of `int64_t`. -/
theorem C40_indent_in_bounds (A : DumpArgs F) (h : Option Handler) (str : List Nat) (v : Value F)
    (hub : (jsonDump A h str v).1 = .error .ub) : ∃ f, HasFloat v f ∧ ¬ FloatOk A f := by
  have hn : (jsonDump A none str v).1 = .error .ub := by
    unfold jsonDump Serializer.dump at hub ⊢
    rcases hr : (do Serializer.doDump A v; Serializer.next A .endOfInput : M Ser Unit) (Serializer.init A str) with ⟨e | _, s'⟩
    · rw [hr] at hub
      cases e with
      | exn e =>
        cases h with
        | none => exact hub
        | some h =>
          simp only at hub
          split at hub <;> simp at hub
      | _ => cases h <;> exact hub
    · rw [hr] at hub
      cases h <;> exact hub
  have h := jsonDump_spec (prints_printer' A) str v
  rcases hd : jsonDump A none str v with ⟨e | _, r⟩
  · rw [hd] at h hn
    simp only at hn
    cases hn
    rcases h with ⟨h, _⟩ | ⟨_, h⟩
    · cases h
    · exact h
  · rw [hd] at hn; cases hn

/-- C40. Whatever the value, the call ends: it completes, throws a serialization error, or is
undefined as above. -/
theorem C40_dump_ends (A : DumpArgs F) (str : List Nat) (v : Value F) :
    (jsonDump A none str v).1 = .ok () ∨ (jsonDump A none str v).1 = .error (.exn .serialization) ∨
    (jsonDump A none str v).1 = .error .ub := by
  have h := jsonDump_spec (prints_printer' A) str v
  rcases hd : jsonDump A none str v with ⟨e | _, r⟩
  · rw [hd] at h
    rcases h with ⟨rfl, _⟩ | ⟨rfl, _⟩
    · exact Or.inr (Or.inl rfl)
    · exact Or.inr (Or.inr rfl)
  · exact Or.inl rfl

/-- Depth 3, step 255. -/
example : (jsonDump (dumpArgs false true 255 0x20) none [] (nested 3)).1 = .ok () := by decide +kernel

end Configor.Props
