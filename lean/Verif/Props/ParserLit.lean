import Verif.Model.Serializer
import Verif.Proofs.Texts
import Verif.Props.Encoding
import Verif.Props.ParserText
/-!
# Properties of `json::parse`: integers, strings, nesting

C20, C21, C26 to C30.
-/
set_option autoImplicit false
namespace Configor.Props
open Spec

variable {F : Type}

/-! ## C20 -/

/-- The decimal digits of an integer literal: `0`, or digits that do not start with `0`. -/
def IntDigits (ds : List Nat) : Prop :=
  ds = [0x30] ∨ (ds ≠ [] ∧ ds.head? ≠ some 0x30 ∧ ∀ d ∈ ds, Rfc.Digit d)

/-- A sign and whether it negates. -/
inductive Sign : List Nat → Bool → Prop where
  | none : Sign [] false
  | plus : Sign [0x2B] false
  | minus : Sign [0x2D] true

theorem intBody {D : Dialect F} (hw : 8 ≤ D.w) {ds : List Nat} (hd : IntDigits ds)
    (hm : Rfc.decimal ds ≤ 9223372036854775807) {nx : Option Nat} (hn : After nx) (b : Bool) :
    NumBody D b ds nx (.int (Rfc.decimal ds)) := by
  have hv : (⟨false, ds, none, none⟩ : Rfc.Lit).Valid := by
    refine ⟨?_, by simp, by simp⟩
    rcases hd with rfl | ⟨h1, h2, h3⟩
    · exact Or.inl rfl
    · cases ds with
      | nil => exact absurd rfl h1
      | cons d ds =>
        have := h3 d (by simp)
        unfold Rfc.Digit at this
        simp at h2
        exact Or.inr ⟨d, ds, rfl, by omega, by omega, fun x hx => h3 x (by simp [hx])⟩
  have := numBody_of (D := D) hw hv ⟨hm, by simp⟩ hn b
  simpa [fracText, expText, litNum] using this

/-- C20. An integer literal up to 2^63-1, with or without a sign, denotes its value wherever a
value may stand (`After nx`: it is followed by the end of the text, a blank, a comment, a comma
or a closing bracket). -/
theorem C20_integer_value (A : ParseArgs F) (hA : A.Usual) (sg ds : List Nat) (neg : Bool) (hs : Sign sg neg)
    (hd : IntDigits ds) (hm : Rfc.decimal ds ≤ 9223372036854775807) (nx : Option Nat) (hn : After nx) :
    Val A.dialect (sg ++ ds) nx (.int (if neg then -(Rfc.decimal ds : Int) else Rfc.decimal ds)) := by
  have hb := intBody (D := A.dialect) hA.sw hd hm hn
  refine .num ?_
  cases hs with
  | none =>
    cases ds with
    | nil => rcases hd with h | ⟨h, _⟩ <;> simp at h
    | cons d ds =>
      have hd' : Rfc.Digit d := by
        rcases hd with h | ⟨_, _, h⟩
        · simp at h; rw [h.1]; exact ⟨by decide, by decide⟩
        · exact h d (by simp)
      exact .plain hd'.1 hd'.2 (hb false)
  | plus => exact .signed (Or.inl rfl) (hb true)
  | minus => exact .signed (Or.inr rfl) (hb true)

theorem gap_after {g : List Nat} (h : Gap g) : After g.head? := by
  intro c hc
  cases h with
  | nil => cases hc
  | blank h _ => simp at hc; subst hc; exact Or.inl h
  | line => simp at hc; subst hc; exact Or.inr (Or.inl rfl)
  | block => simp at hc; subst hc; exact Or.inr (Or.inl rfl)

/-- C20. A text that consists of such a literal, with blanks and comments around it, is parsed to
its value. -/
theorem C20_integers_exact (A : ParseArgs F) (hA : A.Usual) (h : Option Handler) (c : Value F)
    (str g sg ds g' : List Nat) (neg : Bool) (hs : Sign sg neg) (hg : Gap g) (hg' : Gap g')
    (hd : IntDigits ds) (hm : Rfc.decimal ds ≤ 9223372036854775807) (hl : Reads A str (g ++ (sg ++ ds) ++ g')) :
    jsonParse A h c str = (.ok (), .int (if neg then -(Rfc.decimal ds : Int) else Rfc.decimal ds)) := by
  have hd := C20_integer_value A hA sg ds neg hs hd hm g'.head? (gap_after hg')
  have hdoc : Document A.dialect ((g ++ (sg ++ ds) ++ g').map some) _ :=
    ⟨g, sg ++ ds, g', [], by simp, hg, by
      have he : ((g'.map some ++ []).head?.join) = g'.head? := by cases g' <;> rfl
      rw [he]; exact hd, .eof hg'⟩
  rw [jsonParse_items hA, ← (sees_iff A str _).1 hl.sees]
  have hle := itemsOf_length A.se A.sw str
  rw [← (sees_iff A str _).1 hl.sees] at hle
  exact parseItems_complete hA h c hdoc (by omega)

example : IntDigits (ascii "9223372036854775807") := Or.inr ⟨by decide, by decide, by simp [ascii, Rfc.Digit]⟩
example : Rfc.decimal (ascii "9223372036854775807") = 2 ^ 63 - 1 := by decide +kernel
example : jsonParse (utf8Args true) none .null (ascii " -9223372036854775807") = (.ok (), .int (-9223372036854775807)) := by
  decide +kernel

/-! ## C21 -/

theorem sees_items {A : ParseArgs F} {str : List Nat} {l : List (Option Nat)} (h : Sees A str l) (c : Value F) (hA : A.Usual) :
    ∃ n, 2 * l.length + 2 ≤ n ∧ jsonParse A none c str = parseItems A n none c l := by
  have h' := (sees_iff A str l).1 h
  refine ⟨2 * str.length + 4, ?_, ?_⟩
  · have := itemsOf_length A.se A.sw str
    rw [← h'] at this; omega
  · rw [jsonParse_items hA, h']

/-- C21. An integer part above 2^63-1 anywhere in a text, with or without a sign, whatever
follows, makes the call overflow a signed integer (undefined behaviour): no value and no
exception results. In particular -2^63 cannot be read. -/
theorem C21_integer_overflow (A : ParseArgs F) (hA : A.Usual) (c : Value F) (str p sg ds : List Nat) (k : List (Option Nat))
    (neg : Bool) (hp : ValueDue A.dialect p) (hs : Sign sg neg) (hd : IntDigits ds) (hm : 9223372036854775807 < Rfc.decimal ds)
    (hl : Sees A str ((p ++ sg ++ ds).map some ++ k)) :
    (jsonParse A none c str).1 = .error .ub := by
  have hz : ds ≠ [0x30] := by rintro rfl; revert hm; decide
  obtain ⟨h1, h2, h3⟩ := hd.resolve_left hz
  have hiv : intMax < intVal ds := by rw [intVal_decimal h3]; exact hm
  have ht : TooBig A.sw (sg ++ ds) := by
    cases ds with
    | nil => exact absurd rfl h1
    | cons d ds =>
      have hd := h3 d (by simp)
      simp at h2
      cases hs with
      | none => exact .plain (by have := hd.1; omega) hd.2 (fun x hx => isDig_of hA.sw (h3 x (by simp [hx]))) hiv
      | plus => exact .signed (Or.inl rfl) h2 (fun x hx => isDig_of hA.sw (h3 x hx)) hiv
      | minus => exact .signed (Or.inr rfl) h2 (fun x hx => isDig_of hA.sw (h3 x hx)) hiv
  have he : (p ++ sg ++ ds).map some ++ k = txt p (txt (sg ++ ds) k) := by simp [txt]
  rw [he] at hl
  obtain ⟨n, hn, h⟩ := sees_items hl c hA
  rw [h]
  exact parse_tooBig hA c hp ht hn

example : (jsonParse (utf8Args true) none .null (ascii "[1,{\"a\":-9223372036854775808}]")).1 = .error .ub := by decide +kernel
example : ValueDue (utf8Args true).dialect (ascii "[1,{\"a\":") := by
  refine .arr (g := []) (q := ascii "1,") (p := ascii "{\"a\":") .nil
    (.more (g := []) (t := ascii "1") (g' := []) (u := []) (v := .int 1) .nil
      (C20_integer_value (utf8Args true) (utf8Args_usual true) [] (ascii "1") false .none
        (Or.inr ⟨by decide, by decide, by simp [ascii, Rfc.Digit]⟩) (by decide) _ (by simp [After])) .nil .nil) ?_
  exact .obj (g := []) (q := []) (g' := []) (k := ascii "\"a\"") (s := [0x61]) (g1 := []) (p := []) .nil .nil .nil
    ⟨ascii "a\"", [0x61], by decide, .raw (by decide) (by decide) (by decide) .close, by decide⟩ .nil (.here .nil)

/-! ## C26 -/

/-- C26. A text that consists of one string literal, with blanks and comments around it, is parsed
to the units of exactly the code points the literal denotes. -/
theorem C26_string_literals (A : ParseArgs F) (hA : A.Usual) (h : Option Handler) (c : Value F)
    (spec : Nat → List Nat) (ht : Target A.te A.tw spec) (str g u cps g' : List Nat) (hg : Gap g) (hg' : Gap g')
    (hu : StrChars u cps) (hm : ∀ x ∈ cps, x ≤ maxCp) (hl : Reads A str (g ++ (0x22 :: u) ++ g')) :
    jsonParse A h c str = (.ok (), .str (cps.flatMap spec)) := by
  have hdoc : Document A.dialect ((g ++ (0x22 :: u) ++ g').map some) (.str (cps.flatMap spec)) :=
    ⟨g, 0x22 :: u, g', [], by simp, hg, .str ⟨u, cps, rfl, hu, (ht.store cps _).2 ⟨hm, rfl⟩⟩, .eof hg'⟩
  rw [jsonParse_items hA, ← (sees_iff A str _).1 hl.sees]
  have hle := itemsOf_length A.se A.sw str
  rw [← (sees_iff A str _).1 hl.sees] at hle
  exact parseItems_complete hA h c hdoc (by omega)

/-- C26. Every string and every key of a parsed value, at any depth, is denoted by a string
literal of the text. -/
theorem C26_strings_from_literals (A : ParseArgs F) (hA : A.Usual) (c v : Value F) (spec : Nat → List Nat)
    (ht : Target A.te A.tw spec) (str : List Nat) (l : List (Option Nat)) (hl : Sees A str l)
    (h : jsonParse A none c str = (.ok (), v)) (s : List Nat) (hs : HasText v s) :
    ∃ a u b cps, l = (a ++ 0x22 :: u).map some ++ b ∧ StrChars u cps ∧ (∀ x ∈ cps, x ≤ maxCp) ∧ s = cps.flatMap spec := by
  obtain ⟨g, t, e, more, rfl, hg, hv, hf⟩ := (C11_accepts_exactly_grammar A hA c v str l hl).1 h
  obtain ⟨a, k, b, rfl, u, cps, rfl, hu, hst⟩ := val_texts hv s hs
  obtain ⟨hm, rfl⟩ := (ht.store cps s).1 hst
  exact ⟨g ++ a, u, (b ++ e).map some ++ more, cps, by simp, hu, hm, rfl⟩

/-- `"é\u0041\ud83d\uDE00\n"` -/
example : StrChars (0xE9 :: ascii "\\u0041\\ud83d\\uDE00\\n\"") [0xE9, 0x41, 0x1F600, 0x0A] := by
  have h1 : Hex4 (ascii "0041") (((0 * 16 + 0) * 16 + 4) * 16 + 1) := .mk rfl rfl rfl rfl
  have h2 : Hex4 (ascii "d83d") (((13 * 16 + 8) * 16 + 3) * 16 + 13) := .mk rfl rfl rfl rfl
  have h3 : Hex4 (ascii "DE00") (((13 * 16 + 14) * 16 + 0) * 16 + 0) := .mk rfl rfl rfl rfl
  have h := StrChars.uni h1 (by decide) (.pair h2 (by decide) h3 (by decide) (.esc (c := 0x6E) (d := 0x0A) rfl .close))
  exact .raw (by decide) (by decide) (by decide) h
example : jsonParse (utf8Args true) none .null ([0x22, 0xC3, 0xA9] ++ ascii "\\u0041\\ud83d\\uDE00\\n\"") =
    (.ok (), .str [0xC3, 0xA9, 0x41, 0xF0, 0x9F, 0x98, 0x80, 0x0A]) := by decide +kernel

/-! ## C27 -/

/-- C27. A string literal where a value is due, at any depth, that after complete characters goes
on in one of the wrong ways of `BadStr` (a control character, an unknown escape, fewer than four
hex digits, a lead surrogate without a trail surrogate, a malformed character, the end of the
input) makes the call throw a `configor_deserialization_error`. -/
theorem C27_bad_strings_rejected (A : ParseArgs F) (hA : A.Usual) (c : Value F) (str p q : List Nat) (k : List (Option Nat))
    (hp : ValueDue A.dialect p) (hq : StrOpen q) (hk : BadStr k) (hl : Sees A str ((p ++ 0x22 :: q).map some ++ k)) :
    (jsonParse A none c str).1 = .error (.exn .deserialization) := by
  have he : (p ++ 0x22 :: q).map some ++ k = txt p (txt (0x22 :: q) k) := by simp [txt]
  rw [he] at hl
  obtain ⟨n, hn, h⟩ := sees_items hl c hA
  rw [h]
  exact parse_badString hA c hp hq hk hn

/-- C27. The same for the key of a member. -/
theorem C27_bad_keys_rejected (A : ParseArgs F) (hA : A.Usual) (c : Value F) (str p m g q : List Nat) (k : List (Option Nat))
    (ms : List (List Nat × Value F)) (hp : ValueDue A.dialect p) (hm : MembersOpen A.dialect m ms) (hg : Gap g)
    (hq : StrOpen q) (hk : BadStr k) (hl : Sees A str ((p ++ 0x7B :: m ++ g ++ 0x22 :: q).map some ++ k)) :
    (jsonParse A none c str).1 = .error (.exn .deserialization) := by
  obtain ⟨n, hn, h⟩ := sees_items hl c hA
  rw [h]
  exact parse_badKey hA c hp hm hg hq hk hn

/-- `["a`, then a line feed. -/
example : ValueDue (utf8Args true).dialect (ascii "[") ∧ StrOpen (ascii "a") ∧ BadStr [some 0x0A, some 0x22] :=
  ⟨.arr (g := []) (q := []) (p := []) .nil .nil (.here .nil), .more (t := [0x61]) (.raw (by decide) (by decide) (by decide)) .nil,
   .control (by decide)⟩
/-- `\ud800x` -/
example : BadStr ((ascii "\\ud800").map some ++ [some 0x78]) :=
  .leadAlone (h := ascii "d800") (.mk (x := 13) (y := 8) (z := 0) (w := 0) rfl rfl rfl rfl) (by decide) (by decide)
example : (jsonParse (utf8Args true) none .null (ascii "[\"\\ud800x\"]")).1 = .error (.exn .deserialization) := by decide +kernel

/-! ## C28 -/

/-- C28 is false: `"\udc00"` is read as a string that is not valid UTF-8. -/
theorem C28_violated (b : Bool) :
    jsonParse (utf8Args b) none .null (ascii "\"\\udc00\"") = (.ok (), .str [0xED, 0xB0, 0x80]) ∧
    ∀ cps : List Nat, (∀ c ∈ cps, IsScalar c) → cps.flatMap utf8 ≠ [0xED, 0xB0, 0x80] := by
  refine ⟨by cases b <;> decide +kernel, ?_⟩
  intro cps hc h
  have hc' : ∀ c ∈ cps, c ≤ maxCp := fun c hm => (hc c hm).1
  have hu : cps = [0xDC00] := by
    refine C09_utf8_injective cps [0xDC00] hc' (by simp [maxCp]) ?_
    rw [writeAll_out (spec := Spec.utf8) (fun o cp ho hc => utf8Encode_ok ho hc) cps hc' _ rfl,
      writeAll_out (spec := Spec.utf8) (P := fun c => c ≤ maxCp) (fun o cp ho hc => utf8Encode_ok ho hc) [0xDC00] (by simp [maxCp]) _ rfl, h]
    rfl
  subst hu
  exact (hc 0xDC00 (by simp)).2 ⟨by decide, by decide⟩

/-- C28, partial. If the string literals of the text denote Unicode scalar values (no lone
`\uDC00`..`\uDFFF` and no raw surrogates), then every string and key of the parsed value, at any
depth, is the encoding of Unicode scalar values. -/
theorem C28_valid_unicode_partial (A : ParseArgs F) (hA : A.Usual) (c v : Value F) (spec : Nat → List Nat)
    (ht : Target A.te A.tw spec) (str l : List Nat) (hl : Reads A str l) (toks : List (List Nat)) (hy : Layout toks l)
    (hsc : ∀ t ∈ toks, ∀ u cps, t = 0x22 :: u → StrChars u cps → ∀ x ∈ cps, IsScalar x)
    (h : jsonParse A none c str = (.ok (), v)) (s : List Nat) (hs : HasText v s) :
    ∃ cps : List Nat, (∀ x ∈ cps, IsScalar x) ∧ s = cps.flatMap spec := by
  have hv := (document_toks (D := A.dialect) hA.sw hy).1 ((parse_document hA hl).1 h)
  obtain ⟨t, hm, u, cps, rfl, hu, hst⟩ := tval_texts hv s hs
  exact ⟨cps, hsc _ hm u cps rfl hu, ((ht.store cps s).1 hst).2⟩

/-! ## C29 -/

/-- C29. Every string and key of a parsed value, at any depth, is denoted by a literal of the
source text, and reads back, in the target encoding, as exactly the code points that the literal
denotes. (For UTF-16 these must not contain lead surrogates, which only malformed source texts
have, nor, on a 16 bit type, U+FFFF: see C113.) -/
theorem C29_transcoding (A : ParseArgs F) (hA : A.Usual) (c v : Value F) (spec : Nat → List Nat)
    (ht : Target A.te A.tw spec) (str : List Nat) (l : List (Option Nat)) (hl : Sees A str l)
    (h : jsonParse A none c str = (.ok (), v)) (s : List Nat) (hs : HasText v s) :
    ∃ a u b cps, l = (a ++ 0x22 :: u).map some ++ b ∧ StrChars u cps ∧
      ((A.te = .utf16 → (∀ x ∈ cps, isLead x = false) ∧ (A.tw = 16 → ∀ x ∈ cps, x ≠ 0xFFFF)) →
        ReadsAs (A.te.decode A.tw (strSBuf A.tw)) (onString s) cps) := by
  obtain ⟨a, u, b, cps, h1, h2, h3, h4⟩ := C26_strings_from_literals A hA c v spec ht str l hl h s hs
  refine ⟨a, u, b, cps, h1, h2, ?_⟩
  rw [h4]
  obtain ⟨se, sw, te, tw, d, fo⟩ := A
  simp only at ht ⊢
  intro hc
  cases ht with
  | utf8 =>
    have := C09_utf8_text_roundtrip cps h3
    rwa [writeAll_out (spec := Spec.utf8) (fun o cp ho hc => utf8Encode_ok ho hc) cps h3 _ rfl] at this
  | utf16 =>
    obtain ⟨hc1, hc2⟩ := hc rfl
    have h3' : ∀ c ∈ cps, c ≤ maxCp ∧ isLead c = false ∧ ((16 : Nat) = 16 → c ≠ 0xFFFF) :=
      fun c hm => ⟨h3 c hm, hc1 c hm, fun _ => hc2 rfl c hm⟩
    have := C09_utf16_text_roundtrip 16 (Or.inl rfl) cps h3'
    rw [utf16c_text (hc2 rfl)]
    rwa [writeAll_out (spec := Spec.utf16) (P := fun c => c ≤ maxCp ∧ isLead c = false ∧ ((16 : Nat) = 16 → c ≠ 0xFFFF))
      (fun o cp ho hc => utf16Encode_ok (Or.inl rfl) ho ⟨hc.1, hc.2.2⟩) cps h3' (.ofString []) rfl] at this
  | utf16w =>
    obtain ⟨hc1, _⟩ := hc rfl
    have h3' : ∀ c ∈ cps, c ≤ maxCp ∧ isLead c = false ∧ ((32 : Nat) = 16 → c ≠ 0xFFFF) :=
      fun c hm => ⟨h3 c hm, hc1 c hm, nofun⟩
    have := C09_utf16_text_roundtrip 32 (Or.inr rfl) cps h3'
    rwa [writeAll_out (spec := Spec.utf16) (P := fun c => c ≤ maxCp ∧ isLead c = false ∧ ((32 : Nat) = 16 → c ≠ 0xFFFF))
      (fun o cp ho hc => utf16Encode_ok (Or.inr rfl) ho ⟨hc.1, hc.2.2⟩) cps h3' (.ofString []) rfl] at this
  | utf32 =>
    have := C09_utf32_text_roundtrip cps h3
    rwa [writeAll_out (spec := Spec.utf32) (fun o cp ho hc => utf32Encode_ok ho hc) cps h3 _ rfl] at this

/-- UTF-32 to UTF-8: `"é"`. -/
example : jsonParse ⟨.utf32, 32, .utf8, 8, true, unitFloat⟩ none .null [0x22, 0xE9, 0x22] = (.ok (), .str [0xC3, 0xA9]) := by
  decide +kernel
/-- UTF-8 to UTF-16: `"😀"`. -/
example : jsonParse ⟨.utf8, 8, .utf16, 16, true, unitFloat⟩ none .null [0x22, 0xF0, 0x9F, 0x98, 0x80, 0x22] =
    (.ok (), .str [0xD83D, 0xDE00]) := by decide +kernel

/-! ## C113 -/

/-- The text with U+FFFD in place of every U+FFFF. -/
def replaceNoncharacter (cps : List Nat) : List Nat := cps.map fun c => if c = 0xFFFF then 0xFFFD else c

/-- C113, violated. Parsing UTF-8 into strings of `char16_t` turns U+FFFF, a Unicode scalar value, into U+FFFD, raw or escaped
(`"<U+FFFF>"`, `"\uFFFF"`); the members `"\uFFFF"` and `"\uFFFD"` of an object become one; and a UTF-16 string
with that unit is dumped as U+FFFD. None of this is reported. -/
theorem C113_violated : ∃ A : ParseArgs Unit, A.te = .utf16 ∧ A.tw = 16 ∧ IsScalar 0xFFFF ∧
    jsonParse A none .null ([0x22] ++ utf8 0xFFFF ++ [0x22]) = (.ok (), .str (utf16 0xFFFD)) ∧
    jsonParse A none .null (ascii "\"\\uFFFF\"") = (.ok (), .str (utf16 0xFFFD)) ∧
    jsonParse A none .null (ascii "{\"\\uFFFF\":1,\"\\uFFFD\":2}") = (.ok (), .obj [(utf16 0xFFFD, .int 1)]) ∧
    jsonDump ⟨.utf16, 16, .utf8, 8, false, false, 0, 0x20, unitFloat⟩ none [] (.str (utf16 0xFFFF)) =
      (.ok (), [0x22] ++ utf8 0xFFFD ++ [0x22]) :=
  ⟨⟨.utf8, 8, .utf16, 16, true, unitFloat⟩, by decide +kernel⟩

/-- C113, partial: U+FFFF is the only character that is lost. Every string and key of a value parsed into strings of
`char16_t`, at any depth, is denoted by a literal of the source text, and reads as the code points that the literal denotes
with U+FFFD in place of U+FFFF. (They must not contain lead surrogates, which only malformed source texts have.) -/
theorem C113_only_noncharacter_partial (A : ParseArgs F) (hA : A.Usual) (he : A.te = .utf16) (hw : A.tw = 16) (c v : Value F)
    (str : List Nat) (l : List (Option Nat)) (hl : Sees A str l)
    (h : jsonParse A none c str = (.ok (), v)) (s : List Nat) (hs : HasText v s) :
    ∃ a u b cps, l = (a ++ 0x22 :: u).map some ++ b ∧ StrChars u cps ∧
      ((∀ x ∈ cps, isLead x = false) →
        ReadsAs (utf16Decode (strSBuf 16)) (onString s) (replaceNoncharacter cps)) := by
  have ht : Target A.te A.tw utf16c := by rw [he, hw]; exact .utf16
  obtain ⟨a, u, b, cps, h1, h2, h3, h4⟩ := C26_strings_from_literals A hA c v utf16c ht str l hl h s hs
  refine ⟨a, u, b, cps, h1, h2, fun hc => ?_⟩
  have h5 : ∀ c ∈ replaceNoncharacter cps, c ≤ maxCp ∧ isLead c = false ∧ ((16 : Nat) = 16 → c ≠ 0xFFFF) := by
    intro c hm
    obtain ⟨x, hx, rfl⟩ := List.mem_map.1 hm
    by_cases e : x = 0xFFFF
    · rw [if_pos e]; decide
    · rw [if_neg e]; exact ⟨h3 x hx, hc x hx, fun _ => e⟩
  have h6 : s = (replaceNoncharacter cps).flatMap utf16 := by
    rw [h4]
    unfold replaceNoncharacter
    clear h1 h2 h3 h4 hc h5
    induction cps with
    | nil => rfl
    | cons x xs ih =>
      rw [List.flatMap_cons, ih, List.map_cons, List.flatMap_cons]
      unfold utf16c
      by_cases e : x = 0xFFFF
      · rw [if_pos e, if_pos e]; rfl
      · rw [if_neg e, if_neg e]
  have := C09_utf16_text_roundtrip 16 (.inl rfl) _ h5
  rwa [writeAll_out (spec := utf16) (P := fun c => c ≤ maxCp ∧ isLead c = false ∧ ((16 : Nat) = 16 → c ≠ 0xFFFF))
    (fun o cp ho hc => utf16Encode_ok (.inl rfl) ho ⟨hc.1, hc.2.2⟩) _ h5 (.ofString []) rfl,
    show (OStream.ofString []).out = [] from rfl, List.nil_append, ← h6] at this

example : jsonParse ⟨.utf8, 8, .utf16, 16, true, unitFloat⟩ none .null ([0x22, 0x61] ++ utf8 0xFFFF ++ utf8 0x1F600 ++ [0x22]) =
    (.ok (), .str [0x61, 0xFFFD, 0xD83D, 0xDE00]) := by decide +kernel

/-! ## C30 -/

/-- The value of `n` nested arrays. -/
def nested : Nat → Value F
  | 0 => .arr []
  | n + 1 => .arr [nested n]

/-- The text of `n + 1` nested arrays. -/
def brackets (n : Nat) : List Nat := List.replicate (n + 1) 0x5B ++ List.replicate (n + 1) 0x5D

/-- C30, the reading half. For every depth the text of nested arrays is parsed to nested arrays. -/
theorem C30_nested_parse (A : ParseArgs F) (hA : A.Usual) (h : Option Handler) (c : Value F) (n : Nat)
    (str : List Nat) (hl : Reads A str (brackets n)) : jsonParse A h c str = (.ok (), nested n) := by
  have hb : ∀ n, ∃ t, brackets n = 0x5B :: t ∧ Elems A.dialect t (match n with | 0 => [] | n + 1 => [nested n]) := by
    intro n
    induction n with
    | zero => exact ⟨[0x5D], rfl, .close (g := []) .nil⟩
    | succ n ih =>
      obtain ⟨t, ht, he⟩ := ih
      refine ⟨brackets n ++ [0x5D], ?_, ?_⟩
      · unfold brackets
        rw [List.replicate_succ (n := n + 1), List.replicate_succ' (n := n + 1)]
        simp
      · rw [ht]
        have := Elems.last (D := A.dialect) (g := []) (g' := []) (t := 0x5B :: t) .nil (.arr he) .nil
        cases n <;> simpa [nested] using this
  obtain ⟨t, ht, he⟩ := hb n
  have hdoc : Document A.dialect ((brackets n).map some) (nested n) := by
    refine ⟨[], brackets n, [], [], by simp, .nil, ?_, .eof .nil⟩
    rw [ht]
    cases n <;> exact .arr he
  rw [jsonParse_items hA, ← (sees_iff A str _).1 hl.sees]
  have hle := itemsOf_length A.se A.sw str
  rw [← (sees_iff A str _).1 hl.sees] at hle
  exact parseItems_complete hA h c hdoc (by omega)

example : brackets 2 = ascii "[[[]]]" := by decide
example : jsonParse (utf8Args true) none .null (brackets 5) = (.ok (), nested 5) := by decide +kernel

end Configor.Props
