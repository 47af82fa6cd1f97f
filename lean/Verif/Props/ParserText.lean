import Verif.Proofs.Words
import Verif.Proofs.Width
import Verif.Props.ParserCore
/-!
# Properties of `json::parse`: which texts are accepted

C12 to C17. `Reads A str l`: the string `str` is the text `l` in the source encoding.
-/
set_option autoImplicit false
namespace Configor.Props
open Spec

variable {F : Type}

theorem reads_of_delivers {σ : Type} {dec : IStream σ → Decoded σ} {s : IStream σ} {l : List Nat}
    (h : Delivers dec s (l.map some)) : ReadsAs dec s l := by
  generalize hl : l.map some = m at h
  induction h generalizing l with
  | done h => simp at hl; subst hl; exact .done h
  | bad h h' =>
    cases l with
    | nil => cases hl
    | cons c l => simp at hl
  | more h hg _ ih =>
    cases l with
    | nil => cases hl
    | cons c l => simp at hl; rw [hl.1]; exact .more h hg (ih hl.2)

theorem reads_iff (A : ParseArgs F) (str l : List Nat) : Reads A str l ↔ itemsOf A.se A.sw str = l.map some :=
  ⟨itemsOf_reads, fun h => reads_of_delivers ((sees_iff A str _).2 h.symm)⟩

theorem parse_document {A : ParseArgs F} (hA : A.Usual) {c v : Value F} {str l : List Nat} (hl : Reads A str l) :
    jsonParse A none c str = (.ok (), v) ↔ Document A.dialect (l.map some) v :=
  C11_accepts_exactly_grammar A hA c v str _ hl.sees

/-! ## C12 -/

/-- What a call can read of RFC 8259: the strings its target encoding can represent, and the
numbers with an integer part up to 2^63-1 and an exponent below 2^32, except for an exponent
without sign that starts with `0` and an exponent directly behind the integer part `0`. -/
def rfc (A : ParseArgs F) : Rfc.Params F where
  fo := A.fo
  store := A.dialect.store
  ok n := Rfc.decimal n.int ≤ 9223372036854775807 ∧
    ∀ e s ds, n.exp = some (e, s, ds) → Rfc.decimal ds < 4294967296 ∧ (s = none → ds.head? ≠ some 0x30) ∧
      (n.frac = none → n.int ≠ [0x30])

/-- C12. Every such RFC 8259 text is accepted and yields the value it denotes. -/
theorem C12_standard_json_accepted (A : ParseArgs F) (hA : A.Usual) (h : Option Handler) (c v : Value F)
    (str l : List Nat) (hl : Reads A str l) (ht : Rfc.Text (rfc A) l v) :
    jsonParse A h c str = (.ok (), v) := by
  have ht' : Rfc.Text (rfcParams A.dialect) l v := by
    have : rfc A = rfcParams A.dialect := by
      unfold rfc rfcParams
      congr 1
      funext n
      exact propext ⟨fun h => ⟨h.1, h.2⟩, fun h => ⟨h.1, h.2⟩⟩
    exact this ▸ ht
  have hd := text_document (D := A.dialect) hA.sw ht'
  rw [jsonParse_items hA, ← (sees_iff A str _).1 hl.sees]
  have hle := itemsOf_length A.se A.sw str
  rw [← (sees_iff A str _).1 hl.sees] at hle
  exact parseItems_complete hA h c hd (by omega)

/-- `[ -1.5e+2,"A"]` as an RFC 8259 text. -/
example : Rfc.Text (rfc (utf8Args true)) (ascii "[ -1.5e+2,\"\\u0041\"]") (.arr [.flt (), .str [0x41]]) := by
  refine ⟨[], _, [], (List.append_nil _).symm, by simp [Rfc.Ws], ?_, by simp [Rfc.Ws]⟩
  refine .arr (t := ascii " -1.5e+2,\"\\u0041\"") ?_
  refine .more (g := [0x20]) (t := ascii "-1.5e+2") (g' := []) (u := ascii "\"\\u0041\"") ?_ ?_ (by simp [Rfc.Ws]) ?_
  · simp [Rfc.Ws, IsBlank]
  · exact .num (n := ⟨true, [0x31], some [0x35], some (0x65, some 0x2B, [0x32])⟩)
      ⟨Or.inr ⟨0x31, [], rfl, by decide, by decide, by simp⟩, by simp [Rfc.Digit], by simp +contextual [Rfc.Digit]⟩
      ⟨by decide, by simp; decide⟩
  · refine .one (g := []) (g' := []) (by simp [Rfc.Ws])
      (.str (P := rfc (utf8Args true)) (t := ascii "\"\\u0041\"") (s := [0x41]) ⟨ascii "\\u0041", [0x41], by decide, ?_, by decide⟩) (by simp [Rfc.Ws])
    exact .uni (h := ascii "0041") (t := []) (Hex4.mk (x := 0) (y := 0) (z := 4) (w := 1) rfl rfl rfl rfl) (by omega) .nil

/-! ## C13 -/

/-- C13 is false: `1e0` and `0e1` are RFC 8259 texts whose numbers are in range, but they are
rejected. -/
theorem C13_violated (b : Bool) :
    (∀ P : Rfc.Params Unit, (∀ n, Rfc.decimal n.int ≤ 9223372036854775807 → P.ok n) →
      (∃ v, Rfc.Text P (ascii "1e0") v) ∧ ∃ v, Rfc.Text P (ascii "0e1") v) ∧
    (jsonParse (utf8Args b) none .null (ascii "1e0")).1 = .error (.exn .deserialization) ∧
    (jsonParse (utf8Args b) none .null (ascii "0e1")).1 = .error (.exn .deserialization) := by
  refine ⟨?_, by cases b <;> decide +kernel, by cases b <;> decide +kernel⟩
  intro P hP
  constructor
  · refine ⟨(⟨false, [0x31], none, some (0x65, none, [0x30])⟩ : Rfc.Lit).value P.fo, [], ascii "1e0", [], by decide, by simp [Rfc.Ws], ?_, by simp [Rfc.Ws]⟩
    exact .num (n := ⟨false, [0x31], none, some (0x65, none, [0x30])⟩)
      ⟨Or.inr ⟨0x31, [], rfl, by decide, by decide, by simp⟩, by simp, by simp +contextual [Rfc.Digit]⟩ (hP _ (by decide))
  · refine ⟨(⟨false, [0x30], none, some (0x65, none, [0x31])⟩ : Rfc.Lit).value P.fo, [], ascii "0e1", [], by decide, by simp [Rfc.Ws], ?_, by simp [Rfc.Ws]⟩
    exact .num (n := ⟨false, [0x30], none, some (0x65, none, [0x31])⟩)
      ⟨Or.inl rfl, by simp, by simp +contextual [Rfc.Digit]⟩ (hP _ (by decide))

/-- C13, partial: what is missing from C13 is in `rfc A`. -/
theorem C13_rfc_accepted_partial (A : ParseArgs F) (hA : A.Usual) (h : Option Handler) (c v : Value F)
    (str l : List Nat) (hl : Reads A str l) (ht : Rfc.Text (rfc A) l v) :
    jsonParse A h c str = (.ok (), v) := C12_standard_json_accepted A hA h c v str l hl ht

/-! ## C14 -/

/-- C14 is false: the exponent of `1e+x` has no digit, and `İ` (U+0130) counts as a digit
because its low byte is that of `0`: the text `1İ` is read as 266. -/
theorem C14_violated (b : Bool) :
    (jsonParse (utf8Args b) none .null (ascii "1e+x")).1 = .ok () ∧
    jsonParse (utf8Args b) none .null [0x31, 0xC4, 0xB0] = (.ok (), .int 266) := by
  cases b <;> decide +kernel

/-- A word that starts like a number. -/
def NumberLike (t : List Nat) : Prop :=
  ∃ c u, t = c :: u ∧ (Rfc.Digit c ∨ c = 0x2B ∨ c = 0x2D)

/-- C14, partial. In an accepted text whose code points fit the source character type, every
number, at any depth, is a number of RFC 8259 or one with a plus sign before it, provided that
its signs are followed by digits. -/
theorem C14_decimal_literals_partial (A : ParseArgs F) (hA : A.Usual) (c v : Value F) (str l : List Nat)
    (hl : Reads A str l) (toks : List (List Nat)) (ht : Layout toks l) (h : jsonParse A none c str = (.ok (), v))
    (hlt : ∀ x ∈ l, x < 2 ^ A.sw) (t : List Nat) (hm : t ∈ toks) (hn : NumberLike t)
    (hs : ∀ a sg b, t = a ++ sg :: b → sg = 0x2B ∨ sg = 0x2D → ∃ d b', b = d :: b' ∧ Rfc.Digit d) :
    ∃ n : Rfc.Lit, n.Valid ∧ (t = n.text ∨ n.minus = false ∧ t = 0x2B :: n.text) := by
  have hv := (document_toks (D := A.dialect) hA.sw ht).1 ((parse_document hA hl).1 h)
  obtain ⟨c, u, rfl, hc⟩ := hn
  have hw : Word (c :: u) := layout_numberLike ht hm hc
  obtain ⟨v', hv'⟩ := tval_words hv _ hm hw
  have hlt' : ∀ x ∈ c :: u, x < 2 ^ A.sw := fun x hx => hlt x (layout_mem ht hm x hx)
  rcases word_val hw (hv' none after_none) with h | h | h | h
  · exact number_exact h hlt' hs
  all_goals
    have := h.1
    simp [kTrue, kFalse, kNull] at this
    unfold Rfc.Digit at hc
    omega

/-! ## C15 -/

/-- C15 is false: `tŲue` is read as `true`, because the low byte of U+0172 is that of `r`. -/
theorem C15_violated (b : Bool) :
    jsonParse (utf8Args b) none .null [0x74, 0xC5, 0xB2, 0x75, 0x65] = (.ok (), .bool true) := by
  cases b <;> decide +kernel

/-- C15, partial. In an accepted text whose code points fit the source character type, every
word, at any depth, that does not start like a number is `true`, `false` or `null`. -/
theorem C15_exact_keywords_partial (A : ParseArgs F) (hA : A.Usual) (c v : Value F) (str l : List Nat)
    (hl : Reads A str l) (toks : List (List Nat)) (ht : Layout toks l) (h : jsonParse A none c str = (.ok (), v))
    (hlt : ∀ x ∈ l, x < 2 ^ A.sw) (t : List Nat) (hm : t ∈ toks) (hw : Word t) (hn : ¬ NumberLike t) :
    t = ascii "true" ∨ t = ascii "false" ∨ t = ascii "null" := by
  have hv := (document_toks (D := A.dialect) hA.sw ht).1 ((parse_document hA hl).1 h)
  obtain ⟨v', hv'⟩ := tval_words hv _ hm hw
  have hlt' : ∀ x ∈ t, x < 2 ^ A.sw := fun x hx => hlt x (layout_mem ht hm x hx)
  rcases word_val hw (hv' none after_none) with h | h | h | h
  · refine absurd ?_ hn
    cases h with
    | plain h1 h2 _ => exact ⟨_, _, rfl, Or.inl ⟨h1, h2⟩⟩
    | signed h _ => exact ⟨_, _, rfl, Or.inr h⟩
  · exact Or.inl (keyword_exact h hlt')
  · exact Or.inr (Or.inl (keyword_exact h hlt'))
  · exact Or.inr (Or.inr (keyword_exact h hlt'))

/-! ## C16 -/

/-- C16. Two texts with the same tokens, whatever blanks and comments stand between them, are
parsed to the same value, or both are rejected. -/
theorem C16_spacing_irrelevant (A : ParseArgs F) (hA : A.Usual) (c v : Value F) (str str' l l' : List Nat)
    (hl : Reads A str l) (hl' : Reads A str' l') (toks : List (List Nat)) (ht : Layout toks l) (ht' : Layout toks l') :
    jsonParse A none c str = (.ok (), v) ↔ jsonParse A none c str' = (.ok (), v) := by
  rw [parse_document hA hl, parse_document hA hl', document_toks hA.sw ht, document_toks hA.sw ht']

instance (c : Nat) : Decidable (IsPunct c) := by unfold IsPunct; infer_instance

theorem word1 : Word (ascii "1") := ⟨by decide, by simp [ascii, WordChar, IsBlank, IsPunct], by decide⟩
theorem wordTrue : Word (ascii "true") := ⟨by decide, by simp [ascii, WordChar, IsBlank, IsPunct], by decide⟩

/-- The tokens of `[1,true]`. -/
def toks1 : List (List Nat) := [ascii "[", ascii "1", ascii ",", ascii "true", ascii "]"]

example : Layout toks1 (ascii "[1,true]") := by
  refine .cons (g := []) (t := ascii "[") (l := ascii "1,true]") .nil (.punct (by decide)) ?_ (fun h => absurd (by decide) (h.chars 0x5B (by decide)).2.2.2.1)
  refine .cons (g := []) (t := ascii "1") (l := ascii ",true]") .nil (.word word1) ?_ (fun _ => punct_noWord _ (by decide))
  refine .cons (g := []) (t := ascii ",") (l := ascii "true]") .nil (.punct (by decide)) ?_ (fun h => absurd (by decide) (h.chars 0x2C (by decide)).2.2.2.1)
  refine .cons (g := []) (t := ascii "true") (l := ascii "]") .nil (.word wordTrue) ?_ (fun _ => punct_noWord _ (by decide))
  exact .cons (g := []) (t := ascii "]") (l := []) .nil (.punct (by decide)) (.nil (Or.inl .nil)) (fun h => absurd (by decide) (h.chars 0x5D (by decide)).2.2.2.1)

example : Layout toks1 (ascii "[ 1/*,*/, true\t]//x") := by
  refine .cons (g := []) (t := ascii "[") (l := ascii " 1/*,*/, true\t]//x") .nil (.punct (by decide)) ?_ (fun h => absurd (by decide) (h.chars 0x5B (by decide)).2.2.2.1)
  refine .cons (g := [0x20]) (t := ascii "1") (l := ascii "/*,*/, true\t]//x") (.blank (Or.inl rfl) .nil) (.word word1) ?_ (fun _ c hc => by
    simp [ascii] at hc; subst hc; simp [WordChar])
  refine .cons (g := ascii "/*,*/") (t := ascii ",") (l := ascii " true\t]//x") (.block (t := ascii ",*/") (.other (by decide) .close) .nil) (.punct (by decide)) ?_ (fun h => absurd (by decide) (h.chars 0x2C (by decide)).2.2.2.1)
  refine .cons (g := [0x20]) (t := ascii "true") (l := ascii "\t]//x") (.blank (Or.inl rfl) .nil) (.word wordTrue) ?_ (fun _ c hc => by
    simp [ascii] at hc; subst hc; simp [WordChar, IsBlank])
  exact .cons (g := [0x09]) (t := ascii "]") (l := ascii "//x") (.blank (Or.inr (Or.inl rfl)) .nil) (.punct (by decide))
    (.nil (Or.inr ⟨[], [0x78], rfl, .nil, by simp [Line]⟩)) (fun h => absurd (by decide) (h.chars 0x5D (by decide)).2.2.2.1)

example : jsonParse (utf8Args true) none .null (ascii "[ 1/*,*/, true\t]//x") = (.ok (), .arr [.int 1, .bool true]) := by
  decide +kernel

/-! ## C17 -/

/-- C17 is false: the comment of `/***/1` does not end, and that of `/***/1*/2` ends too late. -/
theorem C17_violated (b : Bool) :
    (jsonParse (utf8Args b) none .null (ascii "/***/1")).1 = .error (.exn .deserialization) ∧
    jsonParse (utf8Args b) none .null (ascii "/***/1*/2") = (.ok (), .int 2) := by
  cases b <;> decide +kernel

/-- C17, partial. A comment before the value whose body contains neither `*/` nor two adjacent
stars and does not end in a star ends at its first `*/`: the rest is parsed as if it stood
alone. (C16 covers comments at other places: such a comment is a gap.) -/
theorem C17_comment_end_partial (A : ParseArgs F) (hA : A.Usual) (c v : Value F) (str str' body l : List Nat)
    (hb : ∀ a b, body = a ++ 0x2A :: b → ∃ d b', b = d :: b' ∧ d ≠ 0x2A ∧ d ≠ 0x2F)
    (hl : Reads A str ([0x2F, 0x2A] ++ body ++ [0x2A, 0x2F] ++ l)) (hl' : Reads A str' l) :
    Gap ([0x2F, 0x2A] ++ body ++ [0x2A, 0x2F]) ∧
    (jsonParse A none c str = (.ok (), v) ↔ jsonParse A none c str' = (.ok (), v)) := by
  have hbody : BlockBody (body ++ [0x2A, 0x2F]) := plain_body hb
  refine ⟨by have := Gap.block hbody .nil; simpa using this, ?_⟩
  rw [parse_document hA hl, parse_document hA hl']
  have he : [0x2F, 0x2A] ++ body ++ [0x2A, 0x2F] ++ l = 0x2F :: 0x2A :: (body ++ [0x2A, 0x2F]) ++ l := by simp
  rw [he]
  exact document_comment hA.sw hbody l v

example : ∀ a b, ascii " a*b " = a ++ 0x2A :: b → ∃ d b', b = d :: b' ∧ d ≠ 0x2A ∧ d ≠ 0x2F := by
  intro a b h
  rcases a with _ | ⟨_, _ | ⟨_, _ | ⟨_, _ | ⟨_, _ | ⟨_, a⟩⟩⟩⟩⟩ <;> simp [ascii] at h
  exact ⟨0x62, [0x20], h.2.2.symm, by decide, by decide⟩

/-! ## C112 -/

/-- The same call for a text in the encoding `e` on characters of `w` bits. -/
def _root_.Configor.ParseArgs.reading (A : ParseArgs F) (e : Enc) (w : Nat) : ParseArgs F := { A with se := e, sw := w }

/-- C112, partial. A text that is accepted in some encoding is accepted, with the same value, in
every encoding whose characters are not wider. What is missing: see `C112_violated`. -/
theorem C112_narrower_partial (A : ParseArgs F) (hA : A.Usual) (e : Enc) (w : Nat) (hw : 8 ≤ w) (hle : w ≤ A.sw)
    (c c' v : Value F) (str str' : List Nat) (l : List (Option Nat)) (hl : Sees A str l) (hl' : Sees (A.reading e w) str' l)
    (h : jsonParse A none c str = (.ok (), v)) : jsonParse (A.reading e w) none c' str' = (.ok (), v) := by
  have hA' : (A.reading e w).Usual := ⟨hw, hA.2⟩
  rw [C11_accepts_exactly_grammar _ hA' c' v str' l hl']
  exact document_carry (D := A.dialect) (carries_narrow hw hle) ((C11_accepts_exactly_grammar A hA c v str l hl).1 h)
    (fun _ _ => trivial)

/-- C112, partial. It is accepted, with the same value, in every encoding at all, if no character
of the text has an ASCII character as its low byte (or low bytes, if the characters are wider)
without being one. -/
theorem C112_encodings_partial (A : ParseArgs F) (hA : A.Usual) (e : Enc) (w : Nat) (hw : 8 ≤ w)
    (c c' v : Value F) (str str' : List Nat) (l : List (Option Nat)) (hl : Sees A str l) (hl' : Sees (A.reading e w) str' l)
    (hc : ∀ x, some x ∈ l → x % 2 ^ A.sw < 128 → x < 128)
    (h : jsonParse A none c str = (.ok (), v)) : jsonParse (A.reading e w) none c' str' = (.ok (), v) := by
  have hA' : (A.reading e w).Usual := ⟨hw, hA.2⟩
  rw [C11_accepts_exactly_grammar _ hA' c' v str' l hl']
  exact document_carry (D := A.dialect) (carries_faithful hA.1 hw) ((C11_accepts_exactly_grammar A hA c v str l hl).1 h) hc

/-- C112 is false: the text `1` and U+0130, whose low byte is that of the digit 0, is the number
266 in UTF-8 and is rejected in UTF-32. -/
theorem C112_violated :
    Reads (utf8Args true) [0x31, 0xC4, 0xB0] [0x31, 0x130] ∧
    Reads ((utf8Args true).reading .utf32 32) [0x31, 0x130] [0x31, 0x130] ∧
    jsonParse (utf8Args true) none .null [0x31, 0xC4, 0xB0] = (.ok (), .int 266) ∧
    (jsonParse ((utf8Args true).reading .utf32 32) none .null [0x31, 0x130]).1 = .error (.exn .deserialization) := by
  refine ⟨(reads_iff _ _ _).2 ?_, (reads_iff _ _ _).2 ?_, ?_, ?_⟩ <;> decide +kernel

/-- The hypotheses are met by `{"ä":1}` in UTF-16 and in UTF-8. -/
example : let A := (utf8Args true).reading .utf16 16
    let t : List Nat := [0x7B, 0x22, 0xE4, 0x22, 0x3A, 0x31, 0x7D]
    Sees A t (t.map some) ∧ Sees (A.reading .utf8 8) [0x7B, 0x22, 0xC3, 0xA4, 0x22, 0x3A, 0x31, 0x7D] (t.map some) ∧
    (∀ x, some x ∈ t.map some → x % 2 ^ A.sw < 128 → x < 128) ∧
    jsonParse A none .null t = (.ok (), .obj [([0xC3, 0xA4], .int 1)]) := by
  refine ⟨(sees_iff _ _ _).2 ?_, (sees_iff _ _ _).2 ?_, ?_, ?_⟩
  · decide +kernel
  · decide +kernel
  · intro x hx
    have : x ∈ ([0x7B, 0x22, 0xE4, 0x22, 0x3A, 0x31, 0x7D] : List Nat) := by simpa using hx
    clear hx
    revert this x
    decide +kernel
  · decide +kernel

end Configor.Props
