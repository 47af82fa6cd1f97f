import Verif.Props.Reread
import Verif.Props.ParserText
import Verif.Props.ParserLit
/-!
# Which words are keywords, and which strings are not Unicode
-/
set_option autoImplicit false
namespace Configor.Props
open Spec
variable {F : Type}

/-! ## C15 -/

/-- `t` is spelt `k` for a reader that knows the first letter and of the others only the lowest `w` bits. -/
def SpeltLike (w : Nat) (k t : List Nat) : Prop := t.head? = k.head? ∧ t.map (· % 2 ^ w) = k

/-- C15, partial. In an accepted text every word, at any depth, that does not start like a number is spelt like `true`, `false`
or `null`.
Missing to C15: the words that are only spelt like them. -/
theorem C15_spelling_partial (A : ParseArgs F) (hA : A.Usual) (c v : Value F) (str l : List Nat)
    (hl : Reads A str l) (toks : List (List Nat)) (ht : Layout toks l) (h : jsonParse A none c str = (.ok (), v))
    (t : List Nat) (hm : t ∈ toks) (hw : Word t) (hn : ¬ NumberLike t) :
    SpeltLike A.sw (ascii "true") t ∨ SpeltLike A.sw (ascii "false") t ∨ SpeltLike A.sw (ascii "null") t := by
  have hv := (document_toks (D := A.dialect) hA.sw ht).1 ((parse_document hA hl).1 h)
  obtain ⟨v', hv'⟩ := tval_words hv _ hm hw
  rcases word_val hw (hv' none after_none) with h | h | h | h
  · refine absurd ?_ hn
    cases h with
    | plain h1 h2 _ => exact ⟨_, _, rfl, Or.inl ⟨h1, h2⟩⟩
    | signed h _ => exact ⟨_, _, rfl, Or.inr h⟩
  · exact Or.inl h
  · exact Or.inr (Or.inl h)
  · exact Or.inr (Or.inr h)

/-- C15, exactly, for a text of one word: it is read as `true`, `false` or `null` if and only if it is spelt like it. -/
theorem C15_exactly_partial (A : ParseArgs F) (hA : A.Usual) (c : Value F) (str t : List Nat) (hl : Reads A str t) (hw : Word t) :
    (jsonParse A none c str = (.ok (), .bool true) ↔ SpeltLike A.sw (ascii "true") t) ∧
    (jsonParse A none c str = (.ok (), .bool false) ↔ SpeltLike A.sw (ascii "false") t) ∧
    (jsonParse A none c str = (.ok (), .null) ↔ SpeltLike A.sw (ascii "null") t) := by
  have hto : ∀ v, Val A.dialect t none v → jsonParse A none c str = (.ok (), v) := by
    intro v hv
    exact (C11_accepts_exactly_grammar A hA c v str _ hl.sees).2 ⟨[], t, [], [], by simp, .nil, by simpa using hv, .eof .nil⟩
  have hly : Layout [t] t := by
    have := Layout.cons (g := []) (t := t) (l := []) .nil (.word hw) (.nil (.inl .nil)) (fun _ c hc => by cases hc)
    simpa using this
  have hof : ∀ v, jsonParse A none c str = (.ok (), v) → Val A.dialect t none v := by
    intro v h
    have hv := (document_toks (D := A.dialect) hA.sw hly).1 ((parse_document hA hl).1 h)
    generalize hts : [t] = ts at hv
    cases hv with
    | word _ h => simp at hts; subst hts; exact h none after_none
    | str h =>
      simp at hts; subst hts
      obtain ⟨u, cps, rfl, _⟩ := h
      exact absurd rfl (hw.chars _ (by simp)).2.2.1
    | arr _ => simp at hts; obtain ⟨rfl, _⟩ := hts; exact absurd (by simp [IsPunct]) (hw.chars 0x5B (by simp)).2.2.2.1
    | obj _ _ => simp at hts; obtain ⟨rfl, _⟩ := hts; exact absurd (by simp [IsPunct]) (hw.chars 0x7B (by simp)).2.2.2.1
  refine ⟨⟨fun h => ?_, fun h => hto _ (.vtrue h)⟩, ⟨fun h => ?_, fun h => hto _ (.vfalse h)⟩, ⟨fun h => ?_, fun h => hto _ (.vnull h)⟩⟩
  · generalize hb : (.bool true : Value F) = v at h
    cases hof _ h with
    | vtrue hk => exact hk
    | num hn => rcases number_value hn with ⟨_, rfl⟩ | ⟨_, rfl⟩ <;> cases hb
    | _ => cases hb
  · generalize hb : (.bool false : Value F) = v at h
    cases hof _ h with
    | vfalse hk => exact hk
    | num hn => rcases number_value hn with ⟨_, rfl⟩ | ⟨_, rfl⟩ <;> cases hb
    | _ => cases hb
  · generalize hb : (.null : Value F) = v at h
    cases hof _ h with
    | vnull hk => exact hk
    | num hn => rcases number_value hn with ⟨_, rfl⟩ | ⟨_, rfl⟩ <;> cases hb
    | _ => cases hb

/-- `tŲue`, U+0172, is such a word, on a type of 8 bits and not on one of 32. -/
example : Word [0x74, 0x172, 0x75, 0x65] ∧ SpeltLike 8 (ascii "true") [0x74, 0x172, 0x75, 0x65] ∧
    ¬ SpeltLike 32 (ascii "true") [0x74, 0x172, 0x75, 0x65] := by
  refine ⟨⟨by simp, by simp [WordChar, IsBlank, IsPunct], by simp⟩, by unfold SpeltLike; decide, by unfold SpeltLike; decide⟩

/-! ## C28 -/

/-- A text that has the same units as one of Unicode scalar values is one. -/
theorem target_scalars {e : Enc} {w : Nat} {spec : Nat → List Nat} (ht : Target e w spec) {a b : List Nat}
    (ha : ∀ c ∈ a, IsScalar c) (hb : ∀ c ∈ b, c ≤ maxCp ∧ isLead c = false)
    (h : a.flatMap spec = b.flatMap spec) : ∀ c ∈ b, IsScalar c := by
  have ha' : ∀ c ∈ a, c ≤ maxCp ∧ isLead c = false := fun c hc => scalar_noLead (ha c hc)
  have h16 : ∀ a b : List Nat, (∀ c ∈ a, c ≤ maxCp ∧ isLead c = false) → (∀ c ∈ b, c ≤ maxCp ∧ isLead c = false) →
      a.flatMap Spec.utf16 = b.flatMap Spec.utf16 → a = b := by
    intro a b ha hb h
    refine C09_utf16_injective 32 (.inr rfl) a b (fun c hc => ⟨(ha c hc).1, (ha c hc).2, fun h => by cases h⟩)
      (fun c hc => ⟨(hb c hc).1, (hb c hc).2, fun h => by cases h⟩) ?_
    rw [writeAll_out (spec := Spec.utf16) (P := fun c => c ≤ maxCp)
        (fun o cp ho hc => utf16Encode_ok (Or.inr rfl) ho ⟨hc, nofun⟩) a (fun c hc => (ha c hc).1) _ rfl,
      writeAll_out (spec := Spec.utf16) (P := fun c => c ≤ maxCp)
        (fun o cp ho hc => utf16Encode_ok (Or.inr rfl) ho ⟨hc, nofun⟩) b (fun c hc => (hb c hc).1) _ rfl, h]
  cases ht with
  | utf8 =>
    have := C09_utf8_injective a b (fun c hc => (ha' c hc).1) (fun c hc => (hb c hc).1) (by
      rw [writeAll_out (spec := Spec.utf8) (P := fun c => c ≤ maxCp) (fun o cp ho hc => utf8Encode_ok ho hc) a (fun c hc => (ha' c hc).1) _ rfl,
        writeAll_out (spec := Spec.utf8) (P := fun c => c ≤ maxCp) (fun o cp ho hc => utf8Encode_ok ho hc) b (fun c hc => (hb c hc).1) _ rfl, h])
    exact this ▸ ha
  | utf16 =>
    have hm : ∀ l : List Nat, l.flatMap Spec.utf16c = (l.map fun c => if c = 0xFFFF then 0xFFFD else c).flatMap Spec.utf16 := by
      intro l
      rw [List.flatMap_map]
      refine flatMap_congr' fun c _ => ?_
      unfold Spec.utf16c
      split
      · decide
      · rfl
    have hm' : ∀ l : List Nat, (∀ c ∈ l, c ≤ maxCp ∧ isLead c = false) →
        ∀ c ∈ l.map (fun c => if c = 0xFFFF then 0xFFFD else c), c ≤ maxCp ∧ isLead c = false := by
      intro l hl c hc
      obtain ⟨x, hx, rfl⟩ := List.mem_map.1 hc
      split
      · decide
      · exact hl x hx
    rw [hm, hm] at h
    have he := h16 _ _ (hm' a ha') (hm' b hb) h
    intro c hc
    by_cases h5 : c = 0xFFFF
    · subst h5; exact ⟨by decide, by unfold IsSurrogate; omega⟩
    · have hin : c ∈ b.map (fun c => if c = 0xFFFF then 0xFFFD else c) := List.mem_map.2 ⟨c, hc, by rw [if_neg h5]⟩
      rw [← he] at hin
      obtain ⟨x, hx, hxc⟩ := List.mem_map.1 hin
      split at hxc
      · subst hxc; exact ⟨by decide, by unfold IsSurrogate; omega⟩
      · exact hxc ▸ ha x hx
  | utf16w => exact h16 a b ha' hb h ▸ ha
  | utf32 =>
    have := C09_utf32_injective a b (fun c hc => (ha' c hc).1) (fun c hc => (hb c hc).1) (by
      rw [writeAll_out (spec := Spec.utf32) (P := fun c => c ≤ maxCp) (fun o cp ho hc => utf32Encode_ok ho hc) a (fun c hc => (ha' c hc).1) _ rfl,
        writeAll_out (spec := Spec.utf32) (P := fun c => c ≤ maxCp) (fun o cp ho hc => utf32Encode_ok ho hc) b (fun c hc => (hb c hc).1) _ rfl, h])
    exact this ▸ ha

/-- C28, exactly. Let the text consist of Unicode scalar values. Every string and key of the parsed value, at any depth, comes from a literal of
the text, and is the encoding of Unicode scalar values if and only if the literal does not denote a trail surrogate (`\uDC00`..`\uDFFF` alone).
Missing to C28: the literals that do. -/
theorem C28_exactly_partial (A : ParseArgs F) (hA : A.Usual) (c v : Value F) (spec : Nat → List Nat)
    (ht : Target A.te A.tw spec) (str l : List Nat) (hl : Reads A str l) (hu : ∀ x ∈ l, IsScalar x)
    (h : jsonParse A none c str = (.ok (), v)) (s : List Nat) (hs : HasText v s) :
    ∃ a u b cps, l = a ++ 0x22 :: u ++ b ∧ StrChars u cps ∧
      ((∃ cps' : List Nat, (∀ x ∈ cps', IsScalar x) ∧ s = cps'.flatMap spec) ↔ ∀ x ∈ cps, ¬ (0xDC00 ≤ x ∧ x ≤ 0xDFFF)) := by
  obtain ⟨a, u, b, cps, h1, h2, h3, rfl⟩ := C26_strings_from_literals A hA c v spec ht str _ hl.sees h s hs
  have hb : ∃ m : List Nat, b = m.map some := by
    obtain ⟨_, m, _, _, hm⟩ := List.map_eq_append_iff.1 h1
    exact ⟨m, hm.symm⟩
  obtain ⟨m, rfl⟩ := hb
  have hl' : l = a ++ 0x22 :: u ++ m := by
    have := congrArg (List.filterMap id) h1
    simpa [List.filterMap_map] using this
  have hn := strChars_noLead h2 fun x hx => hu x (by rw [hl']; simp [hx])
  refine ⟨a, u, m, cps, hl', h2, ?_, ?_⟩
  · rintro ⟨cps', h4, h5⟩ x hx
    have := (target_scalars ht h4 hn h5.symm x hx).2
    unfold IsSurrogate at this
    omega
  · intro h4
    refine ⟨cps, fun x hx => ⟨h3 x hx, ?_⟩, rfl⟩
    have h5 := (hn x hx).2
    have h6 := h4 x hx
    simp [isLead] at h5
    unfold IsSurrogate
    omega

/-- `"\udc00"` and `"\ud83d\ude00"` are accepted texts of Unicode scalar values. -/
example : (∀ x ∈ ascii "\"\\udc00\"", IsScalar x) ∧ (jsonParse (utf8Args true) none .null (ascii "\"\\udc00\"")).1 = .ok () ∧
    (∀ x ∈ ascii "\"\\ud83d\\ude00\"", IsScalar x) ∧
    jsonParse (utf8Args true) none .null (ascii "\"\\ud83d\\ude00\"") = (.ok (), .str [0xF0, 0x9F, 0x98, 0x80]) := by
  refine ⟨?_, by decide +kernel, ?_, by decide +kernel⟩
  · unfold IsScalar IsSurrogate; decide
  · unfold IsScalar IsSurrogate; decide

end Configor.Props
