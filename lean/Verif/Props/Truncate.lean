import Verif.Proofs.Truncate
import Verif.Props.Sink
set_option autoImplicit false
/-!
# Texts of which the end is missing

As after a crash while a file is written, or if there was no room for all of it.
-/
namespace Configor.Props
open Spec

variable {F : Type}

/-! ## C119 -/

/-- C119. Whatever the encoding, and wherever a text is cut, even within a character: if both the text and the part of it before
the cut are accepted then they denote the same value, unless it is a number. -/
theorem C119_prefix (A : ParseArgs F) (hA : A.Usual) (c c' v v' : Value F) (str p : List Nat) (hp : p <+: str)
    (h : jsonParse A none c str = (.ok (), v)) (h' : jsonParse A none c' p = (.ok (), v'))
    (hn : ¬ ((∃ i, v = .int i) ∨ ∃ f, v = .flt f) ∨ ¬ ((∃ i, v' = .int i) ∨ ∃ f, v' = .flt f)) : v' = v := by
  have num : ∀ w : Value F, IsNumber w → (∃ i, w = .int i) ∨ ∃ f, w = .flt f := by
    intro w hw
    cases w with
    | int i => exact .inl ⟨i, rfl⟩
    | flt f => exact .inr ⟨f, rfl⟩
    | _ => exact absurd hw id
  have d := (C11_accepts_exactly_grammar A hA c v str _ (itemsOf_delivers _ _ _)).1 h
  have d' := (C11_accepts_exactly_grammar A hA c' v' p _ (itemsOf_delivers _ _ _)).1 h'
  exact (parse_prefix hA hp d d' (hn.imp (fun h h' => h (num v h')) fun h h' => h (num v' h'))).symm

example : jsonParse (utf8Args false) none .null (ascii "{\"a\": [1, 2]} // x") = (.ok (), .obj [(ascii "a", .arr [.int 1, .int 2])]) := by
  decide +kernel
example : jsonParse (utf8Args false) none .null (ascii "{\"a\": [1, 2]} /") = (.error (.exn .deserialization), .obj [(ascii "a", .arr [.int 1, .int 2])]) := by
  decide +kernel
example : jsonParse (utf8Args false) none .null (ascii "{\"a\": [1, 2]}") = (.ok (), .obj [(ascii "a", .arr [.int 1, .int 2])]) := by
  decide +kernel
/-- Numbers are different. -/
example : jsonParse (utf8Args false) none .null (ascii "12") = (.ok (), .int 12) ∧
    jsonParse (utf8Args false) none .null (ascii "1") = (.ok (), .int 1) := by decide +kernel

/-- C119. No part of the text of a value, cut anywhere before its end, is accepted, unless the value is a number: for values
without floats whose text can be read back, as in C31, with every encoding and indentation. -/
theorem C119_dump (A : DumpArgs F) (B : ParseArgs F) (hAB : Reverses A B) (spec spec' : Nat → List Nat)
    (hs : Target A.se A.sw spec) (ht : Target A.te A.tw spec') (hb : A.pretty = true → A.ch = 0x20 ∨ A.ch = 0x09)
    (v : Value F) (hv : KeysSorted v) (hf : ∀ f, ¬ HasFloat v f)
    (hi : ∀ i, HasInt v i → -9223372036854775808 < i ∧ i < 9223372036854775808)
    (htx : ∀ s, HasText v s → ∃ cps : List Nat, s = cps.flatMap spec ∧
      ∀ c ∈ cps, Rereadable A.uesc c ∧ (A.sw = 16 ∨ A.tw = 16 → c ≠ 0xFFFF))
    (hn : ∀ i, v ≠ .int i) :
    ∃ t, (∀ str, jsonDump A none str v = (.ok (), str ++ t)) ∧
      ∀ p, p <+: t → p ≠ t → ∀ c, (jsonParse B none c p).1 ≠ .ok () := by
  have hB : B.Usual := ⟨by rw [hAB.sw]; exact ht.width, by rw [hAB.tw]; exact hs.width⟩
  obtain ⟨h1, hr, hval⟩ := dump_reads hAB hs ht hb v hv hi (fun f h => absurd h (hf f)) htx
  refine ⟨_, h1, fun p hp hne c hok => ?_⟩
  have hnum : ¬ IsNumber v := by
    intro h
    cases v with
    | int i => exact hn i rfl
    | flt f => exact hf f .flt
    | _ => exact h
  have heof : NoEof B.sw ((A.printer spec').text 0 v) := by
    rw [hAB.sw]
    exact text_noEof hs ht hb v (fun f h => absurd h (hf f)) htx
  refine parse_cut hB hp hne heof ((reads_iff B _ _).1 hr) hval hnum
    ((C11_accepts_exactly_grammar B hB c (jsonParse B none c p).2 p _ (itemsOf_delivers _ _ _)).1 ?_)
  rw [← hok]

/-- C119. What has arrived when a value is dumped to any buffer, which may refuse output at any place, is the text, or it is
rejected: it is never taken for another value. Under the conditions of `C119_dump`. -/
theorem C119_full_buffer (A : DumpArgs F) (B : ParseArgs F) (hAB : Reverses A B) (spec spec' : Nat → List Nat)
    (hs : Target A.se A.sw spec) (ht : Target A.te A.tw spec') (hb : A.pretty = true → A.ch = 0x20 ∨ A.ch = 0x09)
    (v : Value F) (hv : KeysSorted v) (hf : ∀ f, ¬ HasFloat v f)
    (hi : ∀ i, HasInt v i → -9223372036854775808 < i ∧ i < 9223372036854775808)
    (htx : ∀ s, HasText v s → ∃ cps : List Nat, s = cps.flatMap spec ∧
      ∀ c ∈ cps, Rereadable A.uesc c ∧ (A.sw = 16 ∨ A.tw = 16 → c ≠ 0xFFFF))
    (hn : ∀ i, v ≠ .int i) (K : Sink) (c w : Value F)
    (hw : jsonParse B none c (jsonDumpTo A K none v).2.1 = (.ok (), w)) : w = v := by
  obtain ⟨t, h1, h2⟩ := C119_dump A B hAB spec spec' hs ht hb v hv hf hi htx hn
  obtain ⟨t', h1', h3⟩ := C31_dump_parse A B hAB spec spec' hs ht hb v hv hf hi htx
  obtain ⟨hp, _⟩ := C114_prefix A K none v
  have e1 := h1 []
  have e2 := h1' []
  rw [e1] at e2 hp
  simp only [List.nil_append, Prod.mk.injEq, true_and] at e2 hp
  subst e2
  by_cases he : (jsonDumpTo A K none v).2.1 = t
  · rw [he, h3] at hw
    cases hw
    rfl
  · exact absurd (by rw [hw]) (h2 _ hp he c)

/-- The hypotheses of `C119_dump` are those of `C31_dump_parse`, see there; `sample` is no number. -/
example : ∀ i, (sample : Value Unit) ≠ .int i := by intro i h; cases h
example : (jsonParse (utf8Args true) none .null ((jsonDump (dumpArgs false true 2 0x20) none [] sample).2.take 60)).1 =
    .error (.exn .deserialization) := by decide +kernel

end Configor.Props
