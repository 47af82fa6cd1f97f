import Verif.Proofs.StackLow
import Verif.Props.ParserText
import Verif.Proofs.StackDepth
import Verif.Proofs.ObjDump
set_option autoImplicit false
/-!
# How deep the calls of the parser nest

`jsonParseCalls A str` is the largest number of calls of the functions of the parser that call themselves (`do_parse`,
`skip_spaces`, `skip_comments`) that are active at the same time when `str` is parsed. Stack use is proportional to it.
-/
namespace Configor.Props
open Spec

variable {F : Type}

/-! ## C115 -/

/-- The text of `k` empty comments before a `1` is a document. -/
theorem comments_document (D : Dialect F) (hD : 8 ≤ D.w) (k : Nat) : Document D ((emptyComments k ++ [0x31]).map some) (.int 1) := by
  refine ⟨emptyComments k, [0x31], [], [], by simp, ?_, ?_, .eof .nil⟩
  · induction k with
    | zero => exact .nil
    | succ k ih => exact .block (t := [0x2A, 0x2F]) .close ih
  · refine .num (.plain (by decide) (by decide) (n := .int 1) ?_)
    have hm : 0x31 % 2 ^ D.w = 0x31 := Nat.mod_eq_of_lt (Nat.lt_of_lt_of_le (by decide : 0x31 < 2 ^ 8) (Nat.pow_le_pow_right (by decide) hD))
    exact .int (c := 0x31) (ds := []) ⟨by decide, .inl ⟨by rw [hm]; decide, by rw [hm]; decide⟩⟩ (by simp) (by decide) (by simp [NoDig])
      (by simp [NoFloat])

/-- Behind `k` empty comments more than `2 k` calls are active, whatever follows. -/
theorem C115_comments (A : ParseArgs F) (hA : A.Usual) (str t : List Nat) (k : Nat) (hl : Reads A str (emptyComments k ++ t)) :
    2 * k < jsonParseCalls A str := by
  have h := itemsOf_reads hl
  refine jsonParseCalls_comments hA (k := t.map some) (by cases t <;> simp [Ok]) ?_
  rw [h]
  simp [txt]

/-- Behind `k` opening brackets `k` calls are active, whatever follows: also if the text is then rejected. -/
theorem C115_nesting (A : ParseArgs F) (hA : A.Usual) (str t : List Nat) (k : Nat) (hl : Reads A str (opened k ++ t)) :
    k ≤ jsonParseCalls A str := by
  have h := itemsOf_reads hl
  refine jsonParseCalls_opened hA (k := t.map some) (by cases t <;> simp [Ok]) ?_
  rw [h]
  simp [txt]

theorem reads_ascii (b : Bool) (t : List Nat) (ht : ∀ c ∈ t, c < 128) : Reads (utf8Args b) t t := by
  have h : t.flatMap Spec.utf8 = t := by
    clear b
    induction t with
    | nil => rfl
    | cons c t ih =>
      rw [List.flatMap_cons, ih fun x hx => ht x (by simp [hx]), Target.ascii .utf8 (ht c (by simp))]
      rfl
  have := Target.reads .utf8 (cps := t) (fun c hc => by have := ht c hc; unfold IsScalar maxCp IsSurrogate; omega) nofun
  rwa [h] at this

/-- C115 is false: no bound on the calls holds for all texts, not even for the accepted texts of one and the same number. -/
theorem C115_violated (b : Bool) : ¬ ∃ n, ∀ str, jsonParse (utf8Args b) none .null str = (.ok (), .int 1) → jsonParseCalls (utf8Args b) str ≤ n := by
  rintro ⟨n, h⟩
  have hr : Reads (utf8Args b) (emptyComments n ++ [0x31]) (emptyComments n ++ [0x31]) := by
    refine reads_ascii b _ fun c hc => ?_
    have : ∀ c ∈ emptyComments n, c < 128 := by
      clear h hc
      induction n with
      | zero => simp [emptyComments]
      | succ n ih => intro c hc; simp only [emptyComments, List.cons_append, List.nil_append, List.mem_cons] at hc; rcases hc with rfl | rfl | rfl | rfl | hc <;> first | exact ih _ hc | decide
    rcases List.mem_append.1 hc with hc | hc
    · exact this c hc
    · simp at hc; omega
  have hA : (utf8Args b).Usual := ⟨by simp [utf8Args], by simp [utf8Args]⟩
  have h1 := C115_comments _ hA _ _ n hr
  have h2 := h _ ((parse_document hA hr).2 (comments_document _ (Nat.le_refl 8) n))
  have : n = 0 := by omega
  subst this
  omega

/-- C115, partial: the calls are bounded by the comments and the brackets of the text. What is missing is a bound that
depends on the nesting of the value only. -/
theorem C115_bound_partial (A : ParseArgs F) (str : List Nat) (l : List (Option Nat)) (hl : Sees A str l) :
    jsonParseCalls A str ≤ 2 + 2 * countOf isSlash l + countOf isOpen l := by
  rw [(sees_iff A str l).1 hl]
  exact jsonParseCalls_le str

/-- C115, partial: for an accepted text, whose brackets nest as deep as its tree (all members counted, also those whose key
came before), the calls are as many as the text nests, up to one, and two for each slash of the text. What is missing is the
same without the slashes, that is, without comments, for which it is false. -/
theorem C115_accepted_partial (A : ParseArgs F) (hA : A.Usual) (str : List Nat) (l : List (Option Nat)) (hl : Sees A str l) (tree : Value F)
    (ht : TreeDocument A.dialect l tree) :
    1 + nest tree ≤ jsonParseCalls A str ∧ jsonParseCalls A str ≤ 2 + nest tree + 2 * countOf isSlash l := by
  rw [(sees_iff A str l).1 hl] at ht ⊢
  exact jsonParseCalls_nest hA ht

/-- C115, partial: reading back a dumped value takes as many calls as the value nests, up to one, and two for each slash of its
strings (`l` is what the decoder delivers for the text); hypotheses as in `C31_dump_parse`. -/
theorem C115_dumped_partial (A : DumpArgs F) (B : ParseArgs F) (hAB : Reverses A B) (spec spec' : Nat → List Nat)
    (hs : Target A.se A.sw spec) (ht : Target A.te A.tw spec') (hb : A.pretty = true → A.ch = 0x20 ∨ A.ch = 0x09)
    (v : Value F) (hf : ∀ f, ¬ HasFloat v f)
    (hi : ∀ i, HasInt v i → -9223372036854775808 < i ∧ i < 9223372036854775808)
    (htx : ∀ s, HasText v s → ∃ cps : List Nat, s = cps.flatMap spec ∧
      ∀ c ∈ cps, Rereadable A.uesc c ∧ (A.sw = 16 ∨ A.tw = 16 → c ≠ 0xFFFF)) :
    ∃ t, (∀ str, jsonDump A none str v = (.ok (), str ++ t)) ∧ ∀ l, Sees B t l →
      1 + nest v ≤ jsonParseCalls B t ∧ jsonParseCalls B t ≤ 2 + nest v + 2 * countOf isSlash l := by
  have hB : B.Usual := ⟨by rw [hAB.sw]; exact ht.width, by rw [hAB.tw]; exact hs.width⟩
  obtain ⟨h1, h2⟩ := dump_tree hAB hs ht hb v hi hf htx
  exact ⟨_, h1, fun l hl => C115_accepted_partial B hB _ l hl v ((sees_iff B _ _).1 hl ▸ h2)⟩

/-- Many brackets, but not deep; the bound above is better than the number of brackets. -/
example : jsonParseCalls (utf8Args true) (ascii "[[],[],[],{},{\"a\":[]}]") = 4 := by decide +kernel
example : jsonParseCalls (utf8Args true) (ascii "{\"a\":1,\"a\":[[[]]]}") = 5 := by decide +kernel
example : jsonParseCalls (utf8Args true) (ascii "[[1]]") = 3 := by decide +kernel
example : jsonParseCalls (utf8Args true) (ascii "/**///\n/**/1") = 8 := by decide +kernel
example : jsonParse (utf8Args true) none .null (ascii "/**///\n/**/1") = (.ok (), .int 1) := by decide +kernel
example : Reads (utf8Args true) (ascii "/**//**/1") (emptyComments 2 ++ [0x31]) := reads_ascii _ _ (by decide)
example : Reads (utf8Args true) (ascii "[[[") (opened 3 ++ []) := reads_ascii _ _ (by decide)
example : ∃ l, Sees (utf8Args true) (ascii "[[1]]/**/") l ∧ countOf isSlash l = 2 ∧ countOf isOpen l = 2 :=
  ⟨_, (reads_ascii true _ (by decide)).sees, by decide⟩
example : (utf8Args true).Usual := ⟨by decide, by decide⟩

end Configor.Props
