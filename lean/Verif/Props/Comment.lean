import Verif.Proofs.Comment
import Verif.Props.ParserText
/-!
# Where comments end
-/
set_option autoImplicit false
namespace Configor.Props
open Spec

variable {F : Type}

/-- C17, in full for what the code does. Let a comment before the value be `/*`, some text, and its first `*/`, with `n` further
stars directly before it. If `n` is even, the comment ends there, and the rest is parsed as if it stood alone. If `n` is odd, it does
not end there: the text is parsed as if the comment began anew behind the `*/`.
Missing to C17: the second case should not exist (`C17_violated`). -/
theorem C17_stars_partial (A : ParseArgs F) (hA : A.Usual) (c v : Value F) (str body l : List Nat) (n : Nat)
    (hb : ∀ a r, body ≠ a ++ [0x2A, 0x2F] ++ r) (hs : body.getLast? ≠ some 0x2A)
    (hl : Reads A str ([0x2F, 0x2A] ++ body ++ List.replicate n 0x2A ++ [0x2A, 0x2F] ++ l)) :
    (n % 2 = 0 → Gap ([0x2F, 0x2A] ++ body ++ List.replicate n 0x2A ++ [0x2A, 0x2F])
      ∧ ∀ str', Reads A str' l → (jsonParse A none c str = (.ok (), v) ↔ jsonParse A none c str' = (.ok (), v)))
    ∧ (n % 2 = 1 → ∀ str', Reads A str' ([0x2F, 0x2A] ++ l) →
      (jsonParse A none c str = (.ok (), v) ↔ jsonParse A none c str' = (.ok (), v))) := by
  have hbody : Skipped body := skipped_of (fun a r h => hb a r (by simpa using h)) hs
  constructor
  · intro hn
    have h1 : Skipped (body ++ List.replicate n 0x2A) := by
      have := skipped_stars (n / 2)
      rw [show 2 * (n / 2) = n from by omega] at this
      exact hbody.append this
    have h2 : BlockBody (body ++ List.replicate n 0x2A ++ [0x2A, 0x2F]) := h1.body .close
    refine ⟨by have := Gap.block h2 .nil; simpa using this, fun str' hl' => ?_⟩
    rw [parse_document hA hl, parse_document hA hl']
    have he : [0x2F, 0x2A] ++ body ++ List.replicate n 0x2A ++ [0x2A, 0x2F] ++ l
        = 0x2F :: 0x2A :: (body ++ List.replicate n 0x2A ++ [0x2A, 0x2F]) ++ l := by simp
    rw [he]
    exact document_comment hA.sw h2 l v
  · intro hn str' hl'
    have h1 : Skipped (body ++ List.replicate (n + 1) 0x2A ++ [0x2F]) := by
      have := skipped_stars ((n + 1) / 2)
      rw [show 2 * ((n + 1) / 2) = n + 1 from by omega] at this
      exact (hbody.append this).append (.other (by decide) .nil)
    rw [parse_document hA hl, parse_document hA hl']
    have he : [0x2F, 0x2A] ++ body ++ List.replicate n 0x2A ++ [0x2A, 0x2F] ++ l
        = 0x2F :: 0x2A :: ((body ++ List.replicate (n + 1) 0x2A ++ [0x2F]) ++ l) := by
      simp [List.replicate_succ']
    rw [he]
    exact document_open hA.sw h1 l v

/-- `/** a ** b ***/ 1`: two stars before the end. -/
example : (∀ a r, ascii "* a ** b " ≠ a ++ [0x2A, 0x2F] ++ r) ∧ (ascii "* a ** b ").getLast? ≠ some 0x2A
    ∧ [0x2F, 0x2A] ++ ascii "* a ** b " ++ List.replicate 2 0x2A ++ [0x2A, 0x2F] ++ ascii " 1" = ascii "/** a ** b ***/ 1"
    ∧ jsonParse (utf8Args true) none .null (ascii "/** a ** b ***/ 1") = (.ok (), .int 1) := by
  refine ⟨?_, by decide, by decide, by decide +kernel⟩
  intro a r h
  have h1 : 0x2F ∈ ascii "* a ** b " := by rw [h]; simp
  exact absurd h1 (by decide)

/-- `/* a **/ 1 */ 2`: one star before the end, which is passed over. -/
example : jsonParse (utf8Args true) none .null (ascii "/* a **/ 1 */ 2") = (.ok (), .int 2)
    ∧ jsonParse (utf8Args true) none .null (ascii "/* 1 */ 2") = (.ok (), .int 2) := by
  decide +kernel

end Configor.Props
