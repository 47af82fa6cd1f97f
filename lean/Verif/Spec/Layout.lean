import Verif.Spec.Grammar
/-!
# Tokens and the gaps between them

A purely lexical view of a text, for the property that blanks and comments between tokens do
not matter.
-/
namespace Spec

/-- `{ } [ ] : ,` -/
def IsPunct (c : Nat) : Prop := c = 0x7B ∨ c = 0x7D ∨ c = 0x5B ∨ c = 0x5D ∨ c = 0x3A ∨ c = 0x2C

/-- A character of a number or keyword: no blank, `/`, quote, punctuation or NUL. -/
def WordChar (c : Nat) : Prop := ¬ IsBlank c ∧ c ≠ 0x2F ∧ c ≠ 0x22 ∧ ¬ IsPunct c ∧ c ≠ 0

/-- A number or keyword, right or wrong: word characters that do not end in a sign. -/
structure Word (t : List Nat) : Prop where
  ne : t ≠ []
  chars : ∀ c ∈ t, WordChar c
  last : t.getLast? ≠ some 0x2B ∧ t.getLast? ≠ some 0x2D

/-- A token. -/
inductive Tok : List Nat → Prop where
  | punct {c} : IsPunct c → Tok [c]
  | str {u cps} : StrChars u cps → Tok (0x22 :: u)
  | word {t} : Word t → Tok t

/-- What may follow the last token: a gap, whose last comment may lack its end of line. -/
def Trail (e : List Nat) : Prop :=
  Gap e ∨ ∃ g t, e = g ++ 0x2F :: 0x2F :: t ∧ Gap g ∧ Line t

/-- The text does not start with a word character. -/
def NoWord (l : List Nat) : Prop := ∀ c, l.head? = some c → ¬ WordChar c

/-- The text `l` consists of the tokens `toks` with any gaps around them. Words are not glued
together. -/
inductive Layout : List (List Nat) → List Nat → Prop where
  | nil {e} : Trail e → Layout [] e
  | cons {g t toks l} : Gap g → Tok t → Layout toks l → (Word t → NoWord l) → Layout (t :: toks) (g ++ t ++ l)

end Spec
