import Verif.Spec.Grammar
import Verif.Model.Api
/-!
# Where the characters of a text come from
-/
namespace Spec
open Configor

/-- The stream buffer `b` holds the characters `l`: reading one at a time, with or without
looking at it first, gives `l` and then `eof`. (`R` relates every state of the buffer to what
it still has to deliver.) -/
def Delivering {σ : Type} (B : SBuf σ) (b : σ) (l : List Int) : Prop :=
  ∃ R : σ → List Int → Prop, R b l ∧ (∀ s l, R s l → B.throws s = false) ∧
    (∀ s, R s [] → (B.sgetc s).1 = -1 ∧ (B.sbumpc s).1 = -1) ∧
    (∀ s u us, R s (u :: us) → u ≠ -1 ∧
      (B.sgetc s).1 = u ∧ R (B.sgetc s).2 (u :: us) ∧ (B.sbumpc s).1 = u ∧ R (B.sbumpc s).2 us)

/-- The same, and a buffer at its end stays there, however often it is read. -/
def DeliveringJust {σ : Type} (B : SBuf σ) (b : σ) (l : List Int) : Prop :=
  ∃ R : σ → List Int → Prop, R b l ∧ (∀ s l, R s l → B.throws s = false) ∧
    (∀ s, R s [] → (B.sgetc s).1 = -1 ∧ R (B.sgetc s).2 [] ∧ (B.sbumpc s).1 = -1 ∧ R (B.sbumpc s).2 []) ∧
    (∀ s u us, R s (u :: us) → u ≠ -1 ∧
      (B.sgetc s).1 = u ∧ R (B.sgetc s).2 (u :: us) ∧ (B.sbumpc s).1 = u ∧ R (B.sbumpc s).2 us)

/-- The stream buffer `b` gives the characters `l`, and then reading it throws. -/
def Breaking {σ : Type} (B : SBuf σ) (b : σ) (l : List Int) : Prop :=
  ∃ R : σ → List Int → Prop, R b l ∧ (∀ s, R s [] → B.throws s = true) ∧
    (∀ s u us, R s (u :: us) → B.throws s = false ∧ u ≠ -1 ∧
      (B.sgetc s).1 = u ∧ R (B.sgetc s).2 (u :: us) ∧ (B.sbumpc s).1 = u ∧ R (B.sbumpc s).2 us)

/-- The text ends inside a comment: it has a `//` without line end after it, or a `/*` that
nothing after it closes. -/
def Unclosed (text : List (Option Nat)) : Prop :=
  (∃ p q, text = p ++ some 0x2F :: some 0x2F :: q.map some ∧ Line q) ∨
  (∃ p q, text = p ++ some 0x2F :: some 0x2A :: q.map some ∧ ¬ ∃ b k, q = b ++ k ∧ BlockBody b)

/-- A call, run with more and more steps, ends with the outcome `o`. -/
def EndsWith {F : Type} (call : Nat → Outcome F) (o : Outcome F) : Prop :=
  o.1 ≠ .error .fuel ∧ ∃ n, ∀ m, n ≤ m → call m = o

/-- A call never ends, however many steps it is given. -/
def Hangs {F : Type} (call : Nat → Outcome F) : Prop := ∀ m, (call m).1 = .error .fuel

mutual
/-- Null, a boolean, an integer, or an array of such values. -/
def Plain {F : Type} : Value F → Bool
  | .null | .bool _ | .int _ => true
  | .arr xs => PlainList xs
  | _ => false
/-- The same for every element. -/
def PlainList {F : Type} : List (Value F) → Bool
  | [] => true
  | x :: xs => Plain x && PlainList xs
end

/-- A character that JSON text does not write as a backslash and a letter. -/
def Ordinary (c : Nat) : Prop := ¬ (c = 0x09 ∨ c = 0x0D ∨ c = 0x0A ∨ c = 0x08 ∨ c = 0x0C ∨ c = 0x22 ∨ c = 0x5C)

end Spec
