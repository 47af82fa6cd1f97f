import Verif.Props.Float
/-!
# Where `==` is not transitive
-/
set_option autoImplicit false
namespace Configor.Props
open Configor Spec

/-- C50, partial: if `u == v` and `v == w` but not `u == w`, then `u` and `w` hold, somewhere, different integers that the conversion to
double makes equal.
Missing to C50: these values. -/
theorem C50_cause_partial (st : Dbl.Style) (u v w : Value Dbl) (h1 : Value.eq (Dbl.ops st) u v = true) (h2 : Value.eq (Dbl.ops st) v w = true)
    (h3 : Value.eq (Dbl.ops st) u w = false) :
    ∃ i j, HasInt u i ∧ HasInt w j ∧ i ≠ j ∧ Dbl.eq (Dbl.ofInt i) (Dbl.ofInt j) = true ∧ (9007199254740992 < i.natAbs ∨ 9007199254740992 < j.natAbs) := by
  refine Classical.byContradiction fun hno => ?_
  have hp : Apart (Dbl.ops st) u w := by
    intro i j hi hj h
    refine Classical.byContradiction fun hne => hno ⟨i, j, hi, hj, hne, h, ?_⟩
    have h53 : (2 : Nat) ^ 53 = 9007199254740992 := by decide
    by_cases ha : i.natAbs ≤ 9007199254740992
    · by_cases hb : j.natAbs ≤ 9007199254740992
      · exact absurd (Dbl.ofInt_inj (by rw [h53]; exact ha) (by rw [h53]; exact hb) h) hne
      · exact Or.inr (Nat.lt_of_not_le hb)
    · exact Or.inl (Nat.lt_of_not_le ha)
  rw [eq_trans' (Dbl.ops st) Dbl.eq_trans u v w hp h1 h2] at h3
  cases h3

theorem eq_int_flt {F : Type} (fo : FloatOps F) (i : Int) (f : F) : Value.eq fo (.int i) (.flt f) = fo.eq (fo.ofInt i) f := by simp only [Value.eq]
theorem eq_flt_int {F : Type} (fo : FloatOps F) (i : Int) (f : F) : Value.eq fo (.flt f) (.int i) = fo.eq f (fo.ofInt i) := by simp only [Value.eq]
theorem eq_int_int {F : Type} (fo : FloatOps F) (i j : Int) : Value.eq fo (.int i) (.int j) = (i == j) := by simp only [Value.eq]
theorem opsEq (st : Dbl.Style) : (Dbl.ops st).eq = Dbl.eq := rfl
theorem opsOfInt (st : Dbl.Style) : (Dbl.ops st).ofInt = Dbl.ofInt := rfl

/-- C50, exactly, for integers: there is a value equal to both of two integers that are not equal if and only if the conversion to double
makes them equal. -/
theorem C50_exactly_partial (st : Dbl.Style) (i j : Int) :
    (∃ v, Value.eq (Dbl.ops st) (.int i) v = true ∧ Value.eq (Dbl.ops st) v (.int j) = true ∧ Value.eq (Dbl.ops st) (.int i) (.int j) = false) ↔
      i ≠ j ∧ Dbl.eq (Dbl.ofInt i) (Dbl.ofInt j) = true := by
  constructor
  · rintro ⟨v, h1, h2, h3⟩
    obtain ⟨a, b, ha, hb, hne, he, _⟩ := C50_cause_partial st _ v _ h1 h2 h3
    cases ha
    cases hb
    exact ⟨hne, he⟩
  · rintro ⟨hne, he⟩
    have hr : Dbl.eq (Dbl.ofInt i) (Dbl.ofInt i) = true := by
      generalize Dbl.ofInt i = a at he ⊢
      generalize Dbl.ofInt j = b at he
      exact Dbl.eq_trans a b a he ((Dbl.eq_symm b a).trans he)
    refine ⟨.flt (Dbl.ofInt i), ?_, ?_, ?_⟩
    · rw [eq_int_flt, opsEq, opsOfInt]; exact hr
    · rw [eq_flt_int, opsEq, opsOfInt]; exact he
    · rw [eq_int_int]; exact beq_false_of_ne hne

example : (9007199254740993 : Int) ≠ 9007199254740992 ∧ Dbl.eq (Dbl.ofInt 9007199254740993) (Dbl.ofInt 9007199254740992) = true :=
  ⟨by decide, by decide +kernel⟩

end Configor.Props
