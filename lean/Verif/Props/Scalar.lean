import Verif.Proofs.Scalar
/-!
# Comparison of values with scalars
-/
set_option autoImplicit false
namespace Configor.Props
open Spec

/-- `==`, `!=`, `<` and `>` between any value and a number say what is true of the numbers, on whichever side the number stands,
if an unsigned number is less than 2^63 and an integer that is compared with a double is at most 2^53. So do `<=` and `>=`,
if besides both sides are numbers other than NaN.
Missing: see `C144_violated`. -/
theorem C144_exact_partial (st : Dbl.Style) (op : CmpOp) (v : Value Dbl) (x : Scalar) (hx : ScalarArith x) (hf : ScalarFits x)
    (hm : SmallIfMixed v x) (hn : op = .le ∨ op = .ge → valueAmount v ≠ none ∧ scalarAmount x ≠ none) :
    (op.valueScalar (Dbl.ops st) v x = true ↔ CmpHolds op (valueAmount v) (scalarAmount x))
    ∧ (op.scalarValue (Dbl.ops st) x v = true ↔ CmpHolds op (scalarAmount x) (valueAmount v)) := by
  obtain ⟨⟨h1, h2⟩, h3⟩ := agree_scalar st hx hf hm
  unfold CmpOp.valueScalar CmpOp.scalarValue
  rw [← h3] at hn ⊢
  cases op with
  | eq => exact ⟨h1.eq, h2.eq⟩
  | ne =>
    simp only [CmpOp.run, Value.ne, Bool.not_eq_true']
    rw [holds_ne, holds_ne, ← h1.eq, ← h2.eq]
    simp
  | lt => exact ⟨h1.lt, h2.lt⟩
  | le =>
    obtain ⟨n1, n2⟩ := hn (.inl rfl)
    simp only [CmpOp.run, Value.le, Bool.not_eq_true']
    rw [holds_le n1 n2, holds_le n2 n1, ← h1.lt, ← h2.lt]
    simp
  | gt =>
    rw [holds_gt, holds_gt]
    exact ⟨h2.lt, h1.lt⟩
  | ge =>
    obtain ⟨n1, n2⟩ := hn (.inr rfl)
    simp only [CmpOp.run, Value.ge, Bool.not_eq_true']
    rw [holds_ge n1 n2, holds_ge n2 n1, ← h1.lt, ← h2.lt]
    simp

/-- An integer of 54 bits is not mixed with a double here, and the comparison is exact. -/
example : (CmpOp.lt.valueScalar (Dbl.ops (.general 6)) (.int (2 ^ 53)) (.int false 64 (2 ^ 53 + 1)) = true
    ↔ CmpHolds .lt (valueAmount (.int (2 ^ 53))) (scalarAmount (.int false 64 (2 ^ 53 + 1)))) :=
  (C144_exact_partial (.general 6) .lt (.int (2 ^ 53)) (.int false 64 (2 ^ 53 + 1)) ⟨by simp, by decide⟩ (by constructor <;> decide) trivial
    (fun h => by rcases h with h | h <;> cases h)).1

/-- Without the bound of 2^53, of a number that a value holds and a number less than 2^63: whatever `<`, `>` and `!=` say of an integer
and a double is true, and whatever is true `==`, `<=` and `>=` say.
Missing: see `C144_violated`. -/
theorem C144_rounded_partial (st : Dbl.Style) (v : Value Dbl) (x : Scalar) (hx : ScalarArith x) (hf : ScalarFits x) (hv : HeldNumber v)
    (hn : valueAmount v ≠ none) (hn' : scalarAmount x ≠ none) (op : CmpOp) :
    (op = .lt ∨ op = .gt ∨ op = .ne →
      (op.valueScalar (Dbl.ops st) v x = true → CmpHolds op (valueAmount v) (scalarAmount x))
      ∧ (op.scalarValue (Dbl.ops st) x v = true → CmpHolds op (scalarAmount x) (valueAmount v)))
    ∧ (op = .eq ∨ op = .le ∨ op = .ge →
      (CmpHolds op (valueAmount v) (scalarAmount x) → op.valueScalar (Dbl.ops st) v x = true)
      ∧ (CmpHolds op (scalarAmount x) (valueAmount v) → op.scalarValue (Dbl.ops st) x v = true)) := by
  obtain ⟨⟨h1, h2⟩, h3⟩ := sound_scalar st hx hf hv
  unfold CmpOp.valueScalar CmpOp.scalarValue
  rw [← h3] at hn' ⊢
  cases op with
  | eq => exact ⟨fun h => by simp at h, fun _ => ⟨h1.eq, h2.eq⟩⟩
  | ne =>
    refine ⟨fun _ => ?_, fun h => by simp at h⟩
    simp only [CmpOp.run, Value.ne, Bool.not_eq_true']
    rw [holds_ne, holds_ne]
    exact ⟨fun h hc => by simp [h1.eq hc] at h, fun h hc => by simp [h2.eq hc] at h⟩
  | lt => exact ⟨fun _ => ⟨h1.lt, h2.lt⟩, fun h => by simp at h⟩
  | le =>
    refine ⟨fun h => by simp at h, fun _ => ?_⟩
    simp only [CmpOp.run, Value.le, Bool.not_eq_true', ← Bool.not_eq_true]
    rw [holds_le hn hn', holds_le hn' hn]
    exact ⟨fun h hc => h (h2.lt hc), fun h hc => h (h1.lt hc)⟩
  | gt =>
    refine ⟨fun _ => ?_, fun h => by simp at h⟩
    rw [holds_gt, holds_gt]
    exact ⟨h2.lt, h1.lt⟩
  | ge =>
    refine ⟨fun h => by simp at h, fun _ => ?_⟩
    simp only [CmpOp.run, Value.ge, Bool.not_eq_true', ← Bool.not_eq_true]
    rw [holds_ge hn hn', holds_ge hn' hn]
    exact ⟨fun h hc => h (h1.lt hc), fun h hc => h (h2.lt hc)⟩

/-- An integer that no double is. -/
example : CmpOp.lt.valueScalar (Dbl.ops (.general 6)) (.int (2 ^ 62 + 1)) (.dbl (.inf false)) = true
    ∧ CmpHolds .lt (valueAmount (.int (2 ^ 62 + 1))) (scalarAmount (.dbl (.inf false))) := by
  have h : CmpOp.lt.valueScalar (Dbl.ops (.general 6)) (.int (2 ^ 62 + 1)) (.dbl (.inf false)) = true := by decide +kernel
  exact ⟨h, ((C144_rounded_partial (.general 6) (.int (2 ^ 62 + 1)) (.dbl (.inf false)) trivial trivial (by constructor <;> decide)
    (fun h => by cases h) (fun h => by cases h) .lt).1 (.inl rfl)).1 h⟩

/-- `nullptr`, a `bool` and a string literal equal the value of that kind that holds them, and no other; and only values of their own
kind are less or greater. -/
theorem C144_others (st : Dbl.Style) (v : Value Dbl) :
    (CmpOp.eq.valueScalar (Dbl.ops st) v .null = true ↔ v = .null)
    ∧ (∀ b, CmpOp.eq.valueScalar (Dbl.ops st) v (.bool b) = true ↔ v = .bool b)
    ∧ (∀ s, CmpOp.eq.valueScalar (Dbl.ops st) v (.str s) = true ↔ v = .str s)
    ∧ (CmpOp.lt.valueScalar (Dbl.ops st) v .null = false ∧ CmpOp.gt.valueScalar (Dbl.ops st) v .null = false)
    ∧ (∀ b, (CmpOp.lt.valueScalar (Dbl.ops st) v (.bool b) = true ↔ v = .bool false ∧ b = true)
      ∧ (CmpOp.gt.valueScalar (Dbl.ops st) v (.bool b) = true ↔ v = .bool true ∧ b = false))
    ∧ (∀ s, (CmpOp.lt.valueScalar (Dbl.ops st) v (.str s) = true ↔ ∃ t, v = .str t ∧ t < s)
      ∧ (CmpOp.gt.valueScalar (Dbl.ops st) v (.str s) = true ↔ ∃ t, v = .str t ∧ s < t)) := by
  cases v <;> simp [CmpOp.valueScalar, Scalar.toValue, CmpOp.run, Value.eq, Value.lt, Value.gt, ltKey_iff]

/-- `json(-1) == 18446744073709551615u`; `json(9007199254740993) == 9007199254740992.0`; a string is both `<=` and `>=` every number, on
either side; and so is NaN. -/
theorem C144_violated (st : Dbl.Style) :
    (CmpOp.eq.valueScalar (Dbl.ops st) (.int (-1)) (.int false 64 (2 ^ 64 - 1)) = true
      ∧ ScalarArith (.int false 64 (2 ^ 64 - 1)) ∧ ¬ CmpHolds .eq (valueAmount (.int (-1))) (scalarAmount (.int false 64 (2 ^ 64 - 1))))
    ∧ (CmpOp.eq.valueScalar (Dbl.ops st) (.int (2 ^ 53 + 1)) (.dbl (Dbl.ofInt (2 ^ 53))) = true
      ∧ ScalarArith (.dbl (Dbl.ofInt (2 ^ 53)))
      ∧ ¬ CmpHolds .eq (valueAmount (.int (2 ^ 53 + 1))) (scalarAmount (.dbl (Dbl.ofInt (2 ^ 53)))))
    ∧ (∀ (s : List Nat) (x : Scalar), ScalarArith x →
      CmpOp.le.valueScalar (Dbl.ops st) (.str s) x = true ∧ CmpOp.ge.valueScalar (Dbl.ops st) (.str s) x = true
      ∧ CmpOp.le.scalarValue (Dbl.ops st) x (.str s) = true ∧ CmpOp.ge.scalarValue (Dbl.ops st) x (.str s) = true)
    ∧ (∀ (i : Int), CmpOp.le.valueScalar (Dbl.ops st) (.int i) (.dbl .nan) = true
      ∧ CmpOp.ge.valueScalar (Dbl.ops st) (.int i) (.dbl .nan) = true) := by
  refine ⟨⟨rfl, ⟨by simp, by decide⟩, ?_⟩, ⟨?_, Dbl.ofInt_valid _, ?_⟩, ?_, ?_⟩
  · exact fun h => absurd (intAmount_inj.2 h) (by decide)
  · show Value.eq (Dbl.ops st) _ _ = true
    simp only [Scalar.toValue, Value.eq]
    show Dbl.eq (Dbl.ofInt _) (Dbl.ofInt _) = true
    decide +kernel
  · intro h
    simp only [valueAmount, scalarAmount] at h
    rw [Dbl.ofInt_amount (by decide)] at h
    exact absurd (intAmount_inj.2 h) (by decide)
  · intro s x hx
    cases x with
    | int => simp [CmpOp.valueScalar, CmpOp.scalarValue, CmpOp.run, Value.le, Value.ge, Scalar.toValue, Value.lt]
    | dbl => simp [CmpOp.valueScalar, CmpOp.scalarValue, CmpOp.run, Value.le, Value.ge, Scalar.toValue, Value.lt]
    | _ => exact hx.elim
  · intro i
    have h1 : ∀ a, Dbl.lt a .nan = false := fun a => by cases a <;> rfl
    have h2 : ∀ a, Dbl.lt .nan a = false := fun a => by cases a <;> rfl
    simp [CmpOp.valueScalar, CmpOp.run, Value.le, Value.ge, Scalar.toValue, Value.lt, Dbl.ops, h1, h2]

end Configor.Props
