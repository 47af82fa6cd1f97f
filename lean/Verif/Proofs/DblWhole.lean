import Verif.Proofs.Dbl
import Verif.Proofs.DumpRound
/-!
# Doubles without a fraction
-/
namespace Configor.Dbl
open Spec Spec.Rfc

theorem round_exact {neg : Bool} {k : Nat} (h : Representable k) : round neg k 1 = .fin neg k := by
  unfold round
  rw [roundUnits_one h.2, if_pos h.1]

theorem ofInt_exact {i : Nat} (h : Representable (i * one)) : ofInt (i : Int) = .fin false (i * one) := by
  unfold ofInt
  rw [Int.natAbs_natCast, round_exact h]
  have : ¬ ((i : Int) < 0) := by omega
  simp [this]

theorem representable_zero : Representable 0 := ⟨huge_pos, Nat.dvd_zero _⟩

theorem roundUnits_zero (d : Nat) (hd : 0 < d) : roundUnits 0 d = 0 := by
  have := roundUnits_exact hd (k := 0) (Nat.dvd_zero _)
  rwa [Nat.zero_mul] at this

theorem mul_zero_left {a b : Bool} {l : Nat} : mul (.fin a 0) (.fin b l) = .fin (a != b) 0 := by
  simp only [mul]
  unfold round
  rw [Nat.zero_mul, roundUnits_zero _ one_pos, if_pos huge_pos]

theorem add_zero_right {k : Nat} (h : Representable k) : add (.fin false k) (.fin false 0) = .fin false k := by
  simp only [add, units]
  by_cases hk : k = 0
  · subst hk; simp
  · have h1 : ((k : Int) + ((0 : Nat) : Int)) ≠ 0 := by omega
    have h2 : ¬ ((k : Int) + ((0 : Nat) : Int) < 0) := by omega
    simp only [Bool.false_eq_true, if_false]
    rw [if_neg h1]
    have h3 : ((k : Int) + ((0 : Nat) : Int)).natAbs = k := by omega
    rw [h3, round_exact h]
    simp

theorem tenth_fin : ∃ k, tenth = .fin false k := by
  unfold tenth round
  split
  · exact ⟨_, rfl⟩
  · next h =>
    exfalso
    apply h
    obtain ⟨n, hn, h1⟩ := one_def
    obtain ⟨m, hm, h2⟩ := huge_def
    have hle := roundUnits_le (d := 10) one
    have hu : ulp (one / 10) ≤ one := by
      rw [h1]
      unfold ulp
      by_cases hz : 2 ^ n / 10 = 0
      · rw [hz]; exact Nat.one_le_two_pow
      · refine Nat.pow_le_pow_right (by omega) ?_
        have : Nat.log2 (2 ^ n / 10) < n + 1 := by
          rw [Nat.log2_lt hz]
          have := Nat.div_le_self (2 ^ n) 10
          have : 2 ^ n < 2 ^ (n + 1) := Nat.pow_lt_pow_right (by omega) (by omega)
          omega
        omega
    have hh : one * 2 ≤ huge := by
      rw [h1, h2, ← Nat.pow_succ]
      exact Nat.pow_le_pow_right (by omega) (by omega)
    have := one_pos
    omega

theorem ofInt_zero : ofInt ((0 : Nat) : Int) = .fin false 0 := by
  have := ofInt_exact (i := 0) (by rw [Nat.zero_mul]; exact representable_zero)
  rwa [Nat.zero_mul] at this

theorem fracVal_zero (st : Style) {i k : Nat} (h : Representable k) (hi : ofInt (i : Int) = .fin false k) :
    fracVal (ops st) i [0x30] = .fin false k := by
  obtain ⟨l, hl⟩ := tenth_fin
  have hz : dv 0x30 = 0 := by decide
  have h1 : fracVal (ops st) i [0x30] = add (ofInt i) (mul (ofInt (dv 0x30)) tenth) := by
    unfold fracVal fracLoop
    rfl
  rw [h1, hz, ofInt_zero, hl, mul_zero_left, hi]
  exact add_zero_right h

/-- The literal `i.0`. -/
theorem fracVal_whole (st : Style) {i : Nat} (h : Representable (i * one)) :
    fracVal (ops st) i [0x30] = .fin false (i * one) :=
  fracVal_zero st h (ofInt_exact h)

/-- The number a double without fraction denotes; `-0.0` is left out. -/
theorem text_whole (st : Style) {a : Bool} {i : Nat} (hi : i < 2 ^ 63) :
    isIntegral (.fin a (i * one)) = true ∧ toI64 (.fin a (i * one)) = some (units a i) ∧
    floatText (ops st) (.fin a (i * one)) = decText (units a i) ++ [0x2E, 0x30] := by
  have h1 : isIntegral (.fin a (i * one)) = true := by simp [isIntegral]
  have h2 : toI64 (.fin a (i * one)) = some (units a i) := by
    simp only [toI64]
    rw [Nat.mul_div_cancel _ one_pos, if_pos]
    unfold units
    split <;> omega
  refine ⟨h1, h2, ?_⟩
  simp only [floatText, ops, h1, h2, if_true]

theorem lit_whole {a : Bool} {i : Nat} (ha : a = true → i ≠ 0) :
    decText (units a i) ++ [0x2E, 0x30] = Lit.text ⟨a, natText i, some [0x30], none⟩ := by
  unfold decText Lit.text natText units
  cases a with
  | false =>
    have : ¬ ((i : Int) < 0) := by omega
    simp [this]
  | true =>
    have := ha rfl
    have : 0 < i := by omega
    simp [this]

theorem natText_int (i : Nat) : natText i = [0x30] ∨ ∃ c ds, natText i = c :: ds ∧ 0x31 ≤ c ∧ c ≤ 0x39 ∧ ∀ d ∈ ds, Digit d := by
  obtain ⟨_, h2, h3, h4⟩ := digits_decimal i
  unfold natText
  by_cases h : i = 0
  · subst h; left; rfl
  · right
    have := h4 h
    cases hx : (digits 10 i).map digitChar with
    | nil => exact absurd hx h3
    | cons c ds =>
      rw [hx] at this h2
      simp only [List.head?_cons, ne_eq, Option.some.injEq] at this
      have hc := h2 c (by simp)
      unfold Digit at hc
      exact ⟨c, ds, rfl, by omega, hc.2, fun d hd => h2 d (by simp [hd])⟩

theorem val_whole {B : ParseArgs Dbl} (hB : B.Usual) {st : Style} (hfo : B.fo = ops st) {a : Bool} {i : Nat} (hi : i < 2 ^ 63)
    (ha : a = true → i ≠ 0) (hr : Representable (i * one)) (nx : Option Nat) (hn : After nx) :
    Val B.dialect (decText (units a i) ++ [0x2E, 0x30]) nx (.flt (.fin a (i * one))) := by
  rw [lit_whole ha]
  have hv : Lit.Valid ⟨a, natText i, some [0x30], none⟩ := by
    refine ⟨natText_int i, ?_, nofun⟩
    intro ds h
    injection h with h
    subst h
    exact ⟨by simp, by simp [Digit]⟩
  have hd : decimal (natText i) = i := (digits_decimal i).1
  have hrd : Readable ⟨a, natText i, some [0x30], none⟩ := by
    refine ⟨?_, nofun⟩
    show decimal (natText i) ≤ _
    rw [hd]
    unfold intMax
    omega
  have hw : 8 ≤ B.dialect.w := hB.sw
  have := number_of (D := B.dialect) hw hv hrd hn
  have hval : Lit.value B.dialect.fo ⟨a, natText i, some [0x30], none⟩ = .flt (.fin a (i * one)) := by
    simp only [Lit.value, ParseArgs.dialect, hfo, hd, fracVal_whole st hr]
    cases a <;> simp [ops, neg]
  rw [hval] at this
  exact .num this
end Configor.Dbl
