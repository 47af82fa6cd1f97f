import Verif.Proofs.DblFloat
import Verif.Proofs.Decimal
import Mathlib.Tactic.Positivity
import Mathlib.Algebra.Order.Ring.Pow
/-!
# Rounding errors

`Near K f x`: the double `f` is the number `x` up to `K` roundings, each of which changes a number by at most a
factor of `1 + 2^-53`.
-/
set_option exponentiation.threshold 2000
namespace Configor.Dbl
open Spec Spec.Rfc

/-- The factor of one rounding. -/
def U : ℚ := 1 + 1 / 2 ^ 53

theorem U_ge : 1 ≤ U := by unfold U; norm_num
theorem U_pos : 0 < U := by unfold U; norm_num
theorem Upow_ge (K : ℕ) : 1 ≤ U ^ K := one_le_pow₀ U_ge
theorem Upow_pos (K : ℕ) : 0 < U ^ K := pow_pos U_pos K

theorem Upow_le {K : ℕ} (h : K ≤ 10 ^ 7) : U ^ K ≤ 1 + (K + 1) / 2 ^ 53 := by
  have h1 := one_add_mul_le_pow (a := (-(1 / 2 ^ 53) : ℚ)) (by norm_num) K
  have h2 : U ^ K * (1 + -(1 / 2 ^ 53)) ^ K ≤ 1 := by
    rw [← mul_pow]
    exact pow_le_one₀ (by unfold U; norm_num) (by unfold U; norm_num)
  have hK : (K : ℚ) ≤ 10 ^ 7 := by exact_mod_cast h
  have hK0 : (0 : ℚ) ≤ K := by positivity
  have h3 : U ^ K * (1 + K * -(1 / 2 ^ 53)) ≤ 1 := (mul_le_mul_of_nonneg_left h1 (Upow_pos K).le).trans h2
  have h4 : 0 < 1 + (K : ℚ) * -(1 / 2 ^ 53) := by
    have : (10 : ℚ) ^ 7 * (1 / 2 ^ 53) < 1 := by norm_num
    nlinarith
  have h5 : 1 ≤ (1 + ((K : ℚ) + 1) / 2 ^ 53) * (1 + K * -(1 / 2 ^ 53)) := by
    have : (K : ℚ) * (K + 1) * (1 / 2 ^ 53) ≤ 1 := by
      have : (K : ℚ) * (K + 1) ≤ 10 ^ 7 * (10 ^ 7 + 1) := by nlinarith
      calc (K : ℚ) * (K + 1) * (1 / 2 ^ 53) ≤ 10 ^ 7 * (10 ^ 7 + 1) * (1 / 2 ^ 53) := by gcongr
        _ ≤ 1 := by norm_num
    have h6 : (1 + ((K : ℚ) + 1) / 2 ^ 53) * (1 + K * -(1 / 2 ^ 53)) = 1 + (1 - (K : ℚ) * (K + 1) * (1 / 2 ^ 53)) * (1 / 2 ^ 53) := by ring
    rw [h6]
    have : 0 ≤ (1 - (K : ℚ) * (K + 1) * (1 / 2 ^ 53)) * (1 / 2 ^ 53) := mul_nonneg (by linarith) (by norm_num)
    linarith
  exact le_of_mul_le_mul_right (h3.trans h5) h4

theorem Upow_le_two {K : ℕ} (h : K ≤ 10 ^ 7) : U ^ K ≤ 2 := by
  refine (Upow_le h).trans ?_
  have hK : (K : ℚ) ≤ 10 ^ 7 := by exact_mod_cast h
  have : ((K : ℚ) + 1) / 2 ^ 53 ≤ (10 ^ 7 + 1) / 2 ^ 53 := by gcongr
  have : ((10 : ℚ) ^ 7 + 1) / 2 ^ 53 ≤ 1 := by norm_num
  linarith

/-! ## One rounding -/

theorem nearest_ge (n d : ℕ) : n / d ≤ nearest n d := by unfold nearest; split <;> omega

theorem roundUnits_rel {n d : ℕ} (hd : 0 < d) (h : 2 ^ 52 ≤ n / d) :
    2 ^ 53 * (roundUnits n d * d) ≤ (2 ^ 53 + 1) * n ∧ 2 ^ 53 * n ≤ (2 ^ 53 + 1) * (roundUnits n d * d) := by
  have hu := ulp_le h
  have h1 := roundUnits_le (d := d) n
  have h2 := le_roundUnits hd n
  have h3 : d * ulp (n / d) * 2 ^ 52 ≤ n :=
    calc d * ulp (n / d) * 2 ^ 52 = ulp (n / d) * 2 ^ 52 * d := by ring
      _ ≤ n / d * d := Nat.mul_le_mul_right d hu
      _ ≤ n := Nat.div_mul_le_self n d
  have h4 : d * ulp (n / d) * 2 ^ 52 ≤ roundUnits n d * d := by
    have h5 : 2 ^ 52 ≤ nearest n (d * ulp (n / d)) := by
      refine le_trans ?_ (nearest_ge n (d * ulp (n / d)))
      rw [Nat.le_div_iff_mul_le (Nat.mul_pos hd (ulp_pos _))]
      rw [Nat.mul_comm]
      exact h3
    calc d * ulp (n / d) * 2 ^ 52 ≤ d * ulp (n / d) * nearest n (d * ulp (n / d)) := Nat.mul_le_mul_left _ h5
      _ = roundUnits n d * d := by unfold roundUnits; ring
  generalize roundUnits n d * d = r at *
  generalize d * ulp (n / d) = m at *
  omega

/-- A rounding is within its factor, if the number is not too small. -/
theorem roundUnits_near {n d : ℕ} (hd : 0 < d) (h : 2 ^ 52 ≤ n / d ∨ d = 1) :
    (roundUnits n d : ℚ) * d ≤ n * U ∧ (n : ℚ) ≤ roundUnits n d * d * U := by
  have key : 2 ^ 53 * (roundUnits n d * d) ≤ (2 ^ 53 + 1) * n ∧ 2 ^ 53 * n ≤ (2 ^ 53 + 1) * (roundUnits n d * d) := by
    rcases h with h | h
    · exact roundUnits_rel hd h
    · subst h
      by_cases hn : 2 ^ 52 ≤ n / 1
      · exact roundUnits_rel hd hn
      · have : roundUnits n 1 = n := roundUnits_one (by
          rw [ulp_small (by rw [Nat.div_one] at hn; omega)]
          exact one_dvd n)
        rw [this]
        omega
  obtain ⟨h1, h2⟩ := key
  have h1' : (2 ^ 53 : ℚ) * (roundUnits n d * d) ≤ (2 ^ 53 + 1) * n := by exact_mod_cast h1
  have h2' : (2 ^ 53 : ℚ) * n ≤ (2 ^ 53 + 1) * (roundUnits n d * d) := by exact_mod_cast h2
  unfold U
  constructor
  · have : (n : ℚ) * (1 + 1 / 2 ^ 53) = (2 ^ 53 + 1) * n / 2 ^ 53 := by ring
    rw [this, le_div_iff₀ (by norm_num)]
    linarith
  · have : (roundUnits n d * d : ℚ) * (1 + 1 / 2 ^ 53) = (2 ^ 53 + 1) * (roundUnits n d * d) / 2 ^ 53 := by ring
    rw [this, le_div_iff₀ (by norm_num)]
    linarith

/-- The double is the number, up to `K` roundings. -/
def Near (K : ℕ) (f : Dbl) (x : ℚ) : Prop :=
  ∃ k : ℕ, f = .fin false k ∧ (k : ℚ) ≤ x * one * U ^ K ∧ x * one ≤ k * U ^ K

theorem oneQ_pos : (0 : ℚ) < (one : ℚ) := by exact_mod_cast one_pos

theorem Near.nonneg {K f x} (h : Near K f x) : 0 ≤ x := by
  obtain ⟨k, _, h1, _⟩ := h
  have hk : (0 : ℚ) ≤ k := by positivity
  by_contra hx
  have : x * one * U ^ K < 0 := mul_neg_of_neg_of_pos (mul_neg_of_neg_of_pos (by linarith) oneQ_pos) (Upow_pos K)
  linarith

theorem Near.mono {K L f x} (h : Near K f x) (hKL : K ≤ L) : Near L f x := by
  have hx := h.nonneg
  obtain ⟨k, hf, h1, h2⟩ := h
  have hp : U ^ K ≤ U ^ L := pow_le_pow_right₀ U_ge hKL
  refine ⟨k, hf, h1.trans ?_, h2.trans ?_⟩
  · exact mul_le_mul_of_nonneg_left hp (mul_nonneg hx oneQ_pos.le)
  · exact mul_le_mul_of_nonneg_left hp (by positivity)

/-- The bound of the numbers for which no overflow is possible. -/
theorem huge_bound : (4 * 10 ^ 300 : ℚ) * one < huge := by
  obtain ⟨n, hn, h1⟩ := one_def
  obtain ⟨m, hm, h2⟩ := huge_def
  rw [h1, h2]
  push_cast
  have : m = 1024 + n := by omega
  rw [this, pow_add]
  have h : (4 * 10 ^ 300 : ℚ) < 2 ^ 1024 := by norm_num
  exact mul_lt_mul_of_pos_right h (by positivity)

theorem one_bound : (2 ^ 53 : ℚ) * 10 ^ 300 ≤ one := by
  obtain ⟨n, hn, h1⟩ := one_def
  rw [h1]
  push_cast
  have : n = 1074 := hn
  rw [this]
  norm_num

/-- A rounded number of units. -/
theorem near_round {K : ℕ} {n d : ℕ} {x : ℚ} (hd : 0 < d) (h : 2 ^ 52 ≤ n / d ∨ d = 1 ∨ n = 0) (hx : x ≤ 10 ^ 300) (hK : K ≤ 10 ^ 6)
    (h1 : (n : ℚ) ≤ x * one * d * U ^ K) (h2 : x * one * d ≤ n * U ^ K) : Near (K + 1) (round false n d) x := by
  have hdq : (0 : ℚ) < d := by exact_mod_cast hd
  have hr : (roundUnits n d : ℚ) * d ≤ n * U ∧ (n : ℚ) ≤ roundUnits n d * d * U := by
    rcases h with h | h | h
    · exact roundUnits_near hd (.inl h)
    · exact roundUnits_near hd (.inr h)
    · subst h
      rw [roundUnits_zero d hd]
      simp
  have hU := U_pos
  have hle : (roundUnits n d : ℚ) ≤ x * one * U ^ (K + 1) := by
    have : (roundUnits n d : ℚ) * d ≤ x * one * U ^ (K + 1) * d :=
      calc (roundUnits n d : ℚ) * d ≤ n * U := hr.1
        _ ≤ x * one * d * U ^ K * U := mul_le_mul_of_nonneg_right h1 hU.le
        _ = _ := by ring
    exact le_of_mul_le_mul_right this hdq
  have hge : x * one ≤ roundUnits n d * U ^ (K + 1) := by
    have : x * one * d ≤ roundUnits n d * U ^ (K + 1) * d :=
      calc x * one * d ≤ n * U ^ K := h2
        _ ≤ roundUnits n d * d * U * U ^ K := mul_le_mul_of_nonneg_right hr.2 (Upow_pos K).le
        _ = _ := by ring
    exact le_of_mul_le_mul_right this hdq
  have hlt : roundUnits n d < huge := by
    have : (roundUnits n d : ℚ) < huge :=
      calc (roundUnits n d : ℚ) ≤ x * one * U ^ (K + 1) := hle
        _ ≤ 10 ^ 300 * one * U ^ (K + 1) := by
          apply mul_le_mul_of_nonneg_right _ (Upow_pos _).le
          exact mul_le_mul_of_nonneg_right hx oneQ_pos.le
        _ ≤ 10 ^ 300 * one * 4 := by
          apply mul_le_mul_of_nonneg_left _ (mul_nonneg (by positivity) oneQ_pos.le)
          exact (Upow_le_two (by omega)).trans (by norm_num)
        _ = 4 * 10 ^ 300 * one := by ring
        _ < huge := huge_bound
    exact_mod_cast this
  refine ⟨roundUnits n d, ?_, hle, hge⟩
  unfold round
  rw [if_pos hlt]

/-- A number that neither overflows nor underflows. -/
def InRange (x : ℚ) : Prop := x = 0 ∨ (1 / 10 ^ 300 ≤ x ∧ x ≤ 10 ^ 300)

theorem InRange.le {x : ℚ} (h : InRange x) : x ≤ 10 ^ 300 := by
  rcases h with rfl | h
  · positivity
  · exact h.2

theorem near_mul {K L : ℕ} {f g : Dbl} {x y : ℚ} (hf : Near K f x) (hg : Near L g y) (hr : InRange (x * y)) (hK : K + L ≤ 10 ^ 6) :
    Near (K + L + 1) (mul f g) (x * y) := by
  have hx := hf.nonneg
  have hy := hg.nonneg
  obtain ⟨k, rfl, a1, a2⟩ := hf
  obtain ⟨l, rfl, b1, b2⟩ := hg
  have ho := oneQ_pos
  have hkq : (0 : ℚ) ≤ k := by positivity
  have hlq : (0 : ℚ) ≤ l := by positivity
  have c1 : ((k * l : ℕ) : ℚ) ≤ x * y * one * one * U ^ (K + L) := by
    push_cast
    calc (k : ℚ) * l ≤ (x * one * U ^ K) * (y * one * U ^ L) := mul_le_mul a1 b1 hlq (hkq.trans a1)
      _ = _ := by rw [pow_add]; ring
  have c2 : x * y * one * one ≤ ((k * l : ℕ) : ℚ) * U ^ (K + L) := by
    push_cast
    calc x * y * one * one = (x * one) * (y * one) := by ring
      _ ≤ (k * U ^ K) * (l * U ^ L) := mul_le_mul a2 b2 (mul_nonneg hy ho.le) (mul_nonneg hkq (Upow_pos K).le)
      _ = _ := by rw [pow_add]; ring
  show Near _ (mul _ _) _
  simp only [mul, bne_self_eq_false]
  refine near_round one_pos ?_ hr.le hK c1 c2
  rcases hr with h0 | ⟨h0, _⟩
  · right; right
    rw [h0] at c1
    simp only [zero_mul] at c1
    have : (0 : ℚ) ≤ ((k * l : ℕ) : ℚ) := by positivity
    exact_mod_cast le_antisymm c1 this
  · left
    rw [Nat.le_div_iff_mul_le one_pos]
    have hone := one_bound
    have h2 : U ^ (K + L) ≤ 2 := Upow_le_two (by omega)
    have h3 : ((k * l : ℕ) : ℚ) * U ^ (K + L) ≤ ((k * l : ℕ) : ℚ) * 2 := mul_le_mul_of_nonneg_left h2 (by positivity)
    have h4 : (2 ^ 53 : ℚ) * one ≤ x * y * one * one := by
      apply mul_le_mul_of_nonneg_right _ ho.le
      calc (2 ^ 53 : ℚ) = 1 / 10 ^ 300 * (2 ^ 53 * 10 ^ 300) := by field_simp
        _ ≤ x * y * one := mul_le_mul h0 hone (by positivity) (mul_nonneg hx hy)
    have h5 : ((2 ^ 52 * one : ℕ) : ℚ) ≤ ((k * l : ℕ) : ℚ) := by
      rw [Nat.cast_mul (2 ^ 52) one]
      have : ((2 ^ 52 : ℕ) : ℚ) = 2 ^ 53 / 2 := by norm_num
      rw [this]
      linarith
    exact_mod_cast h5

theorem add_false (k l : ℕ) : add (.fin false k) (.fin false l) = round false (k + l) 1 := by
  simp only [add, units, Bool.false_eq_true, if_false, Bool.and_self]
  by_cases h : k + l = 0
  · have h1 : (k : ℤ) + l = 0 := by omega
    rw [if_pos h1, h]
    unfold round
    rw [roundUnits_zero 1 (by omega), if_pos huge_pos]
  · have h1 : (k : ℤ) + l ≠ 0 := by omega
    have h2 : ¬ ((k : ℤ) + l < 0) := by omega
    have h3 : ((k : ℤ) + l).natAbs = k + l := by omega
    rw [if_neg h1, h3]
    simp [h2]

theorem near_add {K : ℕ} {f g : Dbl} {x y : ℚ} (hf : Near K f x) (hg : Near K g y) (hr : x + y ≤ 10 ^ 300) (hK : K ≤ 10 ^ 6) :
    Near (K + 1) (add f g) (x + y) := by
  obtain ⟨k, rfl, a1, a2⟩ := hf
  obtain ⟨l, rfl, b1, b2⟩ := hg
  rw [add_false]
  refine near_round (by omega) (.inr (.inl rfl)) hr hK ?_ ?_
  · push_cast
    calc (k : ℚ) + l ≤ x * one * U ^ K + y * one * U ^ K := add_le_add a1 b1
      _ = _ := by ring
  · push_cast
    calc (x + y) * one * 1 = x * one + y * one := by ring
      _ ≤ k * U ^ K + l * U ^ K := add_le_add a2 b2
      _ = _ := by ring

theorem near_exact {i : ℕ} (h : i ≤ 2 ^ 53) : Near 0 (ofInt (i : ℤ)) i := by
  rw [ofInt_exact (representable_small h)]
  refine ⟨_, rfl, ?_, ?_⟩ <;> push_cast <;> simp

theorem near_ofInt {i : ℕ} (h : i ≤ 10 ^ 20) : Near 1 (ofInt (i : ℤ)) i := by
  have : ofInt (i : ℤ) = round false (i * one) 1 := by
    unfold ofInt
    have : ¬ ((i : ℤ) < 0) := by omega
    simp [this]
  rw [this]
  refine near_round (K := 0) (by omega) (.inr (.inl rfl)) ?_ (by omega) ?_ ?_
  · have : (i : ℚ) ≤ 10 ^ 20 := by exact_mod_cast h
    exact this.trans (by norm_num)
  · push_cast; simp
  · push_cast; simp

theorem near_tenth : Near 1 tenth (1 / 10) := by
  unfold tenth
  refine near_round (K := 0) (by omega) (.inl ?_) ?_ (by omega) ?_ ?_
  · rw [Nat.le_div_iff_mul_le (by omega)]
    have h := one_bound
    have h1 : ((2 ^ 52 * 10 : ℕ) : ℚ) ≤ one := by
      refine le_trans ?_ h
      norm_num
    exact_mod_cast h1
  · norm_num
  · push_cast
    apply le_of_eq
    ring
  · push_cast
    apply le_of_eq
    ring

end Configor.Dbl
