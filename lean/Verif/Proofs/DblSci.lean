import Verif.Proofs.DblFmt
/-!
# Significant digits of doubles
-/
set_option exponentiation.threshold 2000
namespace Configor.Dbl
open Spec Spec.Rfc

theorem exponent10_spec {k : ℕ} (hk : k ≠ 0) :
    (10 : ℚ) ^ exponent10 k ≤ (k : ℚ) / one ∧ (k : ℚ) / one < 10 ^ (exponent10 k + 1) := by
  have ho := one_pos
  have hoq := oneQ_pos
  unfold exponent10
  by_cases h : one ≤ k
  · rw [if_pos h]
    have hne : k / one ≠ 0 := by
      have := (Nat.le_div_iff_mul_le ho (x := 1) (y := k)).2 (by omega)
      omega
    obtain ⟨h1, h2⟩ := natText_length hne
    have hl : (natText (k / one)).length ≠ 0 := by
      intro h0
      exact natText_ne _ (List.length_eq_zero_iff.1 h0)
    generalize hL : (natText (k / one)).length = l at *
    obtain ⟨l, rfl⟩ : ∃ l', l = l' + 1 := ⟨l - 1, by omega⟩
    simp only [Nat.add_sub_cancel] at h1
    have e1 : (((l + 1 : ℕ) : ℤ) - 1) = (l : ℤ) := by omega
    have e2 : ((l : ℤ) + 1) = ((l + 1 : ℕ) : ℤ) := by omega
    rw [e1, e2, zpow_natCast, zpow_natCast]
    constructor
    · rw [le_div_iff₀ hoq]
      have : 10 ^ l * one ≤ k := (Nat.le_div_iff_mul_le ho).1 h1
      exact_mod_cast this
    · rw [div_lt_iff₀ hoq]
      have : k < 10 ^ (l + 1) * one := (Nat.div_lt_iff_lt_mul ho).1 h2
      exact_mod_cast this
  · rw [if_neg h]
    have hkp : 0 < k := by omega
    have hne : (one - 1) / k ≠ 0 := by
      have := (Nat.le_div_iff_mul_le hkp (x := 1) (y := one - 1)).2 (by omega)
      omega
    obtain ⟨h1, h2⟩ := natText_length hne
    have hl : (natText ((one - 1) / k)).length ≠ 0 := by
      intro h0
      exact natText_ne _ (List.length_eq_zero_iff.1 h0)
    generalize hL : (natText ((one - 1) / k)).length = l at *
    obtain ⟨l, rfl⟩ : ∃ l', l = l' + 1 := ⟨l - 1, by omega⟩
    simp only [Nat.add_sub_cancel] at h1
    have e2 : (-((l + 1 : ℕ) : ℤ) + 1) = -(l : ℤ) := by omega
    rw [e2, zpow_neg, zpow_neg, zpow_natCast, zpow_natCast]
    have a1 : 10 ^ l * k < one := by
      have := (Nat.le_div_iff_mul_le hkp).1 h1
      omega
    have a2 : one ≤ 10 ^ (l + 1) * k := by
      have := (Nat.div_lt_iff_lt_mul hkp).1 h2
      omega
    have a1' : (10 : ℚ) ^ l * k < one := by exact_mod_cast a1
    have a2' : (one : ℚ) ≤ 10 ^ (l + 1) * k := by exact_mod_cast a2
    constructor
    · rw [le_div_iff₀ hoq, inv_mul_le_iff₀ (by positivity)]
      exact a2'
    · rw [div_lt_iff₀ hoq, lt_inv_mul_iff₀ (by positivity)]
      exact a1'

/-- `scaled` rounds the number of units over a power of ten. -/
theorem scaled_nearest (k p : ℕ) (x : ℤ) :
    ∃ n d : ℕ, 0 < d ∧ scaled k p x = nearest n d ∧ (n : ℚ) / d = (k : ℚ) / one * 10 ^ ((p : ℤ) - x) := by
  have hoq := oneQ_pos.ne'
  unfold scaled
  by_cases h : (p : ℤ) < x
  · rw [if_pos h]
    refine ⟨k, one * 10 ^ (x - p).toNat, Nat.mul_pos one_pos (by positivity), rfl, ?_⟩
    obtain ⟨m, hm⟩ : ∃ m : ℕ, x - p = m := ⟨(x - p).toNat, by omega⟩
    have e : (p : ℤ) - x = -(m : ℤ) := by omega
    rw [hm, e, zpow_neg, zpow_natCast, Int.toNat_natCast]
    push_cast
    field_simp
  · rw [if_neg h]
    refine ⟨k * 10 ^ (p - x).toNat, one, one_pos, rfl, ?_⟩
    obtain ⟨m, hm⟩ : ∃ m : ℕ, p - x = m := ⟨(p - x).toNat, by omega⟩
    rw [hm, zpow_natCast, Int.toNat_natCast]
    push_cast
    field_simp

theorem ten_ne : (10 : ℚ) ≠ 0 := by norm_num

theorem significant_spec (p : ℕ) {k : ℕ} (hk : k ≠ 0) :
    10 ^ p ≤ (significant p k).1 ∧ (significant p k).1 < 10 ^ (p + 1) ∧
    |((significant p k).1 : ℚ) * 10 ^ ((significant p k).2 - p) - (k : ℚ) / one| ≤ 1 / 2 * 10 ^ (exponent10 k - p) ∧
    ((significant p k).2 = exponent10 k ∨ (significant p k).2 = exponent10 k + 1) := by
  obtain ⟨h1, h2⟩ := exponent10_spec hk
  obtain ⟨n, d, hd, hs, hq⟩ := scaled_nearest k p (exponent10 k)
  unfold significant
  rw [if_neg hk]
  generalize exponent10 k = x at *
  have hdq : (0 : ℚ) < d := by exact_mod_cast hd
  have hz : (0 : ℚ) < 10 ^ ((p : ℤ) - x) := zpow_pos (by norm_num) _
  have h1' : (10 : ℚ) ^ p ≤ n / d := by
    rw [hq]
    calc (10 : ℚ) ^ p = 10 ^ x * 10 ^ ((p : ℤ) - x) := by rw [← zpow_add₀ ten_ne, ← zpow_natCast]; congr 1; ring
      _ ≤ _ := mul_le_mul_of_nonneg_right h1 hz.le
  have h2' : (n : ℚ) / d < 10 ^ (p + 1) := by
    rw [hq]
    calc (k : ℚ) / one * 10 ^ ((p : ℤ) - x) < 10 ^ (x + 1) * 10 ^ ((p : ℤ) - x) := mul_lt_mul_of_pos_right h2 hz
      _ = 10 ^ (p + 1) := by
        rw [← zpow_add₀ ten_ne, ← zpow_natCast]
        congr 1
        push_cast
        ring
  have hlo : 10 ^ p ≤ nearest n d := by
    refine le_trans ?_ (nearest_ge n d)
    rw [Nat.le_div_iff_mul_le hd]
    rw [le_div_iff₀ hdq] at h1'
    exact_mod_cast h1'
  have hhi : nearest n d ≤ 10 ^ (p + 1) := by
    apply nearest_le_of hd
    rw [div_lt_iff₀ hdq] at h2'
    exact le_of_lt (by exact_mod_cast h2')
  have herr : |(nearest n d : ℚ) * 10 ^ (x - p) - (k : ℚ) / one| ≤ 1 / 2 * 10 ^ (x - p) := by
    have hh := nearest_half (n := n) hd
    rw [hq] at hh
    have hz' : (0 : ℚ) < 10 ^ (x - (p : ℤ)) := zpow_pos (by norm_num) _
    have e1 : (10 : ℚ) ^ ((p : ℤ) - x) * 10 ^ (x - (p : ℤ)) = 1 := by
      rw [← zpow_add₀ ten_ne]
      simp
    have e : (nearest n d : ℚ) * 10 ^ (x - p) - (k : ℚ) / one =
        (nearest n d - (k : ℚ) / one * 10 ^ ((p : ℤ) - x)) * 10 ^ (x - (p : ℤ)) := by
      rw [sub_mul, mul_assoc ((k : ℚ) / one), e1, mul_one]
    rw [e, abs_mul, abs_of_pos hz']
    exact mul_le_mul_of_nonneg_right hh hz'.le
  rw [hs]
  by_cases hc : nearest n d = 10 ^ (p + 1)
  · rw [if_pos hc]
    refine ⟨le_rfl, Nat.pow_lt_pow_right (by omega) (by omega), ?_, .inr rfl⟩
    rw [hc] at herr
    have e : ((10 ^ p : ℕ) : ℚ) * 10 ^ (x + 1 - p) = ((10 ^ (p + 1) : ℕ) : ℚ) * 10 ^ (x - p) := by
      push_cast
      rw [pow_succ, mul_assoc, ← zpow_one_add₀ ten_ne]
      congr 2
      ring
    rw [e]
    exact herr
  · rw [if_neg hc]
    exact ⟨hlo, by omega, herr, .inl rfl⟩

/-! ## Exponents -/

theorem exponentText_eq (x : ℤ) : ∃ ds, exponentText x = 0x65 :: (if x < 0 then 0x2D else 0x2B) :: ds ∧ ds ≠ [] ∧ (∀ d ∈ ds, Digit d) ∧
    decimal ds = x.natAbs := by
  unfold exponentText
  by_cases h : x.natAbs < 10
  · rw [if_pos h]
    refine ⟨_, rfl, ?_, lastDigits_digit _ _, ?_⟩
    · intro h0
      have := lastDigits_length 2 x.natAbs
      rw [h0] at this
      simp at this
    · rw [lastDigits_decimal]
      exact Nat.mod_eq_of_lt (by omega)
  · rw [if_neg h]
    exact ⟨_, rfl, natText_ne _, natText_digit _, natText_decimal _⟩

end Configor.Dbl
