import Verif.Spec.SizeDouble
import Verif.Proofs.Size
import Verif.Proofs.DblDump
/-!
# How long the text of a double can be
-/
set_option exponentiation.threshold 2000
namespace Configor.Dbl
open Spec

theorem natText_le {v k : ℕ} (h : v < 10 ^ k) (hk : 0 < k) : (natText v).length ≤ k := by
  unfold natText
  rw [List.length_map]
  exact digits_length (by decide) h hk

theorem pointed_length {p v m : ℕ} (h : v / 10 ^ p < 10 ^ m) (hm : 0 < m) : (pointed p v).length ≤ m + (p + 1) := by
  have := natText_le h hm
  unfold pointed
  split <;> simp [lastDigits_length] <;> omega

theorem dropWhile_length (q : ℕ → Bool) (l : List ℕ) : (l.dropWhile q).length ≤ l.length := (List.dropWhile_sublist q).length_le

theorem stripped_length (t : List ℕ) : (stripped t).length ≤ t.length := by
  have h := dropWhile_length (· == 0x30) t.reverse
  rw [List.length_reverse] at h
  unfold stripped
  split
  · simp only []
    split <;> simp <;> omega
  · exact Nat.le_refl _

theorem exponentText_length {x : ℤ} (h : x.natAbs < 1000) : (exponentText x).length ≤ 5 := by
  have := natText_le (v := x.natAbs) (k := 3) (by simpa using h) (by decide)
  unfold exponentText
  simp only [List.length_cons]
  by_cases hx : x.natAbs < 10
  · rw [if_pos hx, lastDigits_length]
    omega
  · rw [if_neg hx]
    omega

/-- The exponents of doubles with a fraction. -/
theorem exponent10_range {k : ℕ} (hk : k < 2 ^ 52 * one) : -324 ≤ exponent10 k ∧ exponent10 k ≤ 15 := by
  have ho := one_pos
  unfold exponent10
  split
  · have h : k / one < 10 ^ 16 := by
      rw [Nat.div_lt_iff_lt_mul ho]
      have : (2 ^ 52 : ℕ) * one ≤ 10 ^ 16 * one := Nat.mul_le_mul_right _ (by norm_num)
      omega
    have := natText_le h (by decide)
    omega
  · have h : (one - 1) / k < 10 ^ 324 := by
      have h1 : (one - 1) / k ≤ one - 1 := Nat.div_le_self _ _
      have h2 : one ≤ 10 ^ 324 := by
        unfold one
        norm_num
      omega
    have := natText_le h (by decide)
    omega

theorem significant_range {p k : ℕ} (h0 : k ≠ 0) (hk : k < 2 ^ 52 * one) :
    (significant p k).1 < 10 ^ (p + 1) ∧ -324 ≤ (significant p k).2 ∧ (significant p k).2 ≤ 16 := by
  obtain ⟨_, h2, _, h4⟩ := significant_spec p h0
  have := exponent10_range hk
  refine ⟨h2, ?_⟩
  omega

theorem div_ten {d q : ℕ} (h : d < 10 ^ (q + 1)) : d / 10 ^ q < 10 ^ 1 := by
  rw [Nat.div_lt_iff_lt_mul (Nat.pow_pos (by decide)), ← pow_add, Nat.add_comm]
  exact h

theorem magnitude_length {k : ℕ} (h0 : k ≠ 0) (hk : k < 2 ^ 52 * one) (st : Style) : (magnitude k st).length + 1 ≤ doubleRoom st := by
  cases st with
  | fixed p =>
    have h : nearest (k * 10 ^ p) one ≤ 2 ^ 52 * 10 ^ p := by
      refine nearest_le_of one_pos ?_
      have := Nat.mul_le_mul_right (10 ^ p) (Nat.le_of_lt hk)
      calc k * 10 ^ p ≤ 2 ^ 52 * one * 10 ^ p := this
        _ = _ := by ring
    have h' : nearest (k * 10 ^ p) one / 10 ^ p < 10 ^ 16 := by
      rw [Nat.div_lt_iff_lt_mul (Nat.pow_pos (by decide))]
      have : (2 ^ 52 : ℕ) * 10 ^ p < 10 ^ 16 * 10 ^ p := Nat.mul_lt_mul_of_pos_right (by norm_num) (Nat.pow_pos (by decide))
      omega
    have := pointed_length h' (by decide)
    simp only [magnitude, doubleRoom]
    omega
  | scientific p =>
    obtain ⟨h1, h2, h3⟩ := significant_range (p := p) h0 hk
    have a := pointed_length (div_ten h1) (by decide)
    have b := exponentText_length (x := (significant p k).2) (by omega)
    simp only [magnitude, doubleRoom, List.length_append]
    omega
  | general p =>
    simp only [magnitude, doubleRoom]
    have hq : (if p = 0 then 1 else p) - 1 + 1 = max p 1 := by split <;> omega
    generalize (if p = 0 then 1 else p) - 1 = q at *
    obtain ⟨h1, h2, h3⟩ := significant_range (p := q) h0 hk
    generalize significant q k = s at *
    obtain ⟨d, x⟩ := s
    simp only at h1 h2 h3 ⊢
    split
    · have a := pointed_length (div_ten h1) (by decide)
      have a' := stripped_length (pointed q d)
      have b := exponentText_length (x := x) (by omega)
      simp only [List.length_append]
      omega
    · rename_i hx
      have a' := stripped_length (pointed ((q : ℤ) - x).toNat d)
      by_cases hn : 0 ≤ x
      · obtain ⟨n, rfl⟩ := Int.eq_ofNat_of_zero_le hn
        have e : ((q : ℤ) - (n : ℤ)).toNat = q - n := by omega
        rw [e] at a' ⊢
        have : d / 10 ^ (q - n) < 10 ^ (n + 1) := by
          rw [Nat.div_lt_iff_lt_mul (Nat.pow_pos (by decide)), ← pow_add]
          have e2 : n + 1 + (q - n) = q + 1 := by omega
          rw [e2]
          exact h1
        have a := pointed_length this (by omega)
        omega
      · have : d / 10 ^ ((q : ℤ) - x).toNat < 10 ^ 1 := by
          rw [Nat.div_lt_iff_lt_mul (Nat.pow_pos (by decide)), ← pow_add]
          exact lt_of_lt_of_le h1 (Nat.pow_le_pow_right (by decide) (by omega))
        have a := pointed_length this (by decide)
        omega

theorem double_fits (st : Style) {f : Dbl} (hv : f.Valid) : FloatFits (ops st) (doubleRoom st) f where
  whole _ := by
    refine ⟨by cases st <;> simp [doubleRoom], fun i hi => ?_⟩
    cases f with
    | nan => simp [ops, toI64] at hi
    | inf a => simp [ops, toI64] at hi
    | fin a k =>
      simp only [ops, toI64] at hi
      split at hi
      · rename_i h
        cases hi
        omega
      · cases hi
  other h := by
    cases f with
    | nan => cases st <;> simp [ops, fmt, doubleRoom]
    | inf a => simp [ops, isIntegral] at h
    | fin a k =>
      have hm : k % one ≠ 0 := by simpa [ops, isIntegral] using h
      have h0 : k ≠ 0 := by rintro rfl; simp at hm
      have := magnitude_length h0 (small_of_frac hv hm) st
      simp only [ops, fmt, List.length_append]
      cases a <;> simp <;> omega

end Configor.Dbl
