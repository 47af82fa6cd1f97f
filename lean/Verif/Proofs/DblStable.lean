import Verif.Proofs.DblDump
/-!
# Decimals that are read and written again
-/
set_option exponentiation.threshold 2000
namespace Configor.Dbl
open Spec Spec.Rfc

/-- A number close to a decimal of `p + 1` digits is rounded to it. -/
theorem significant_near {p k N : ℕ} {x : ℤ} (hk : k ≠ 0) (h1 : 10 ^ p ≤ N) (h2 : N < 10 ^ (p + 1))
    (h : |(k : ℚ) / one - N * 10 ^ (x - p)| < 1 / 20 * 10 ^ (x - p)) : significant p k = (N, x) := by
  obtain ⟨e1, e2⟩ := exponent10_spec hk
  have hu : (0 : ℚ) < 10 ^ (x - p) := zpow_pos (by norm_num) _
  have hN1 : (10 : ℚ) ^ p ≤ N := by exact_mod_cast h1
  have hN2 : (N : ℚ) ≤ 10 ^ (p + 1) - 1 := by
    have : N + 1 ≤ 10 ^ (p + 1) := h2
    have : ((N + 1 : ℕ) : ℚ) ≤ ((10 ^ (p + 1) : ℕ) : ℚ) := by exact_mod_cast this
    push_cast at this
    linarith
  have hp1 : (1 : ℚ) ≤ 10 ^ p := one_le_pow₀ (by norm_num)
  have hx0 : (10 : ℚ) ^ x = 10 ^ p * 10 ^ (x - p) := by
    rw [← zpow_natCast, ← zpow_add₀ ten_ne]
    congr 1
    ring
  have hx1 : (10 : ℚ) ^ (x + 1) = 10 ^ (p + 1) * 10 ^ (x - p) := by
    rw [zpow_add_one₀ ten_ne, hx0, pow_succ]
    ring
  obtain ⟨a1, a2⟩ := abs_lt.1 h
  generalize hr : (k : ℚ) / one = r at *
  generalize hU : (10 : ℚ) ^ (x - p) = u at *
  have hlt : r < 10 ^ (x + 1) := by
    rw [hx1]
    have : (N : ℚ) * u ≤ (10 ^ (p + 1) - 1) * u := mul_le_mul_of_nonneg_right hN2 hu.le
    nlinarith
  have hge : (10 : ℚ) ^ (x - 1) < r := by
    have e : (10 : ℚ) ^ (x - 1) = 10 ^ p * u / 10 := by rw [zpow_sub_one₀ ten_ne, hx0]; ring
    rw [e]
    have h3 : (10 : ℚ) ^ p * u ≤ N * u := mul_le_mul_of_nonneg_right hN1 hu.le
    have h4 : u ≤ 10 ^ p * u := by nlinarith
    linarith
  have hy1 : exponent10 k < x + 1 := by
    have := e1.trans_lt hlt
    exact (zpow_lt_zpow_iff_right₀ (by norm_num)).1 this
  have hy2 : x - 1 < exponent10 k + 1 := by
    have := hge.trans e2
    exact (zpow_lt_zpow_iff_right₀ (by norm_num)).1 this
  have hcases : exponent10 k = x ∨ exponent10 k = x - 1 := by omega
  obtain ⟨n, d, hd, hs, hq⟩ := scaled_nearest k p (exponent10 k)
  have hhalf := nearest_half (n := n) hd
  rw [hq, hr] at hhalf
  have hinv : u * 10 ^ ((p : ℤ) - x) = 1 := by
    rw [← hU, ← zpow_add₀ ten_ne]
    simp
  have hi : (0 : ℚ) < 10 ^ ((p : ℤ) - x) := zpow_pos (by norm_num) _
  have close : |r * 10 ^ ((p : ℤ) - x) - N| < 1 / 20 := by
    have e : r * 10 ^ ((p : ℤ) - x) - N = (r - N * u) * 10 ^ ((p : ℤ) - x) := by
      rw [sub_mul, mul_assoc (N : ℚ), hinv, mul_one]
    rw [e, abs_mul, abs_of_pos hi]
    calc |r - N * u| * 10 ^ ((p : ℤ) - x) < 1 / 20 * u * 10 ^ ((p : ℤ) - x) := mul_lt_mul_of_pos_right h hi
      _ = 1 / 20 := by rw [mul_assoc, hinv, mul_one]
  unfold significant
  rw [if_neg hk, hs]
  rcases hcases with hy | hy
  · rw [hy] at hhalf ⊢
    have hNn : nearest n d = N := by
      have : |(nearest n d : ℚ) - N| < 1 := by
        calc |(nearest n d : ℚ) - N| ≤ |(nearest n d : ℚ) - r * 10 ^ ((p : ℤ) - x)| + |r * 10 ^ ((p : ℤ) - x) - N| := abs_sub_le _ _ _
          _ < 1 := by linarith
      obtain ⟨b1, b2⟩ := abs_lt.1 this
      have c1 : (nearest n d : ℚ) < ((N + 1 : ℕ) : ℚ) := by push_cast; linarith
      have c2 : (N : ℚ) < ((nearest n d + 1 : ℕ) : ℚ) := by push_cast; linarith
      have c1' : nearest n d < N + 1 := by exact_mod_cast c1
      have c2' : N < nearest n d + 1 := by exact_mod_cast c2
      omega
    rw [hNn, if_neg (by omega)]
  · have hrx : r < 10 ^ x := by
      have e : exponent10 k + 1 = x := by omega
      rwa [e] at e2
    have hNe : N = 10 ^ p := by
      rw [hx0] at hrx
      have : (N : ℚ) * u < (10 ^ p + 1 / 20) * u := by linarith
      have : (N : ℚ) < 10 ^ p + 1 / 20 := lt_of_mul_lt_mul_right this hu.le
      have : (N : ℚ) < ((10 ^ p + 1 : ℕ) : ℚ) := by push_cast; linarith
      have : N < 10 ^ p + 1 := by exact_mod_cast this
      omega
    have ez : (10 : ℚ) ^ ((p : ℤ) - (x - 1)) = 10 * 10 ^ ((p : ℤ) - x) := by
      rw [← zpow_one_add₀ ten_ne]
      congr 1
      ring
    rw [hy, ez] at hhalf
    have hNn : nearest n d = 10 ^ (p + 1) := by
      have hb : |(nearest n d : ℚ) - 10 * N| < 1 := by
        have e : 10 * (r * 10 ^ ((p : ℤ) - x)) = r * (10 * 10 ^ ((p : ℤ) - x)) := by ring
        have h3 : |r * (10 * 10 ^ ((p : ℤ) - x)) - 10 * N| < 1 / 2 := by
          rw [← e, ← mul_sub, abs_mul, abs_of_pos (by norm_num : (0 : ℚ) < 10)]
          linarith
        calc |(nearest n d : ℚ) - 10 * N| ≤ |(nearest n d : ℚ) - r * (10 * 10 ^ ((p : ℤ) - x))| + |r * (10 * 10 ^ ((p : ℤ) - x)) - 10 * N| :=
              abs_sub_le _ _ _
          _ < 1 := by linarith
      obtain ⟨b1, b2⟩ := abs_lt.1 hb
      have c1 : (nearest n d : ℚ) < ((10 * N + 1 : ℕ) : ℚ) := by push_cast; linarith
      have c2 : ((10 * N : ℕ) : ℚ) < ((nearest n d + 1 : ℕ) : ℚ) := by push_cast; linarith
      have c1' : nearest n d < 10 * N + 1 := by exact_mod_cast c1
      have c2' : 10 * N < nearest n d + 1 := by exact_mod_cast c2
      rw [pow_succ]
      omega
    rw [hNn, if_pos rfl, hy, hNe]
    congr 1
    ring

/-- The text depends on the digits and the exponent only. -/
theorem fmt_general_congr (a : Bool) {p k k' : ℕ} (h : significant (p - 1) k' = significant (p - 1) k) :
    fmt (.general p) (.fin a k') = fmt (.general p) (.fin a k) := by
  have hq : (if p = 0 then 1 else p) - 1 = p - 1 := by split <;> omega
  simp only [fmt, magnitude, hq, h]

/-- Below 10^p the exponent is below p. -/
theorem significant_below {p k : ℕ} (hk : k ≠ 0) (h : (k : ℚ) / one < 10 ^ (p + 1) - 1 / 2) : (significant p k).2 ≤ p := by
  obtain ⟨e1, e2⟩ := exponent10_spec hk
  obtain ⟨n, d, hd, hs, hq⟩ := scaled_nearest k p (exponent10 k)
  have hhalf := nearest_half (n := n) hd
  rw [hq] at hhalf
  have hy : exponent10 k < p + 1 := by
    have h3 : (10 : ℚ) ^ exponent10 k < 10 ^ ((p : ℤ) + 1) := by
      have e : (10 : ℚ) ^ ((p : ℤ) + 1) = 10 ^ (p + 1) := by norm_cast
      rw [e]
      linarith
    exact (zpow_lt_zpow_iff_right₀ (by norm_num)).1 h3
  unfold significant
  rw [if_neg hk, hs]
  by_cases hc : nearest n d = 10 ^ (p + 1)
  · rw [if_pos hc]
    show exponent10 k + 1 ≤ p
    by_contra hx
    have hx : exponent10 k = p := by omega
    rw [hx, sub_self, zpow_zero, mul_one, hc] at hhalf
    have := (abs_le.1 hhalf).2
    push_cast at this
    linarith
  · rw [if_neg hc]
    show exponent10 k ≤ p
    omega

/-- A decimal of `q + 1` digits is read as a number close to it. -/
theorem read_close (st : Style) {n : Lit} {a : Bool} {k : ℕ} {t : List ℕ} {err : ℚ} (W : Written a k t err n) (hfe : n.frac ≠ none ∨ n.exp ≠ none)
    {q N : ℕ} {x : ℤ} (h1 : 10 ^ q ≤ N) (h2 : N < 10 ^ (q + 1)) (hex : n.exact = sgn a * ((N : ℚ) * 10 ^ (x - q)))
    (hb : (2 * n.fracDigits + 2 * n.exponent.natAbs + 3) * 10 ^ (q + 1) * 20 ≤ 2 ^ 53) :
    ∃ k', n.value (ops st) = .flt (.fin a k') ∧ k' ≠ 0 ∧ |(k' : ℚ) / one - N * 10 ^ (x - q)| < 1 / 20 * 10 ^ (x - q) := by
  obtain ⟨f, r, e1, e2, e3⟩ := value_near st W.valid W.readable hfe W.digits W.exponent W.range
  have hu : (0 : ℚ) < 10 ^ (x - q) := zpow_pos (by norm_num) _
  have hN1 : (1 : ℚ) ≤ N := by
    have : 0 < 10 ^ q := Nat.pow_pos (by omega)
    exact_mod_cast (by omega : 1 ≤ N)
  have hN2 : (N : ℚ) < 10 ^ (q + 1) := by exact_mod_cast h2
  have habs : |n.exact| = N * 10 ^ (x - q) := by
    rw [hex, abs_sgn, abs_of_nonneg (mul_nonneg (by linarith) hu.le)]
  rw [habs] at e3
  have hbq : ((2 * n.fracDigits + 2 * n.exponent.natAbs + 3 : ℕ) : ℚ) * 10 ^ (q + 1) * 20 ≤ 2 ^ 53 := by exact_mod_cast hb
  have hc : ((2 * n.fracDigits + 2 * n.exponent.natAbs + 3 : ℕ) : ℚ) = 2 * (n.fracDigits : ℚ) + 2 * (n.exponent.natAbs : ℚ) + 3 := by push_cast; ring
  rw [hc] at hbq
  generalize (10 : ℚ) ^ (x - q) = u at *
  have hpos : (0 : ℚ) < 2 * (n.fracDigits : ℚ) + 2 * (n.exponent.natAbs : ℚ) + 3 := by positivity
  generalize 2 * (n.fracDigits : ℚ) + 2 * (n.exponent.natAbs : ℚ) + 3 = c at *
  have hlt : |r - n.exact| < 1 / 20 * u := by
    refine e3.trans_lt ?_
    rw [← mul_assoc]
    apply mul_lt_mul_of_pos_right _ hu
    rw [div_mul_eq_mul_div, div_lt_iff₀ (by positivity)]
    have : c * N < c * 10 ^ (q + 1) := mul_lt_mul_of_pos_left hN2 hpos
    linarith
  cases f with
  | nan => cases e2
  | inf => cases e2
  | fin b k' =>
    rw [dblValue_fin] at e2
    injection e2 with e2
    have hkn : (0 : ℚ) ≤ (k' : ℚ) / one := div_nonneg (Nat.cast_nonneg _) oneQ_pos.le
    have hNu : u ≤ N * u := by nlinarith
    rw [← e2, hex] at hlt
    have hk0 : k' ≠ 0 := by
      rintro rfl
      simp only [Nat.cast_zero, zero_div, mul_zero, zero_sub, abs_neg, abs_sgn] at hlt
      rw [abs_of_nonneg (by linarith)] at hlt
      linarith
    generalize hy : (k' : ℚ) / one = y at hkn hlt
    obtain ⟨b1, b2⟩ := abs_lt.1 hlt
    have hab : b = a := by
      cases a <;> cases b
      · rfl
      · simp only [sgn, if_true, Bool.false_eq_true, if_false] at b1 b2; linarith
      · simp only [sgn, if_true, Bool.false_eq_true, if_false] at b1 b2; linarith
      · rfl
    subst hab
    refine ⟨k', e1, hk0, ?_⟩
    rw [← mul_sub, abs_sgn] at hlt
    rw [hy]
    exact hlt

theorem natText_decText (a : Bool) {v : ℕ} (h : v ≠ 0) :
    decText (if a then -(v : ℤ) else v) = (if a then [0x2D] else []) ++ natText v := by
  unfold decText natText
  cases a
  · simp only [Bool.false_eq_true, if_false]
    rw [if_neg (by omega)]
    simp
  · simp only [if_true]
    rw [if_pos (by omega)]
    simp

/-- In the default style, a double that is written without a positive exponent is written as a
decimal that, read and written again, gives the same text. -/
theorem general_stable (st : Style) (a : Bool) {k p : ℕ} (hk : k < 2 ^ 52 * one) (hlo : (1 : ℚ) / 10 ^ 299 ≤ (k : ℚ) / one)
    (hp : 1 ≤ p) (hp' : p ≤ 11) (hhi : (k : ℚ) / one < 10 ^ p - 1 / 2) :
    ∃ n : Lit, Written a k (fmt (.general p) (.fin a k)) (1 / 2 / 10 ^ (p - 1) * ((k : ℚ) / one)) n ∧
      ((∃ k', n.value (ops st) = .flt (.fin a k') ∧ k' % one ≠ 0 ∧ fmt (.general p) (.fin a k') = fmt (.general p) (.fin a k)) ∨
       ∃ i : ℤ, n.value (ops st) = .int i ∧ decText i = fmt (.general p) (.fin a k)) := by
  have hoq := oneQ_pos
  have hk0 : k ≠ 0 := by
    rintro rfl
    have : (0 : ℚ) < 1 / 10 ^ 299 := by positivity
    simp at hlo
    linarith
  have hq : (if p = 0 then 1 else p) - 1 = p - 1 := by split <;> omega
  have hf : fmt (.general p) (.fin a k) = (if a then [0x2D] else []) ++
      (if (significant (p - 1) k).2 < -4 ∨ ((p - 1 : ℕ) : ℤ) < (significant (p - 1) k).2 then
        stripped (pointed (p - 1) (significant (p - 1) k).1) ++ exponentText (significant (p - 1) k).2
      else stripped (pointed (((p - 1 : ℕ) : ℤ) - (significant (p - 1) k).2).toNat (significant (p - 1) k).1)) := by
    simp only [fmt, magnitude, hq]
  have hx := significant_below (p := p - 1) hk0 (by rw [Nat.sub_add_cancel hp]; exact hhi)
  obtain ⟨hx1, hx2⟩ := exponent10_bounds hk hlo
  obtain ⟨s1, s2, s3, s4⟩ := significant_spec (p - 1) hk0
  have hpow : (10 : ℕ) ^ (p - 1 + 1) ≤ 10 ^ 11 := Nat.pow_le_pow_right (by omega) (by omega)
  by_cases h : (significant (p - 1) k).2 < -4 ∨ ((p - 1 : ℕ) : ℤ) < (significant (p - 1) k).2
  · have h4 : (significant (p - 1) k).2 < -4 := by omega
    obtain ⟨m, v, t1, t2, t3, _⟩ := stripped_pointed (p - 1) (significant (p - 1) k).1
    obtain ⟨n, w, hne, hd, hx, hexact⟩ := exp_lit a hk hlo (by omega) t2 t3
    have W : Written a k (fmt (.general p) (.fin a k)) (1 / 2 / 10 ^ (p - 1) * ((k : ℚ) / one)) n := by
      rw [hf, if_pos h, t1]
      exact w
    refine ⟨n, W, .inl ?_⟩
    obtain ⟨k', r1, r2, r3⟩ := read_close st W (.inr hne) s1 s2 hexact (by
      rw [hd, hx]
      have : 2 * m + 2 * (significant (p - 1) k).2.natAbs + 3 ≤ 640 := by omega
      calc (2 * m + 2 * (significant (p - 1) k).2.natAbs + 3) * 10 ^ (p - 1 + 1) * 20 ≤ 640 * 10 ^ 11 * 20 :=
            Nat.mul_le_mul_right _ (Nat.mul_le_mul this hpow)
        _ ≤ 2 ^ 53 := by norm_num)
    refine ⟨k', r1, ?_, fmt_general_congr a ((significant_near r2 s1 s2 r3).trans rfl)⟩
    intro h0
    have hj : k' = k' / one * one := (Nat.div_mul_cancel (Nat.dvd_of_mod_eq_zero h0)).symm
    have hj0 : 1 ≤ k' / one := by
      apply Nat.one_le_iff_ne_zero.2
      intro hc
      rw [hc, Nat.zero_mul] at hj
      exact r2 hj
    have hge : (1 : ℚ) ≤ (k' : ℚ) / one := by
      rw [le_div_iff₀ hoq, one_mul]
      have : one ≤ k' := by rw [hj]; exact Nat.le_mul_of_pos_left _ hj0
      exact_mod_cast this
    have h5 := (abs_lt.1 r3).2
    have hlt : ((significant (p - 1) k).1 : ℚ) * 10 ^ ((significant (p - 1) k).2 - (p - 1 : ℕ)) ≤ 10 ^ (-4 : ℤ) := by
      calc ((significant (p - 1) k).1 : ℚ) * 10 ^ ((significant (p - 1) k).2 - (p - 1 : ℕ)) ≤
            10 ^ (p - 1 + 1) * 10 ^ ((significant (p - 1) k).2 - (p - 1 : ℕ)) :=
            mul_le_mul_of_nonneg_right (by exact_mod_cast s2.le) (zpow_nonneg (by norm_num) _)
        _ = 10 ^ ((significant (p - 1) k).2 + 1) := by
          rw [← zpow_natCast, ← zpow_add₀ ten_ne]
          congr 1
          push_cast
          ring
        _ ≤ 10 ^ (-4 : ℤ) := zpow_le_zpow_right₀ (by norm_num) (by omega)
    have hu : (10 : ℚ) ^ ((significant (p - 1) k).2 - (p - 1 : ℕ)) ≤ 10 ^ (-4 : ℤ) := zpow_le_zpow_right₀ (by norm_num) (by omega)
    have e4 : (10 : ℚ) ^ (-4 : ℤ) = 1 / 10000 := by norm_num
    rw [e4] at hlt hu
    linarith
  · obtain ⟨m, v, t1, t2, t3, t4⟩ := stripped_pointed (((p - 1 : ℕ) : ℤ) - (significant (p - 1) k).2).toNat (significant (p - 1) k).1
    obtain ⟨n, w, hd, hx, hexact, hlit⟩ := point_lit a hk hlo (by omega) h t2 t3
    have W : Written a k (fmt (.general p) (.fin a k)) (1 / 2 / 10 ^ (p - 1) * ((k : ℚ) / one)) n := by
      rw [hf, if_neg h, t1]
      exact w
    refine ⟨n, W, ?_⟩
    have hv0 : v ≠ 0 := by
      rintro rfl
      have : 0 < 10 ^ (p - 1) := Nat.pow_pos (by omega)
      omega
    by_cases hm : m = 0
    · right
      subst hm
      refine ⟨if a then -(v : ℤ) else v, ?_, ?_⟩
      · rw [hlit]
        simp only [litOf, Lit.value, if_true, pow_zero, Nat.div_one, natText_decimal]
      · rw [natText_decText a hv0, hf, if_neg h, t1]
        simp [pointed]
    · left
      have hne : n.frac ≠ none := by
        rw [hlit]
        simp [litOf, hm]
      obtain ⟨k', r1, r2, r3⟩ := read_close st W (.inl hne) s1 s2 hexact (by
        rw [hx]
        have : 2 * n.fracDigits + 2 * (0 : ℤ).natAbs + 3 ≤ 640 := by
          simp only [Int.natAbs_zero]
          omega
        calc (2 * n.fracDigits + 2 * (0 : ℤ).natAbs + 3) * 10 ^ (p - 1 + 1) * 20 ≤ 640 * 10 ^ 11 * 20 :=
              Nat.mul_le_mul_right _ (Nat.mul_le_mul this hpow)
          _ ≤ 2 ^ 53 := by norm_num)
      refine ⟨k', r1, ?_, fmt_general_congr a ((significant_near r2 s1 s2 r3).trans rfl)⟩
      intro h0
      have hj : k' = k' / one * one := (Nat.div_mul_cancel (Nat.dvd_of_mod_eq_zero h0)).symm
      have hjq : (k' : ℚ) / one = ((k' / one : ℕ) : ℚ) := by
        rw [div_eq_iff hoq.ne']
        exact_mod_cast hj
      generalize k' / one = j at *
      rw [hjq] at r3
      obtain ⟨l, hl⟩ : ∃ l : ℕ, ((p - 1 : ℕ) : ℤ) - (significant (p - 1) k).2 = l := ⟨_, (Int.toNat_of_nonneg (by omega)).symm⟩
      rw [hl, Int.toNat_natCast] at t2 t3
      have hxl : (significant (p - 1) k).2 - (p - 1 : ℕ) = -(l : ℤ) := by omega
      rw [hxl, t3, zpow_neg, zpow_natCast] at r3
      have hl0 : (0 : ℚ) < 10 ^ l := by positivity
      have hmul : |(j : ℚ) * 10 ^ l - ((v * 10 ^ (l - m) : ℕ) : ℚ)| < 1 / 20 := by
        have e : (j : ℚ) * 10 ^ l - ((v * 10 ^ (l - m) : ℕ) : ℚ) = ((j : ℚ) - ((v * 10 ^ (l - m) : ℕ) : ℚ) * (10 ^ l)⁻¹) * 10 ^ l := by
          field_simp
        rw [e, abs_mul, abs_of_pos hl0]
        calc |(j : ℚ) - ((v * 10 ^ (l - m) : ℕ) : ℚ) * (10 ^ l)⁻¹| * 10 ^ l < 1 / 20 * (10 ^ l)⁻¹ * 10 ^ l := mul_lt_mul_of_pos_right r3 hl0
          _ = 1 / 20 := by field_simp
      obtain ⟨b1, b2⟩ := abs_lt.1 hmul
      have c1 : ((j * 10 ^ l : ℕ) : ℚ) < ((v * 10 ^ (l - m) + 1 : ℕ) : ℚ) := by push_cast at b2 ⊢; linarith
      have c2 : ((v * 10 ^ (l - m) : ℕ) : ℚ) < ((j * 10 ^ l + 1 : ℕ) : ℚ) := by push_cast at b1 ⊢; linarith
      have c1' : j * 10 ^ l < v * 10 ^ (l - m) + 1 := by exact_mod_cast c1
      have c2' : v * 10 ^ (l - m) < j * 10 ^ l + 1 := by exact_mod_cast c2
      have hl' : 10 ^ l = 10 ^ m * 10 ^ (l - m) := by rw [← pow_add]; congr 1; omega
      have heq : v * 10 ^ (l - m) = j * 10 ^ m * 10 ^ (l - m) := by
        rw [Nat.mul_assoc, ← hl']
        omega
      have hv : v = j * 10 ^ m := Nat.eq_of_mul_eq_mul_right (Nat.pow_pos (by omega)) heq
      apply t4 hm
      obtain ⟨m', rfl⟩ : ∃ m', m = m' + 1 := ⟨m - 1, by omega⟩
      rw [hv, pow_succ, ← Nat.mul_assoc, Nat.mul_mod_left]

end Configor.Dbl
