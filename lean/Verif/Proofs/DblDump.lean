import Verif.Proofs.DblSci
/-!
# The literals that doubles are written as
-/
set_option exponentiation.threshold 2000
namespace Configor.Dbl
open Spec Spec.Rfc

/-- A double with a fraction is below 2^52. -/
theorem small_of_frac {k : ℕ} (h : Representable k) (hm : k % one ≠ 0) : k < 2 ^ 52 * one := by
  obtain ⟨n, _, hn⟩ := one_def
  rw [hn] at hm ⊢
  by_contra hge
  have hge : 2 ^ (52 + n) ≤ k := by rw [pow_add]; omega
  have hk : k ≠ 0 := by
    intro h0
    rw [h0] at hge
    have := two_pow_pos' (52 + n)
    omega
  have hl : 52 + n ≤ Nat.log2 k := (Nat.le_log2 hk).2 hge
  have hd : 2 ^ n ∣ ulp k := Nat.pow_dvd_pow 2 (by omega)
  exact hm (Nat.mod_eq_zero_of_dvd (hd.trans h.2))

/-- The sign of a double as a factor. -/
def sgn (a : Bool) : ℚ := if a then -1 else 1

theorem abs_sgn (a : Bool) (x : ℚ) : |sgn a * x| = |x| := by cases a <;> simp [sgn]

theorem dblValue_fin (a : Bool) (k : ℕ) : dblValue (.fin a k) = some (sgn a * ((k : ℚ) / one)) := by
  rw [oneQ]
  simp only [dblValue, sgn, mul_div_assoc]

theorem litOf_exact (a p v x) : (litOf a p v x).exact = sgn a * ((v : ℚ) / 10 ^ p * 10 ^ (litOf a p v x).exponent) := by
  rw [Lit.exact, litOf_mantissa, mul_assoc]
  rfl

theorem litOf_exponent_none (a p v) : (litOf a p v none).exponent = 0 := exponent_none _ _ _

/-- The exponent of `exponentText`. -/
def expOf (x : ℤ) (ds : List ℕ) : Option (ℕ × Option ℕ × List ℕ) := some (0x65, some (if x < 0 then 0x2D else 0x2B), ds)

theorem litOf_exponent_some (a p v) {x : ℤ} {ds : List ℕ} (h : decimal ds = x.natAbs) : (litOf a p v (expOf x ds)).exponent = x := by
  unfold litOf expOf
  rw [exponent_some, h]
  by_cases hx : x < 0
  · rw [if_pos hx, if_pos (by decide)]
    omega
  · rw [if_neg hx, if_neg (by decide)]
    omega

/-- What is asked of the literal that a double is written as. -/
structure Written (a : Bool) (k : ℕ) (t : List ℕ) (err : ℚ) (n : Lit) : Prop where
  text : n.text = t
  valid : n.Valid
  readable : Readable n
  digits : n.fracDigits ≤ 300
  exponent : n.exponent.natAbs ≤ 300
  range : InRange |n.exact|
  near : |n.exact - sgn a * ((k : ℚ) / one)| ≤ err

theorem fin_fixed (a : Bool) {k p : ℕ} (hk : k < 2 ^ 52 * one) (hp : 1 ≤ p) (hp' : p ≤ 300) :
    ∃ n : Lit, Written a k (fmt (.fixed p) (.fin a k)) (1 / 2 / 10 ^ p) n ∧ n.frac ≠ none ∧ n.fracDigits = p ∧ n.exponent = 0 ∧ n.exp = none := by
  have hoq := oneQ_pos
  have ht : (0 : ℚ) < 10 ^ p := by positivity
  generalize hv : nearest (k * 10 ^ p) one = v
  have hvle : v ≤ 2 ^ 52 * 10 ^ p := by
    rw [← hv]
    apply nearest_le_of one_pos
    calc k * 10 ^ p ≤ (2 ^ 52 * one) * 10 ^ p := Nat.mul_le_mul_right _ hk.le
      _ = _ := by ring
  have hex : (litOf a p v none).exact = sgn a * ((v : ℚ) / 10 ^ p) := by
    rw [litOf_exact, litOf_exponent_none, zpow_zero, mul_one]
  refine ⟨litOf a p v none, ⟨?_, litOf_valid a p v none nofun, ⟨?_, nofun⟩, ?_, ?_, ?_, ?_⟩, ?_, litOf_fracDigits _ _ _ _,
    litOf_exponent_none _ _ _, rfl⟩
  · rw [litOf_text, ← hv]
    rfl
  · show decimal (natText (v / 10 ^ p)) ≤ intMax
    rw [natText_decimal]
    have : v / 10 ^ p ≤ 2 ^ 52 := Nat.div_le_of_le_mul (by rw [Nat.mul_comm]; exact hvle)
    have hi : 2 ^ 52 ≤ intMax := by decide
    omega
  · rw [litOf_fracDigits]; exact hp'
  · rw [litOf_exponent_none]; decide
  · rw [hex, abs_sgn, abs_of_nonneg (by positivity)]
    by_cases h0 : v = 0
    · left
      rw [h0]
      simp
    · right
      have h1 : (1 : ℚ) ≤ v := by exact_mod_cast Nat.one_le_iff_ne_zero.2 h0
      constructor
      · calc (1 : ℚ) / 10 ^ 300 ≤ 1 / 10 ^ p := one_div_le_one_div_of_le ht (pow_le_pow_right₀ (by norm_num) hp')
          _ ≤ v / 10 ^ p := by gcongr
      · rw [div_le_iff₀ ht]
        have h2 : (v : ℚ) ≤ 2 ^ 52 * 10 ^ p := by exact_mod_cast hvle
        have h3 : (2 ^ 52 : ℚ) * 10 ^ p ≤ 10 ^ 300 * 10 ^ p := mul_le_mul_of_nonneg_right (by norm_num) ht.le
        exact h2.trans h3
  · rw [hex, ← mul_sub, abs_sgn]
    have := nearest_half (n := k * 10 ^ p) one_pos
    rw [hv] at this
    have e : (v : ℚ) / 10 ^ p - (k : ℚ) / one = (v - ((k * 10 ^ p : ℕ) : ℚ) / one) / 10 ^ p := by
      push_cast
      field_simp
    rw [e, abs_div, abs_of_pos ht]
    gcongr
  · unfold litOf
    simp
    omega

/-- Bounds of the decimal exponent. -/
theorem exponent10_bounds {k : ℕ} (hk : k < 2 ^ 52 * one) (hlo : (1 : ℚ) / 10 ^ 299 ≤ (k : ℚ) / one) :
    -299 ≤ exponent10 k ∧ exponent10 k ≤ 15 := by
  have hoq := oneQ_pos
  have hk0 : k ≠ 0 := by
    rintro rfl
    have : (0 : ℚ) < 1 / 10 ^ 299 := by positivity
    simp at hlo
    linarith
  obtain ⟨h1, h2⟩ := exponent10_spec hk0
  constructor
  · by_contra h
    have h3 : (10 : ℚ) ^ (exponent10 k + 1) ≤ 10 ^ (-299 : ℤ) := zpow_le_zpow_right₀ (by norm_num) (by omega)
    have e : (10 : ℚ) ^ (-299 : ℤ) = 1 / 10 ^ 299 := by rw [zpow_neg, one_div]; norm_cast
    rw [e] at h3
    linarith
  · by_contra h
    have h3 : (10 : ℚ) ^ (16 : ℤ) ≤ 10 ^ exponent10 k := zpow_le_zpow_right₀ (by norm_num) (by omega)
    have h4 : (k : ℚ) / one < 2 ^ 52 := by
      rw [div_lt_iff₀ hoq]
      exact_mod_cast hk
    have h5 : (2 : ℚ) ^ 52 < 10 ^ (16 : ℤ) := by norm_num
    linarith

theorem pow_in_range {x : ℤ} {d p : ℕ} (h1 : 10 ^ p ≤ d) (h2 : d < 10 ^ (p + 1)) (hx : -300 ≤ x) (hx' : x ≤ 16) :
    InRange ((d : ℚ) * 10 ^ (x - p)) := by
  have hz : (0 : ℚ) < 10 ^ (x - (p : ℤ)) := zpow_pos (by norm_num) _
  right
  constructor
  · calc (1 : ℚ) / 10 ^ 300 = 10 ^ (-300 : ℤ) := by rw [zpow_neg, one_div]; norm_cast
      _ ≤ 10 ^ x := zpow_le_zpow_right₀ (by norm_num) hx
      _ = 10 ^ p * 10 ^ (x - (p : ℤ)) := by rw [← zpow_natCast, ← zpow_add₀ ten_ne]; congr 1; ring
      _ ≤ _ := mul_le_mul_of_nonneg_right (by exact_mod_cast h1) hz.le
  · calc (d : ℚ) * 10 ^ (x - (p : ℤ)) ≤ 10 ^ (p + 1) * 10 ^ (x - (p : ℤ)) :=
          mul_le_mul_of_nonneg_right (by exact_mod_cast h2.le) hz.le
      _ = 10 ^ (x + 1) := by
        rw [← zpow_natCast, ← zpow_add₀ ten_ne]
        congr 1
        push_cast
        ring
      _ ≤ 10 ^ (300 : ℤ) := zpow_le_zpow_right₀ (by norm_num) (by omega)
      _ = 10 ^ 300 := by norm_cast

/-- Half a unit of the last significant digit, relative to the number. -/
theorem half_rel {k p : ℕ} (hk : k ≠ 0) : 1 / 2 * (10 : ℚ) ^ (exponent10 k - p) ≤ 1 / 2 / 10 ^ p * ((k : ℚ) / one) := by
  obtain ⟨h1, _⟩ := exponent10_spec hk
  have ht : (0 : ℚ) < 10 ^ p := by positivity
  rw [zpow_sub₀ ten_ne, zpow_natCast]
  calc 1 / 2 * ((10 : ℚ) ^ exponent10 k / 10 ^ p) = 1 / 2 / 10 ^ p * 10 ^ exponent10 k := by ring
    _ ≤ _ := mul_le_mul_of_nonneg_left h1 (by positivity)

/-- The literal with `m` digits behind the point, without zeros at its end or with, and an exponent. -/
theorem exp_lit (a : Bool) {k p m v : ℕ} (hk : k < 2 ^ 52 * one) (hlo : (1 : ℚ) / 10 ^ 299 ≤ (k : ℚ) / one) (hp : p ≤ 300)
    (hm : m ≤ p) (hv : (significant p k).1 = v * 10 ^ (p - m)) :
    ∃ n : Lit, Written a k ((if a then [0x2D] else []) ++ (pointed m v ++ exponentText (significant p k).2))
      (1 / 2 / 10 ^ p * ((k : ℚ) / one)) n ∧ n.exp ≠ none ∧ n.fracDigits = m ∧ n.exponent = (significant p k).2 ∧
      n.exact = sgn a * (((significant p k).1 : ℚ) * 10 ^ ((significant p k).2 - p)) := by
  have hoq := oneQ_pos
  have hk0 : k ≠ 0 := by
    rintro rfl
    have : (0 : ℚ) < 1 / 10 ^ 299 := by positivity
    simp at hlo
    linarith
  obtain ⟨hx1, hx2⟩ := exponent10_bounds hk hlo
  obtain ⟨s1, s2, s3, s4⟩ := significant_spec p hk0
  have hrel := half_rel (p := p) hk0
  generalize (significant p k).1 = d at *
  generalize (significant p k).2 = x at *
  obtain ⟨ds, e1, e2, e3, e4⟩ := exponentText_eq x
  have hmant : (v : ℚ) / 10 ^ m = (d : ℚ) / 10 ^ p := by
    rw [hv]
    push_cast
    have : (10 : ℚ) ^ p = 10 ^ (p - m) * 10 ^ m := by rw [← pow_add]; congr 1; omega
    rw [this]
    field_simp
  have hex : (litOf a m v (expOf x ds)).exact = sgn a * ((d : ℚ) * 10 ^ (x - p)) := by
    rw [litOf_exact, litOf_exponent_some a m v e4, hmant, zpow_sub₀ ten_ne, zpow_natCast]
    ring
  have hdiv : v / 10 ^ m = d / 10 ^ p := by
    rw [hv]
    have : (10 : ℕ) ^ p = 10 ^ (p - m) * 10 ^ m := by rw [← pow_add]; congr 1; omega
    rw [this, Nat.mul_comm v, Nat.mul_div_mul_left _ _ (by positivity)]
  have hd1 : 1 ≤ d / 10 ^ p := (Nat.le_div_iff_mul_le (by positivity)).2 (by omega)
  have hd9 : d / 10 ^ p < 10 := (Nat.div_lt_iff_lt_mul (by positivity)).2 (by rw [pow_succ] at s2; omega)
  refine ⟨litOf a m v (expOf x ds), ⟨?_, litOf_valid a m v _ ?_, ⟨?_, ?_⟩, ?_, ?_, ?_, ?_⟩, nofun, ?_, litOf_exponent_some a m v e4, hex⟩
  · rw [expOf, litOf_text_exp, e1]
  · intro e s ds' h
    injection h with h
    injection h with h1 h2
    injection h2 with h2 h3
    subst h1 h2 h3
    refine ⟨.inl rfl, ?_, e2, e3⟩
    intro sg hsg
    injection hsg with hsg
    subst hsg
    by_cases hx : x < 0 <;> simp [hx]
  · show decimal (natText (v / 10 ^ m)) ≤ intMax
    rw [natText_decimal, hdiv]
    have hi : 10 ≤ intMax := by decide
    omega
  · intro e s ds' h
    injection h with h
    injection h with h1 h2
    injection h2 with h2 h3
    subst h1 h2 h3
    refine ⟨by omega, nofun, fun _ h0 => ?_⟩
    have : natText (v / 10 ^ m) = [0x30] := h0
    have := natText_zero this
    omega
  · rw [litOf_fracDigits]; omega
  · rw [litOf_exponent_some a m v e4]; omega
  · rw [hex, abs_sgn, abs_of_nonneg (mul_nonneg (Nat.cast_nonneg _) (zpow_nonneg (by norm_num) _))]
    exact pow_in_range s1 s2 (by omega) (by omega)
  · rw [hex, ← mul_sub, abs_sgn]
    exact s3.trans hrel
  · rw [litOf_fracDigits]

theorem fin_scientific (a : Bool) {k p : ℕ} (hk : k < 2 ^ 52 * one) (hlo : (1 : ℚ) / 10 ^ 299 ≤ (k : ℚ) / one) (hp : p ≤ 300) :
    ∃ n : Lit, Written a k (fmt (.scientific p) (.fin a k)) (1 / 2 / 10 ^ p * ((k : ℚ) / one)) n ∧ n.exp ≠ none ∧
      n.fracDigits = p ∧ n.exponent = (significant p k).2 := by
  obtain ⟨n, h1, h2, h3, h4, _⟩ := exp_lit a hk hlo hp le_rfl (by rw [Nat.sub_self, pow_zero, mul_one])
  exact ⟨n, h1, h2, h3, h4⟩

/-- The literal without exponent. -/
theorem point_lit (a : Bool) {k q m v : ℕ} (hk : k < 2 ^ 52 * one) (hlo : (1 : ℚ) / 10 ^ 299 ≤ (k : ℚ) / one) (hq : q ≤ 290)
    (h4 : ¬ ((significant q k).2 < -4 ∨ (q : ℤ) < (significant q k).2))
    (hm : m ≤ ((q : ℤ) - (significant q k).2).toNat) (hv : (significant q k).1 = v * 10 ^ (((q : ℤ) - (significant q k).2).toNat - m)) :
    ∃ n : Lit, Written a k ((if a then [0x2D] else []) ++ pointed m v)
      (1 / 2 / 10 ^ q * ((k : ℚ) / one)) n ∧ n.fracDigits ≤ q + 4 ∧ n.exponent = 0 ∧
      n.exact = sgn a * (((significant q k).1 : ℚ) * 10 ^ ((significant q k).2 - q)) ∧ n = litOf a m v none := by
  have hoq := oneQ_pos
  have hk0 : k ≠ 0 := by
    rintro rfl
    have : (0 : ℚ) < 1 / 10 ^ 299 := by positivity
    simp at hlo
    linarith
  obtain ⟨hx1, hx2⟩ := exponent10_bounds hk hlo
  obtain ⟨s1, s2, s3, s4⟩ := significant_spec q hk0
  have hrel := half_rel (p := q) hk0
  generalize (significant q k).1 = d at *
  generalize (significant q k).2 = x at *
  obtain ⟨l, hl⟩ : ∃ l : ℕ, (q : ℤ) - x = l := ⟨((q : ℤ) - x).toNat, by omega⟩
  rw [hl, Int.toNat_natCast] at hm hv
  have hx : x - q = -(l : ℤ) := by omega
  have hmant : (v : ℚ) / 10 ^ m = (d : ℚ) * 10 ^ (x - q) := by
    rw [hv, hx, zpow_neg, zpow_natCast]
    push_cast
    have : (10 : ℚ) ^ l = 10 ^ (l - m) * 10 ^ m := by rw [← pow_add]; congr 1; omega
    rw [this]
    field_simp
  have hex : (litOf a m v none).exact = sgn a * ((d : ℚ) * 10 ^ (x - q)) := by
    rw [litOf_exact, litOf_exponent_none, hmant, zpow_zero, mul_one]
  have hr := pow_in_range s1 s2 (x := x) (by omega) (by omega)
  refine ⟨litOf a m v none, ⟨?_, litOf_valid a m v _ nofun, ⟨?_, nofun⟩, ?_, ?_, ?_, ?_⟩, ?_, litOf_exponent_none a m v, hex, rfl⟩
  · rw [litOf_text]
  · show decimal (natText (v / 10 ^ m)) ≤ intMax
    rw [natText_decimal]
    have hi : 10 ^ 17 ≤ intMax := by decide
    have hq2 : ((v / 10 ^ m : ℕ) : ℚ) ≤ 10 ^ 17 := by
      calc ((v / 10 ^ m : ℕ) : ℚ) ≤ (v : ℚ) / ((10 ^ m : ℕ) : ℚ) :=
            (le_div_iff₀ (by positivity)).2 (by exact_mod_cast Nat.div_mul_le_self v (10 ^ m))
        _ = (d : ℚ) * 10 ^ (x - q) := by rw [← hmant]; push_cast; rfl
        _ ≤ 10 ^ (q + 1) * 10 ^ (x - (q : ℤ)) := mul_le_mul_of_nonneg_right (by exact_mod_cast s2.le) (zpow_nonneg (by norm_num) _)
        _ = 10 ^ (x + 1) := by
          rw [← zpow_natCast, ← zpow_add₀ ten_ne]
          congr 1
          push_cast
          ring
        _ ≤ 10 ^ (17 : ℤ) := zpow_le_zpow_right₀ (by norm_num) (by omega)
        _ = 10 ^ 17 := by norm_cast
    have : v / 10 ^ m ≤ 10 ^ 17 := by exact_mod_cast hq2
    omega
  · rw [litOf_fracDigits]; omega
  · rw [litOf_exponent_none]; decide
  · rw [hex, abs_sgn, abs_of_nonneg (mul_nonneg (Nat.cast_nonneg _) (zpow_nonneg (by norm_num) _))]
    exact hr
  · rw [hex, ← mul_sub, abs_sgn]
    exact s3.trans hrel
  · rw [litOf_fracDigits]; omega

theorem fin_general (a : Bool) {k p : ℕ} (hk : k < 2 ^ 52 * one) (hlo : (1 : ℚ) / 10 ^ 299 ≤ (k : ℚ) / one) (hp : p ≤ 290) :
    ∃ n : Lit, Written a k (fmt (.general p) (.fin a k)) (1 / 2 / 10 ^ (p - 1) * ((k : ℚ) / one)) n ∧ n.fracDigits ≤ p + 4 ∧
      (n.exponent = 0 ∨ n.exponent = (significant (p - 1) k).2) := by
  have hq : (if p = 0 then 1 else p) - 1 = p - 1 := by split <;> omega
  have hf : fmt (.general p) (.fin a k) = (if a then [0x2D] else []) ++
      (if (significant (p - 1) k).2 < -4 ∨ ((p - 1 : ℕ) : ℤ) < (significant (p - 1) k).2 then
        stripped (pointed (p - 1) (significant (p - 1) k).1) ++ exponentText (significant (p - 1) k).2
      else stripped (pointed (((p - 1 : ℕ) : ℤ) - (significant (p - 1) k).2).toNat (significant (p - 1) k).1)) := by
    simp only [fmt, magnitude, hq]
  rw [hf]
  by_cases h : (significant (p - 1) k).2 < -4 ∨ ((p - 1 : ℕ) : ℤ) < (significant (p - 1) k).2
  · rw [if_pos h]
    obtain ⟨m, v, h1, h2, h3, _⟩ := stripped_pointed (p - 1) (significant (p - 1) k).1
    rw [h1]
    obtain ⟨n, w, _, hd, hx, _⟩ := exp_lit a hk hlo (by omega) h2 h3
    exact ⟨n, w, by omega, .inr hx⟩
  · rw [if_neg h]
    obtain ⟨m, v, h1, h2, h3, _⟩ := stripped_pointed (((p - 1 : ℕ) : ℤ) - (significant (p - 1) k).2).toNat (significant (p - 1) k).1
    rw [h1]
    obtain ⟨n, w, hd, hx, _⟩ := point_lit a hk hlo (by omega) h h2 h3
    exact ⟨n, w, by omega, .inl hx⟩

end Configor.Dbl
