import Verif.Proofs.DblLit
/-!
# The text of doubles
-/
set_option exponentiation.threshold 2000
namespace Configor.Dbl
open Spec Spec.Rfc

/-! ## Digits -/

theorem lastDigits_length (n v : ℕ) : (lastDigits n v).length = n := by
  induction n generalizing v with
  | zero => rfl
  | succ n ih => simp [lastDigits, ih]

theorem lastDigits_digit (n v : ℕ) : ∀ d ∈ lastDigits n v, Digit d := by
  induction n generalizing v with
  | zero => simp [lastDigits]
  | succ n ih =>
    intro d hd
    rw [lastDigits] at hd
    rcases List.mem_append.1 hd with hd | hd
    · exact ih _ d hd
    · simp at hd
      unfold Digit
      omega

theorem lastDigits_decimal (n v : ℕ) : decimal (lastDigits n v) = v % 10 ^ n := by
  induction n generalizing v with
  | zero => simp [lastDigits, decimal, Nat.mod_one]
  | succ n ih =>
    rw [lastDigits, decimal_snoc, ih, pow_succ, Nat.mul_comm (10 ^ n), Nat.mod_mul]
    omega

theorem natText_decimal (v : ℕ) : decimal (natText v) = v := (digits_decimal v).1
theorem natText_digit (v : ℕ) : ∀ d ∈ natText v, Digit d := (digits_decimal v).2.1
theorem natText_ne (v : ℕ) : natText v ≠ [] := (digits_decimal v).2.2.1
theorem natText_zero {v : ℕ} (h : natText v = [0x30]) : v = 0 := by
  have := natText_decimal v
  rw [h] at this
  exact this.symm

/-- The number of digits. -/
theorem natText_length {v : ℕ} (h : v ≠ 0) : 10 ^ ((natText v).length - 1) ≤ v ∧ v < 10 ^ (natText v).length := by
  unfold natText
  rw [List.length_map]
  induction v using Nat.strongRecOn with
  | _ v ih =>
    rw [digits_eq (by decide)]
    by_cases hv : v < 10
    · rw [if_pos hv]
      simp
      omega
    · rw [if_neg hv]
      obtain ⟨h1, h2⟩ := ih (v / 10) (by omega) (by omega)
      rw [List.length_append, List.length_singleton]
      have hl : (digits 10 (v / 10)).length ≠ 0 := by
        intro h0
        rw [h0] at h2
        simp at h2
        omega
      generalize (digits 10 (v / 10)).length = l at *
      obtain ⟨l, rfl⟩ : ∃ l', l = l' + 1 := ⟨l - 1, by omega⟩
      simp only [Nat.add_sub_cancel] at h1 ⊢
      rw [pow_succ] at h2 ⊢
      rw [pow_succ 10 (l + 1), pow_succ]
      omega

/-! ## Texts -/

/-- `pointed p v` as a literal. -/
def litOf (a : Bool) (p v : ℕ) (x : Option (ℕ × Option ℕ × List ℕ)) : Lit :=
  ⟨a, natText (v / 10 ^ p), if p = 0 then none else some (lastDigits p v), x⟩

theorem litOf_text (a : Bool) (p v : ℕ) :
    (litOf a p v none).text = (if a then [0x2D] else []) ++ pointed p v := by
  unfold litOf Lit.text pointed
  by_cases h : p = 0
  · simp [h]
  · simp [h]

theorem litOf_text_exp (a : Bool) (p v : ℕ) (e s ds) :
    (litOf a p v (some (e, some s, ds))).text = (if a then [0x2D] else []) ++ (pointed p v ++ e :: s :: ds) := by
  unfold litOf Lit.text pointed
  by_cases h : p = 0
  · simp [h]
  · simp [h]

theorem litOf_fracDigits (a p v x) : (litOf a p v x).fracDigits = p := by
  unfold litOf Lit.fracDigits
  by_cases h : p = 0
  · simp [h]
  · simp [h, lastDigits_length]

theorem litOf_mantissa (a p v x) : (litOf a p v x).mantissa = (v : ℚ) / 10 ^ p := by
  unfold litOf
  by_cases h : p = 0
  · rw [if_pos h, mantissa_none, natText_decimal, h]
    simp
  · rw [if_neg h, mantissa_some, natText_decimal, lastDigits_decimal, lastDigits_length]
    have hp : (10 : ℚ) ^ p ≠ 0 := pow_ne_zero _ (by norm_num)
    have := Nat.div_add_mod v (10 ^ p)
    have hq : ((10 ^ p * (v / 10 ^ p) + v % 10 ^ p : ℕ) : ℚ) = (v : ℚ) := by rw [this]
    push_cast at hq
    field_simp
    linarith

theorem litOf_valid (a : Bool) (p v : ℕ) (x) (hx : ∀ e s ds, x = some (e, s, ds) → (e = 0x65 ∨ e = 0x45) ∧
    (∀ sg, s = some sg → sg = 0x2B ∨ sg = 0x2D) ∧ ds ≠ [] ∧ ∀ d ∈ ds, Digit d) : (litOf a p v x).Valid where
  int := natText_int _
  frac := by
    intro ds h
    unfold litOf at h
    simp only at h
    split at h
    · cases h
    · next hp =>
      injection h with h
      subst h
      refine ⟨?_, lastDigits_digit p v⟩
      intro h0
      have := lastDigits_length p v
      rw [h0] at this
      exact hp this.symm
  exp := hx

/-! ## Trailing zeros -/

/-- What `stripped` does to a text with a point. -/
def cut (t : List ℕ) : List ℕ :=
  let u := (t.reverse.dropWhile (· == 0x30))
  (if u.head? = some 0x2E then u.tail else u).reverse

theorem cut_zero (t : List ℕ) : cut (t ++ [0x30]) = cut t := by
  unfold cut
  simp

theorem cut_point (t : List ℕ) : cut (t ++ [0x2E]) = t := by
  unfold cut
  simp

theorem cut_digit (t : List ℕ) {c : ℕ} (h1 : c ≠ 0x30) (h2 : c ≠ 0x2E) : cut (t ++ [c]) = t ++ [c] := by
  unfold cut
  simp [h1, h2]

/-- A text without its trailing zeros. -/
theorem cut_pointed (m v : ℕ) :
    ∃ m' v', cut (natText (v / 10 ^ m) ++ 0x2E :: lastDigits m v) = pointed m' v' ∧ m' ≤ m ∧ v = v' * 10 ^ (m - m') ∧
      (m' ≠ 0 → v' % 10 ≠ 0) := by
  induction m generalizing v with
  | zero =>
    refine ⟨0, v, ?_, le_rfl, by simp, by simp⟩
    rw [lastDigits, cut_point]
    simp [pointed]
  | succ m ih =>
    by_cases h0 : v % 10 = 0
    · obtain ⟨m', v', h1, h2, h3, h4⟩ := ih (v / 10)
      refine ⟨m', v', ?_, by omega, ?_, h4⟩
      · rw [← h1, lastDigits, h0]
        have e : v / 10 ^ (m + 1) = v / 10 / 10 ^ m := by rw [pow_succ, Nat.mul_comm, Nat.div_div_eq_div_mul]
        rw [e]
        have e2 : natText (v / 10 / 10 ^ m) ++ 0x2E :: (lastDigits m (v / 10) ++ [0x30 + 0]) =
            (natText (v / 10 / 10 ^ m) ++ 0x2E :: lastDigits m (v / 10)) ++ [0x30] := by simp
        rw [e2, cut_zero]
      · have hv : v = v / 10 * 10 := by omega
        rw [hv, h3]
        have : m + 1 - m' = (m - m') + 1 := by omega
        rw [this, pow_succ]
        ring
    · refine ⟨m + 1, v, ?_, le_rfl, by simp, fun _ => h0⟩
      rw [lastDigits]
      have e2 : natText (v / 10 ^ (m + 1)) ++ 0x2E :: (lastDigits m (v / 10) ++ [0x30 + v % 10]) =
          (natText (v / 10 ^ (m + 1)) ++ 0x2E :: lastDigits m (v / 10)) ++ [0x30 + v % 10] := by simp
      rw [e2, cut_digit _ (by omega) (by omega)]
      simp [pointed, lastDigits]

theorem stripped_pointed (m v : ℕ) :
    ∃ m' v', stripped (pointed m v) = pointed m' v' ∧ m' ≤ m ∧ v = v' * 10 ^ (m - m') ∧ (m' ≠ 0 → v' % 10 ≠ 0) := by
  by_cases hm : m = 0
  · subst hm
    refine ⟨0, v, ?_, le_rfl, by simp, by simp⟩
    unfold stripped
    rw [if_neg]
    unfold pointed
    simp only [if_true, List.append_nil]
    intro h
    have := natText_digit _ _ h
    unfold Digit at this
    omega
  · have : stripped (pointed m v) = cut (natText (v / 10 ^ m) ++ 0x2E :: lastDigits m v) := by
      unfold stripped pointed cut
      rw [if_neg hm, if_pos (by simp)]
    rw [this]
    exact cut_pointed m v

/-! ## Rounding to decimal digits -/

theorem nearest_le_of {n d N : ℕ} (hd : 0 < d) (h : n ≤ N * d) : nearest n d ≤ N := by
  have h1 := Nat.div_add_mod n d
  have h2 := Nat.mod_lt n hd
  rcases Nat.lt_or_ge (n / d) N with hl | hl
  · unfold nearest; split <;> omega
  · have h3 : N * d ≤ d * (n / d) := by rw [Nat.mul_comm]; exact Nat.mul_le_mul_left d hl
    have h4 : n / d = N := by
      apply le_antisymm _ hl
      exact Nat.div_le_of_le_mul (by rw [Nat.mul_comm]; exact h)
    unfold nearest
    rw [if_pos (Or.inl (by omega)), h4]

/-- Rounding to a whole number is off by at most a half. -/
theorem nearest_half {n d : ℕ} (hd : 0 < d) : |(nearest n d : ℚ) - n / d| ≤ 1 / 2 := by
  have h1 := nearest_le (d := d) n
  have h2 := le_nearest hd n
  have hdq : (0 : ℚ) < d := by exact_mod_cast hd
  have h1' : (2 : ℚ) * (nearest n d * d) ≤ 2 * n + d := by exact_mod_cast h1
  have h2' : (2 : ℚ) * n ≤ 2 * (nearest n d * d) + d := by exact_mod_cast h2
  rw [abs_le]
  constructor
  · have : (n : ℚ) / d ≤ nearest n d + 1 / 2 := by rw [div_le_iff₀ hdq]; linarith
    linarith
  · have : (nearest n d : ℚ) - 1 / 2 ≤ n / d := by rw [le_div_iff₀ hdq]; linarith
    linarith

end Configor.Dbl
