import Verif.Model.Dbl
/-!
# Rounding
-/
namespace Configor.Dbl

theorem two_pow_pos' (n : Nat) : 0 < 2 ^ n := Nat.pow_pos (by omega)
theorem one_def : ∃ n, n = 1074 ∧ one = 2 ^ n := ⟨_, rfl, by unfold one; rfl⟩
theorem huge_def : ∃ n, n = 2098 ∧ huge = 2 ^ n := ⟨_, rfl, by unfold huge; rfl⟩
theorem one_pos : 0 < one := by obtain ⟨n, _, h⟩ := one_def; rw [h]; exact two_pow_pos' n
theorem huge_pos : 0 < huge := by obtain ⟨n, _, h⟩ := huge_def; rw [h]; exact two_pow_pos' n

theorem ulp_pos (q : Nat) : 0 < ulp q := Nat.two_pow_pos _

theorem nearest_le {d : Nat} (n : Nat) : 2 * (nearest n d * d) ≤ 2 * n + d := by
  have h := Nat.div_add_mod n d
  unfold nearest
  rw [Nat.mul_comm d] at h
  split
  · omega
  · next hc =>
    rw [Nat.add_mul, Nat.one_mul]
    have : ¬ 2 * (n % d) < d := fun h => hc (.inl h)
    omega

theorem le_nearest {d : Nat} (hd : 0 < d) (n : Nat) : 2 * n ≤ 2 * (nearest n d * d) + d := by
  have h := Nat.div_add_mod n d
  have h2 := Nat.mod_lt n hd
  unfold nearest
  rw [Nat.mul_comm d] at h
  split
  · next hc => omega
  · rw [Nat.add_mul, Nat.one_mul]; omega

theorem nearest_exact {d : Nat} (hd : 0 < d) (n : Nat) : nearest (n * d) d = n := by
  unfold nearest
  rw [Nat.mul_mod_left, Nat.mul_div_cancel _ hd, if_pos (Or.inl (by omega))]

theorem ulp_le {q : Nat} (h : 2 ^ 52 ≤ q) : ulp q * 2 ^ 52 ≤ q := by
  unfold ulp
  have hq : q ≠ 0 := by have : 0 < 2 ^ 52 := Nat.two_pow_pos 52; omega
  have hl : 52 ≤ Nat.log2 q := (Nat.le_log2 hq).2 h
  rw [← Nat.pow_add, show Nat.log2 q - 52 + 52 = Nat.log2 q by omega]
  exact Nat.log2_self_le hq

theorem ulp_small {q : Nat} (h : q < 2 ^ 53) : ulp q = 1 := by
  unfold ulp
  have : Nat.log2 q - 52 = 0 := by
    by_cases hq : q = 0
    · subst hq; simp
    · have := (Nat.log2_lt hq).2 h
      omega
  rw [this, Nat.pow_zero]

/-- Rounding is off by at most half a distance. -/
theorem roundUnits_le {d : Nat} (n : Nat) : 2 * (roundUnits n d * d) ≤ 2 * n + d * ulp (n / d) := by
  have := nearest_le (d := d * ulp (n / d)) n
  unfold roundUnits
  rw [Nat.mul_assoc, Nat.mul_comm (ulp _) d]
  exact this

theorem le_roundUnits {d : Nat} (hd : 0 < d) (n : Nat) : 2 * n ≤ 2 * (roundUnits n d * d) + d * ulp (n / d) := by
  have := le_nearest (d := d * ulp (n / d)) (Nat.mul_pos hd (ulp_pos _)) n
  unfold roundUnits
  rw [Nat.mul_assoc, Nat.mul_comm (ulp _) d]
  exact this

/-- A number with at most 53 significant bits is not changed. -/
theorem roundUnits_exact {d : Nat} (hd : 0 < d) {k : Nat} (hk : ulp k ∣ k) : roundUnits (k * d) d = k := by
  unfold roundUnits
  rw [Nat.mul_div_cancel _ hd]
  obtain ⟨c, hc⟩ := hk
  have : k * d = c * (d * ulp k) := by
    rw [Nat.mul_comm d, ← Nat.mul_assoc, Nat.mul_comm c, ← hc]
  rw [this, nearest_exact (Nat.mul_pos hd (ulp_pos _)), Nat.mul_comm, ← hc]

theorem roundUnits_one {k : Nat} (hk : ulp k ∣ k) : roundUnits k 1 = k := by
  have := roundUnits_exact (d := 1) (by omega) hk
  rwa [Nat.mul_one] at this

theorem ulp_mul_pow {q : Nat} (hq : q ≠ 0) (s : Nat) : ulp (q * 2 ^ s) ∣ ulp q * 2 ^ s := by
  unfold ulp
  rw [← Nat.pow_add]
  apply Nat.pow_dvd_pow
  have : Nat.log2 (q * 2 ^ s) = Nat.log2 q + s := by
    have h0 : q * 2 ^ s ≠ 0 := Nat.mul_ne_zero hq (Nat.pos_iff_ne_zero.1 (Nat.two_pow_pos s))
    apply Nat.le_antisymm
    · have : Nat.log2 (q * 2 ^ s) < Nat.log2 q + s + 1 := by
        rw [Nat.log2_lt h0, Nat.add_right_comm, Nat.pow_add]
        exact Nat.mul_lt_mul_of_pos_right Nat.lt_log2_self (Nat.two_pow_pos s)
      omega
    · rw [Nat.le_log2 h0, Nat.pow_add]
      exact Nat.mul_le_mul_right _ (Nat.log2_self_le hq)
  omega

/-- A number below 2^53 times a power of two has at most 53 significant bits. -/
theorem ulp_dvd {m : Nat} (hm : m ≤ 2 ^ 53) (s : Nat) : ulp (m * 2 ^ s) ∣ m * 2 ^ s := by
  by_cases h0 : m = 0
  · subst h0; simp
  by_cases h : m = 2 ^ 53
  · subst h
    rw [← Nat.pow_add]
    unfold ulp
    apply Nat.pow_dvd_pow
    rw [Nat.log2_two_pow]
    omega
  · have := ulp_mul_pow h0 s
    rw [ulp_small (q := m) (by omega), Nat.one_mul] at this
    exact Nat.dvd_trans this (Nat.dvd_mul_left _ _)

theorem lt_ulp (q : Nat) : q < 2 ^ 53 * ulp q := by
  unfold ulp
  rw [← Nat.pow_add]
  by_cases hq : q = 0
  · subst hq; exact Nat.two_pow_pos _
  · have := Nat.lt_log2_self (n := q)
    refine Nat.lt_of_lt_of_le this (Nat.pow_le_pow_right (by omega) (by omega))

/-- What rounding gives has at most 53 significant bits. -/
theorem roundUnits_repr {d : Nat} (hd : 0 < d) (n : Nat) : ulp (roundUnits n d) ∣ roundUnits n d := by
  unfold roundUnits
  refine ulp_dvd ?_ _
  have h1 := lt_ulp (n / d)
  have h2 : n < 2 ^ 53 * (d * ulp (n / d)) := by
    have : n < (n / d + 1) * d := by
      have := Nat.div_add_mod n d
      have := Nat.mod_lt n hd
      rw [Nat.add_mul, Nat.one_mul, Nat.mul_comm]; omega
    have : n / d + 1 ≤ 2 ^ 53 * ulp (n / d) := h1
    calc n < (n / d + 1) * d := by assumption
      _ ≤ (2 ^ 53 * ulp (n / d)) * d := Nat.mul_le_mul_right _ this
      _ = _ := by rw [Nat.mul_assoc, Nat.mul_comm (ulp _)]
  have h3 : n / (d * ulp (n / d)) < 2 ^ 53 := Nat.div_lt_of_lt_mul (by rw [Nat.mul_comm]; exact h2)
  unfold nearest
  split <;> omega

theorem round_valid {neg : Bool} {n d : Nat} (hd : 0 < d) : (round neg n d).Valid := by
  unfold round
  split
  · next h => exact ⟨h, roundUnits_repr hd n⟩
  · trivial

theorem add_valid : ∀ a b, (add a b).Valid
  | .nan, _ => trivial
  | .inf _, .nan => trivial
  | .fin _ _, .nan => trivial
  | .inf a, .inf b => by simp only [add]; split <;> trivial
  | .inf _, .fin _ _ => trivial
  | .fin _ _, .inf _ => trivial
  | .fin a k, .fin b l => by
    simp only [add]
    split
    · exact ⟨huge_pos, Nat.dvd_zero _⟩
    · exact round_valid (by omega)

theorem mul_valid : ∀ a b, (mul a b).Valid
  | .nan, _ => trivial
  | .inf _, .nan => trivial
  | .fin _ _, .nan => trivial
  | .inf a, .inf b => trivial
  | .inf _, .fin _ _ => by simp only [mul]; split <;> trivial
  | .fin _ _, .inf _ => by simp only [mul]; split <;> trivial
  | .fin a k, .fin b l => round_valid one_pos

theorem ofInt_valid (i : Int) : (ofInt i).Valid := round_valid (by omega)

theorem neg_valid {a : Dbl} (h : a.Valid) : (neg a).Valid := by cases a <;> exact h

theorem tenth_valid : tenth.Valid := round_valid (by omega)

end Configor.Dbl
