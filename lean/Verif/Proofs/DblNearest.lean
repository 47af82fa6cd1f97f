import Verif.Proofs.Dbl
/-!
# Rounding gives the nearest double
-/
namespace Configor.Dbl

/-- The distance of `k` units from `n / d` units, times `d`. -/
def distance (n d k : Nat) : Nat := ((k * d : Int) - n).natAbs

theorem nearest_best {d : Nat} (hd : 0 < d) (n m : Nat) : distance n d (nearest n d) ≤ distance n d m := by
  have h1 := nearest_le (d := d) n
  have h2 := le_nearest hd n
  unfold distance
  by_cases hm : m = nearest n d
  · rw [hm]; omega
  · have h3 : m * d + d ≤ nearest n d * d ∨ nearest n d * d + d ≤ m * d := by
      rcases Nat.lt_or_gt_of_ne hm with h | h
      · left
        have := Nat.mul_le_mul_right d (show m + 1 ≤ nearest n d by omega)
        rw [Nat.add_mul] at this
        omega
      · right
        have := Nat.mul_le_mul_right d (show nearest n d + 1 ≤ m by omega)
        rw [Nat.add_mul] at this
        omega
    have e1 : ((nearest n d * d : Nat) : Int) = (nearest n d : Int) * d := by simp
    have e2 : ((m * d : Nat) : Int) = (m : Int) * d := by simp
    rw [← e1, ← e2]
    omega

theorem mult_best {d u : Nat} (hd : 0 < d) (hu : 0 < u) (n m : Nat) :
    distance n d (nearest n (d * u) * u) ≤ distance n d (m * u) := by
  have := nearest_best (Nat.mul_pos hd hu) n m
  unfold distance at this ⊢
  have e : ∀ x : Nat, ((x * u : Nat) : Int) * d = (x : Int) * ((d * u : Nat) : Int) := by
    intro x
    rw [Int.natCast_mul, Int.natCast_mul, Int.mul_assoc, Int.mul_comm (u : Int)]
  rw [e, e]
  exact this

/-- No number of units with 53 significant bits is nearer to `n / d` than the rounded one. -/
theorem roundUnits_nearest {n d : Nat} (hd : 0 < d) {l : Nat} (hl : ulp l ∣ l) :
    distance n d (roundUnits n d) ≤ distance n d l := by
  unfold roundUnits
  have hu := ulp_pos (n / d)
  generalize hq : n / d = q at hu
  -- a multiple of the spacing at `n / d`
  have hmul : ulp q ∣ l → distance n d (nearest n (d * ulp q) * ulp q) ≤ distance n d l := by
    rintro ⟨m, rfl⟩
    rw [Nat.mul_comm (ulp q) m]
    exact mult_best hd hu n m
  by_cases hs : q < 2 ^ 53
  · exact hmul (by rw [ulp_small hs]; exact Nat.one_dvd _)
  · have hq0 : q ≠ 0 := by omega
    have hL : 53 ≤ Nat.log2 q := (Nat.le_log2 hq0).2 (by omega)
    by_cases hlo : 2 ^ Nat.log2 q ≤ l
    · have hl0 : l ≠ 0 := by
        have := two_pow_pos' (Nat.log2 q)
        omega
      have h1 : Nat.log2 q ≤ Nat.log2 l := (Nat.le_log2 hl0).2 hlo
      have h2 : ulp q ∣ ulp l := Nat.pow_dvd_pow 2 (by omega)
      exact hmul (Nat.dvd_trans h2 hl)
    · -- the power of two below `n / d` is nearer than `l`
      have h1 : distance n d (nearest n (d * ulp q) * ulp q) ≤ distance n d (2 ^ Nat.log2 q) := by
        have := mult_best hd hu n (2 ^ 52)
        have e : 2 ^ 52 * ulp q = 2 ^ Nat.log2 q := by
          unfold ulp
          rw [← Nat.pow_add]
          congr 1
          omega
        rwa [e] at this
      refine Nat.le_trans h1 ?_
      have h2 : 2 ^ Nat.log2 q ≤ q := Nat.log2_self_le hq0
      have h3 : 2 ^ Nat.log2 q * d ≤ n := Nat.le_trans (Nat.mul_le_mul_right d h2) (by rw [← hq]; exact Nat.div_mul_le_self n d)
      have h4 : l * d ≤ 2 ^ Nat.log2 q * d := Nat.mul_le_mul_right d (by omega)
      unfold distance
      rw [← Int.natCast_mul, ← Int.natCast_mul]
      omega

end Configor.Dbl
