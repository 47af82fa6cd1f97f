import Verif.Spec.Double
import Verif.Proofs.DblWhole
/-!
# Doubles in calls of `dump`
-/
namespace Configor.Dbl
open Spec Spec.Rfc

theorem whole_fin {f : Dbl} {i : Int} (h : Whole f i) : ∃ a, f = .fin a (i.natAbs * one) ∧ units a i.natAbs = i := by
  cases f with
  | nan => exact h.elim
  | inf => exact h.elim
  | fin a k =>
    simp only [Whole] at h
    have hp := one_pos
    generalize one = o at h hp
    have hk : k = i.natAbs * o := by
      have h1 : ((if a = true then -(k : Int) else k)).natAbs = k := by split <;> omega
      rw [← h1, h, Int.natAbs_mul, Int.natAbs_natCast]
    cases a with
    | false =>
      refine ⟨false, by rw [hk], ?_⟩
      simp only [units, Bool.false_eq_true, if_false] at h ⊢
      have : 0 ≤ i := by
        rcases Int.lt_or_le i 0 with h0 | h0
        · have := Int.mul_neg_of_neg_of_pos h0 (show (0 : Int) < o by omega)
          omega
        · exact h0
      omega
    | true =>
      refine ⟨true, by rw [hk], ?_⟩
      simp only [units, if_true] at h ⊢
      have : i ≤ 0 := by
        rcases Int.lt_or_le 0 i with h0 | h0
        · have := Int.mul_pos h0 (show (0 : Int) < o by omega)
          omega
        · exact h0
      omega

theorem fin_whole (a : Bool) (n : Nat) : Whole (.fin a (n * one)) (units a n) := by
  simp only [Whole, units]
  cases a <;> simp [Int.neg_mul]

/-- What `FloatOk` means for doubles. -/
theorem floatOk_iff {A : DumpArgs Dbl} {st : Style} (hA : A.fo = ops st) (f : Dbl) : FloatOk A f ↔ ¬ OutOfRange f := by
  unfold FloatOk OutOfRange
  rw [hA]
  cases f with
  | nan => simp [ops, isIntegral, Whole]
  | inf a => simp [ops, isIntegral, toI64]
  | fin a k =>
    simp only [ops, isIntegral, toI64, beq_iff_eq]
    constructor
    · rintro h (⟨_, h2⟩ | ⟨i, hw, hi⟩)
      · cases h2
      · obtain ⟨b, hb, hu⟩ := whole_fin hw
        injection hb with h1 h2
        subst h1 h2
        obtain ⟨j, hj⟩ := h (Nat.mul_mod_left _ _)
        rw [Nat.mul_div_cancel _ one_pos, hu] at hj
        split at hj
        · omega
        · cases hj
    · intro h hm
      have hk : k = k / one * one := by
        have := Nat.div_add_mod k one
        rw [hm, Nat.mul_comm] at this
        omega
      have hw := fin_whole a (k / one)
      rw [← hk] at hw
      refine ⟨units a (k / one), if_pos ?_⟩
      apply Classical.byContradiction
      intro hc
      exact h (Or.inr ⟨_, hw, by omega⟩)

theorem whole_text {A : DumpArgs Dbl} {st : Style} (hA : A.fo = ops st) {f : Dbl} {i : Int} (hw : Whole f i)
    (hi : i.natAbs < 9223372036854775808) : floatText A.fo f = decText i ++ [0x2E, 0x30] := by
  obtain ⟨a, rfl, hu⟩ := whole_fin hw
  rw [hA, (text_whole st (a := a) (i := i.natAbs) hi).2.2, hu]

theorem whole_ok {f : Dbl} {i : Int} (hw : Whole f i) (hi : i.natAbs < 9223372036854775808) : ¬ OutOfRange f := by
  obtain ⟨a, rfl, hu⟩ := whole_fin hw
  rintro (⟨_, h⟩ | ⟨j, hj, hr⟩)
  · cases h
  · obtain ⟨b, hb, hu'⟩ := whole_fin hj
    injection hb with h1 h2
    subst h1
    have := Nat.eq_of_mul_eq_mul_right one_pos h2
    rw [this] at hu
    have : i = j := by rw [← hu, hu']
    omega

theorem whole_val {B : ParseArgs Dbl} (hU : B.Usual) {st : Style} (hB : B.fo = ops st) {f : Dbl} (hv : f.Valid) (hz : ¬ NegZero f)
    {i : Int} (hw : Whole f i) (hi : i.natAbs < 9223372036854775808) (nx : Option Nat) (hn : After nx) :
    Val B.dialect (decText i ++ [0x2E, 0x30]) nx (.flt f) := by
  obtain ⟨a, rfl, hu⟩ := whole_fin hw
  have := val_whole hU hB (a := a) (i := i.natAbs) hi (by
    intro ha h0
    apply hz
    rw [ha, h0, Nat.zero_mul]
    rfl) hv nx hn
  rwa [hu] at this

theorem wholeText_of (i : Int) : WholeText i (decText i ++ [0x2E, 0x30]) := by
  obtain ⟨h1, h2, h3, h4⟩ := digits_decimal i.natAbs
  exact ⟨_, rfl, h3, h2, h1, fun h => h4 (by omega)⟩

theorem representable_small {n : Nat} (h : n ≤ 2 ^ 53) : Representable (n * one) := by
  obtain ⟨e, he, h1⟩ := one_def
  obtain ⟨m, hm, h2⟩ := huge_def
  rw [h1]
  refine ⟨?_, ulp_dvd h e⟩
  rw [h2]
  calc n * 2 ^ e ≤ 2 ^ 53 * 2 ^ e := Nat.mul_le_mul_right _ h
    _ = 2 ^ (53 + e) := (Nat.pow_add _ _ _).symm
    _ < 2 ^ m := Nat.pow_lt_pow_right (by omega) (by omega)

theorem ofInt_small {i : Int} (h : i.natAbs ≤ 2 ^ 53) : ofInt i = .fin (decide (i < 0)) (i.natAbs * one) := by
  unfold ofInt
  exact round_exact (representable_small h)

theorem representable_pow {e : Nat} (h : e < 1024) : Representable (2 ^ e * one) := by
  obtain ⟨n, hn, h1⟩ := one_def
  obtain ⟨m, hm, h2⟩ := huge_def
  rw [h1, ← Nat.pow_add]
  refine ⟨by rw [h2]; exact Nat.pow_lt_pow_right (by omega) (by omega), ?_⟩
  have := ulp_dvd (m := 1) Nat.one_le_two_pow (e + n)
  rwa [Nat.one_mul] at this

end Configor.Dbl
