import Verif.Proofs.DblLit
import Verif.Proofs.DblNearest
/-!
# Powers of ten beyond the doubles
-/
set_option exponentiation.threshold 2000
namespace Configor.Dbl
open Spec Spec.Rfc

/-- Infinity, or a number that is at least one. -/
def Big (f : Dbl) : Prop := f = .inf false ∨ ∃ k, one ≤ k ∧ f = .fin false k

theorem one_ulp : ulp one ∣ one := Nat.dvd_of_mod_eq_zero (by decide +kernel)

theorem roundUnits_ge {n : Nat} (h : one * one ≤ n) : one ≤ roundUnits n one := by
  have h1 := roundUnits_nearest (n := n) one_pos one_ulp
  unfold distance at h1
  generalize roundUnits n one = r at h1
  apply Decidable.byContradiction
  intro hr
  have h2 : r * one < one * one := Nat.mul_lt_mul_of_pos_right (by omega) one_pos
  have h3 : ((r * one : Nat) : Int) = (r : Int) * (one : Int) := by push_cast; rfl
  have h4 : ((one * one : Nat) : Int) = (one : Int) * (one : Int) := by push_cast; rfl
  rw [← h3, ← h4] at h1
  generalize one * one = a at h h2 h1
  generalize r * one = b at h2 h1
  omega

theorem big_mul {f g : Dbl} (hf : Big f) (hg : Big g) : Big (mul f g) := by
  have hp := one_pos
  rcases hf with rfl | ⟨k, hk, rfl⟩ <;> rcases hg with rfl | ⟨l, hl, rfl⟩
  · exact .inl rfl
  · left; simp only [mul]; rw [if_neg (by omega)]; rfl
  · left; simp only [mul]; rw [if_neg (by omega)]; rfl
  · simp only [mul, round]
    have := roundUnits_ge (Nat.mul_le_mul hk hl)
    split
    · exact .inr ⟨_, this, rfl⟩
    · exact .inl rfl

theorem big_mul_inf {f : Dbl} (hf : Big f) : mul f (.inf false) = .inf false := by
  have hp := one_pos
  rcases hf with rfl | ⟨k, hk, rfl⟩
  · rfl
  · simp only [mul]; rw [if_neg (by omega)]; rfl

theorem powSq_inf (st : Style) (n e : Nat) {acc : Dbl} (ha : Big acc) (he : e < 2 ^ n) (h : e ≠ 0 ∨ acc = .inf false) :
    powSq (ops st) n e (.inf false) acc = .inf false := by
  induction n generalizing e acc with
  | zero =>
    rcases h with h | h
    · simp at he; omega
    · simpa [powSq] using h
  | succ n ih =>
    rw [powSq]
    by_cases h0 : e = 0
    · rw [if_pos h0]
      rcases h with h | h
      · exact absurd h0 h
      · exact h
    · rw [if_neg h0, ops_mul]
      have hi : mul (.inf false) (.inf false) = .inf false := rfl
      rw [hi, big_mul_inf ha]
      by_cases ho : e % 2 = 1
      · rw [if_pos ho]
        exact ih _ (.inl rfl) (by omega) (.inr rfl)
      · rw [if_neg ho]
        exact ih _ ha (by omega) (.inl (by omega))

theorem powSq_step (st : Style) (n e : Nat) (base acc : Dbl) (hb : Big base) (ha : Big acc) (he : e ≠ 0) :
    ∃ acc', Big acc' ∧ powSq (ops st) (n + 1) e base acc = powSq (ops st) n (e / 2) (mul base base) acc' := by
  rw [powSq, if_neg he, ops_mul]
  split
  · exact ⟨_, big_mul ha hb, rfl⟩
  · exact ⟨_, ha, rfl⟩

/-- Squared again and again. -/
def squared : Nat → Dbl → Dbl
  | 0, f => f
  | n + 1, f => squared n (mul f f)

theorem powSq_steps (st : Style) (i n e : Nat) (base acc : Dbl) (hb : Big base) (ha : Big acc) (he : 2 ^ i ≤ e) :
    ∃ acc', Big acc' ∧ powSq (ops st) (n + i) e base acc = powSq (ops st) n (e / 2 ^ i) (squared i base) acc' := by
  induction i generalizing e base acc with
  | zero => exact ⟨acc, ha, by simp [squared]⟩
  | succ i ih =>
    have hp : 0 < 2 ^ i := Nat.pow_pos (by omega)
    obtain ⟨a1, h1, h2⟩ := powSq_step st (n + i) e base acc hb ha (by omega)
    obtain ⟨a2, h3, h4⟩ := ih (e / 2) (mul base base) a1 (big_mul hb hb) h1 (by rw [Nat.le_div_iff_mul_le (by omega)]; rw [Nat.pow_succ] at he; omega)
    refine ⟨a2, h3, ?_⟩
    have : n + (i + 1) = n + i + 1 := rfl
    rw [this, h2, h4, squared, Nat.div_div_eq_div_mul, Nat.pow_succ, Nat.mul_comm 2]

theorem big_ten : Big (ofInt 10) := .inr ⟨10 * one, by have := one_pos; omega, by decide +kernel⟩
theorem big_one : Big (ofInt 1) := .inr ⟨one, Nat.le_refl _, by decide +kernel⟩
theorem ten_512 : squared 9 (ofInt 10) = .inf false := by decide +kernel

theorem scale_309 : ∀ e < 512, 309 ≤ e → powSq (ops (.general 6)) 32 e (ofInt 10) (ofInt 1) = .inf false := by
  decide +kernel

theorem powSq_style (st st' : Style) (n e : Nat) (base acc : Dbl) : powSq (ops st) n e base acc = powSq (ops st') n e base acc := by
  induction n generalizing e base acc with
  | zero => rfl
  | succ n ih => rw [powSq, powSq, ih]; rfl

/-- From the exponent 309 on, the power of ten is infinite. -/
theorem scale_inf (st : Style) {e : Nat} (h : 309 ≤ e) (he : e < 4294967296) : scale (ops st) false e = .inf false := by
  unfold scale
  simp only [Bool.false_eq_true, if_false]
  rw [ops_ofInt]
  by_cases hs : e < 512
  · rw [powSq_style st (.general 6)]
    exact scale_309 e hs h
  · obtain ⟨a, h1, h2⟩ := powSq_steps st 9 23 e (ofInt 10) (ofInt 1) big_ten big_one (by omega)
    have e32 : 23 + 9 = 32 := rfl
    rw [e32, ten_512] at h2
    rw [h2]
    exact powSq_inf st _ _ h1 (by omega) (.inl (by omega))

/-- The mantissa as it is read. -/
def mantissaVal (fo : FloatOps F) (n : Lit) : F := tailVal fo (decimal n.int) n.frac none

theorem mantissa_near (st : Style) {n : Lit} (hv : n.Valid) (hr : Readable n) (hl : n.fracDigits ≤ 300) :
    Near (2 * n.fracDigits + 1) (mantissaVal (ops st) n) n.mantissa := by
  obtain ⟨m, i, f, x⟩ := n
  have hf := hv.frac
  have hi : decimal i ≤ 10 ^ 19 := by
    have h : decimal i ≤ 9223372036854775807 := hr.int
    exact h.trans (by norm_num)
  cases f with
  | none =>
    rw [mantissa_none]
    unfold mantissaVal
    rw [tailVal_nn, ops_ofInt]
    exact (near_ofInt (i := decimal i) (hi.trans (by norm_num))).mono (by omega)
  | some fs =>
    rw [mantissa_some]
    exact fracVal_near st hi fs (hf fs rfl).2 hl

theorem value_inf (st : Style) {n : Lit} (hv : n.Valid) (hr : Readable n) (hl : n.fracDigits ≤ 300) {e : Nat} {s : Option Nat} {ds : List Nat}
    (hx : n.exp = some (e, s, ds)) (hs : s ≠ some 0x2D) (h : 309 ≤ decimal ds) (hd : decimal ds < 4294967296) :
    n.value (ops st) = .flt (if n.mantissa = 0 then .nan else .inf n.minus) := by
  rw [value_flt (ops st) (.inr (by rw [hx]; simp))]
  have hm := mantissa_near st hv hr hl
  have hsc := scale_inf st h hd
  have hs' : (s == some 0x2D) = false := by simpa using hs
  have ht : tailVal (ops st) (decimal n.int) n.frac n.exp = mul (mantissaVal (ops st) n) (.inf false) := by
    rw [hx]
    unfold mantissaVal
    cases n.frac with
    | none => rw [tailVal_ns, tailVal_nn, hs', hsc, ops_mul]
    | some fs => rw [tailVal_ss, tailVal_sn, hs', hsc, ops_mul]
  rw [ht]
  obtain ⟨k, hk, h1, h2⟩ := hm
  rw [hk]
  have hU := Upow_pos (2 * n.fracDigits + 1)
  by_cases h0 : n.mantissa = 0
  · rw [if_pos h0]
    rw [h0] at h1
    have : k = 0 := by
      have : (k : ℚ) ≤ 0 := by simpa using h1
      exact_mod_cast le_antisymm this (by positivity)
    subst this
    simp only [mul, if_true, ops_neg]
    cases n.minus <;> rfl
  · rw [if_neg h0]
    have : k ≠ 0 := by
      rintro rfl
      apply h0
      have hp : n.mantissa * one ≤ 0 := by simpa using h2
      have h3 : 0 ≤ n.mantissa := (mantissa_near st hv hr hl).nonneg
      rcases h3.lt_or_eq with h4 | h4
      · exact absurd (mul_pos h4 oneQ_pos) (not_lt.mpr hp)
      · exact h4.symm
    simp only [mul, ops_neg]
    rw [if_neg this]
    cases n.minus <;> rfl

end Configor.Dbl
