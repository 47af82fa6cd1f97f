import Verif.Proofs.DblApprox
/-!
# Literals read as doubles
-/
set_option exponentiation.threshold 2000
namespace Configor.Dbl
open Spec Spec.Rfc

theorem ops_ofInt (st : Style) : (ops st).ofInt = ofInt := rfl
theorem ops_add (st : Style) : (ops st).add = add := rfl
theorem ops_mul (st : Style) : (ops st).mul = mul := rfl
theorem ops_neg (st : Style) : (ops st).neg = neg := rfl
theorem ops_tenth (st : Style) : (ops st).tenth = tenth := rfl

theorem inRange_pow {j : ℕ} (h : j ≤ 300) : InRange (1 / 10 ^ j) ∧ InRange (10 ^ j) := by
  have h1 : (1 : ℚ) ≤ 10 ^ j := one_le_pow₀ (by norm_num)
  have h2 : (10 : ℚ) ^ j ≤ 10 ^ 300 := pow_le_pow_right₀ (by norm_num) h
  have h3 : (1 : ℚ) ≤ 10 ^ 300 := one_le_pow₀ (by norm_num)
  refine ⟨.inr ⟨?_, ?_⟩, .inr ⟨?_, h2⟩⟩
  · exact one_div_le_one_div_of_le (by positivity) h2
  · refine le_trans ?_ h3
    rw [div_le_one (by positivity)]
    exact h1
  · refine le_trans ?_ h1
    rw [div_le_one (by positivity)]
    exact h3

theorem digit_le {c : ℕ} (h : Digit c) : c - 0x30 ≤ 9 := by unfold Digit at h; omega

/-- A digit times a power of a tenth. -/
theorem inRange_digit {d j : ℕ} (hd : d ≤ 9) (hj : j ≤ 300) : InRange ((d : ℚ) * (1 / 10 ^ j)) := by
  by_cases h0 : d = 0
  · left; subst h0; simp
  · right
    have h1 : (1 : ℚ) ≤ d := by exact_mod_cast Nat.one_le_iff_ne_zero.2 h0
    have h2 : (d : ℚ) ≤ 9 := by exact_mod_cast hd
    have hp : (0 : ℚ) < 1 / 10 ^ j := by positivity
    have h3 : (1 : ℚ) / 10 ^ 300 ≤ 1 / 10 ^ j := by
      rcases (inRange_pow hj).1 with h | h
      · rw [h] at hp; exact absurd hp (lt_irrefl _)
      · exact h.1
    have h4 : (1 : ℚ) / 10 ^ j ≤ 1 := by
      rw [div_le_one (by positivity)]
      exact one_le_pow₀ (by norm_num)
    constructor
    · nlinarith
    · have : (d : ℚ) * (1 / 10 ^ j) ≤ 9 := by nlinarith
      exact this.trans (by norm_num)

section
variable (st : Style)

theorem fracLoop_near (ds : List ℕ) (h : ∀ d ∈ ds, Digit d) (f s : Dbl) (x : ℚ) (j : ℕ) (hj : 1 ≤ j) (hf : Near (2 * j + 1) f x)
    (hs : Near (2 * j - 1) s (1 / 10 ^ j)) (hl : j + ds.length ≤ 300) (hx : x + 1 / 10 ^ j ≤ 10 ^ 20) :
    Near (2 * (j + ds.length) + 1) (fracLoop (ops st) f s ds) (x + 1 / 10 ^ j * ((decimal ds : ℚ) / 10 ^ ds.length)) := by
  induction ds generalizing f s x j with
  | nil =>
    simp only [fracLoop, decimal, List.length_nil, List.foldl_nil]
    simpa using hf
  | cons c ds ih =>
    rw [List.length_cons] at hl
    have hc := h c (by simp)
    have hc9 := digit_le hc
    have hcq : ((c - 0x30 : ℕ) : ℚ) ≤ 9 := by exact_mod_cast hc9
    have hp : (0 : ℚ) < 1 / 10 ^ (j + 1) := by positivity
    have hpj : (1 : ℚ) / 10 ^ j = 10 * (1 / 10 ^ (j + 1)) := by rw [pow_succ]; field_simp
    have hs' : Near (2 * (j + 1) - 1) (mul s tenth) (1 / 10 ^ (j + 1)) := by
      have e : (1 : ℚ) / 10 ^ (j + 1) = 1 / 10 ^ j * (1 / 10) := by rw [pow_succ]; field_simp
      have hr : InRange (1 / 10 ^ j * (1 / 10)) := by rw [← e]; exact (inRange_pow (by omega)).1
      have := near_mul hs near_tenth hr (by omega)
      rw [← e] at this
      exact this.mono (by omega)
    have hd : Near (2 * (j + 1)) (mul (ofInt ((c - 0x30 : ℕ) : ℤ)) (mul s tenth)) (((c - 0x30 : ℕ) : ℚ) * (1 / 10 ^ (j + 1))) := by
      have := near_mul (near_exact (i := c - 0x30) (by omega)) hs' (inRange_digit hc9 (by omega)) (by omega)
      exact this.mono (by omega)
    have hx' : x + ((c - 0x30 : ℕ) : ℚ) * (1 / 10 ^ (j + 1)) + 1 / 10 ^ (j + 1) ≤ 10 ^ 20 := by
      rw [hpj] at hx
      nlinarith
    have hf' : Near (2 * (j + 1) + 1) (add f (mul (ofInt ((c - 0x30 : ℕ) : ℤ)) (mul s tenth))) (x + ((c - 0x30 : ℕ) : ℚ) * (1 / 10 ^ (j + 1))) := by
      refine near_add (hf.mono (by omega)) hd ?_ (by omega)
      have : (10 : ℚ) ^ 20 ≤ 10 ^ 300 := by norm_num
      linarith
    have := ih (fun d hd => h d (by simp [hd])) _ _ _ (j + 1) (by omega) hf' hs' (by omega) hx'
    rw [fracLoop, dv_digit hc, ops_ofInt, ops_add, ops_mul, ops_tenth]
    have e : x + 1 / 10 ^ j * ((decimal (c :: ds) : ℚ) / 10 ^ (c :: ds).length) =
        x + ((c - 0x30 : ℕ) : ℚ) * (1 / 10 ^ (j + 1)) + 1 / 10 ^ (j + 1) * ((decimal ds : ℚ) / 10 ^ ds.length) := by
      rw [decimal_cons, List.length_cons, hpj]
      push_cast
      have : (10 : ℚ) ^ ds.length ≠ 0 := pow_ne_zero _ (by norm_num)
      field_simp
      ring
    rw [e, List.length_cons]
    have hn : 2 * (j + 1 + ds.length) + 1 = 2 * (j + (ds.length + 1)) + 1 := by omega
    rw [← hn]
    exact this

theorem fracVal_near {i : ℕ} (hi : i ≤ 10 ^ 19) (ds : List ℕ) (h : ∀ d ∈ ds, Digit d) (hl : ds.length ≤ 300) :
    Near (2 * ds.length + 1) (fracVal (ops st) i ds) (i + (decimal ds : ℚ) / 10 ^ ds.length) := by
  have hiq : (i : ℚ) ≤ 10 ^ 19 := by exact_mod_cast hi
  cases ds with
  | nil =>
    simp only [fracVal, decimal, List.length_nil, List.foldl_nil, ops]
    simpa using near_ofInt (i := i) (by omega)
  | cons c ds =>
    have hc := h c (by simp)
    have hc9 := digit_le hc
    have hcq : ((c - 0x30 : ℕ) : ℚ) ≤ 9 := by exact_mod_cast hc9
    rw [List.length_cons] at hl
    have hd : Near 2 (mul (ofInt ((c - 0x30 : ℕ) : ℤ)) tenth) (((c - 0x30 : ℕ) : ℚ) * (1 / 10)) := by
      have := inRange_digit hc9 (j := 1) (by omega)
      rw [pow_one] at this
      have := near_mul (near_exact (i := c - 0x30) (by omega)) near_tenth this (by omega)
      exact this.mono (by omega)
    have hf : Near 3 (add (ofInt (i : ℤ)) (mul (ofInt ((c - 0x30 : ℕ) : ℤ)) tenth)) (i + ((c - 0x30 : ℕ) : ℚ) * (1 / 10)) := by
      refine (near_add (K := 2) ((near_ofInt (i := i) (by omega)).mono (by omega)) hd ?_ (by omega)).mono (by omega)
      have : (10 : ℚ) ^ 19 + 1 ≤ 10 ^ 300 := by norm_num
      linarith
    have := fracLoop_near st ds (fun d hd => h d (by simp [hd])) _ _ _ 1 (by omega) hf (by simpa using near_tenth) (by omega) (by
      have : (10 : ℚ) ^ 19 + 1 ≤ 10 ^ 20 := by norm_num
      have : (1 : ℚ) / 10 ^ 1 = 1 / 10 := by norm_num
      linarith)
    rw [fracVal, dv_digit hc, ops_ofInt, ops_add, ops_mul, ops_tenth]
    have e : (i : ℚ) + (decimal (c :: ds) : ℚ) / 10 ^ (c :: ds).length =
        i + ((c - 0x30 : ℕ) : ℚ) * (1 / 10) + 1 / 10 ^ 1 * ((decimal ds : ℚ) / 10 ^ ds.length) := by
      rw [decimal_cons, List.length_cons]
      push_cast
      have : (10 : ℚ) ^ ds.length ≠ 0 := pow_ne_zero _ (by norm_num)
      field_simp
      ring
    rw [e, List.length_cons]
    have hn : 2 * (1 + ds.length) + 1 = 2 * (ds.length + 1) + 1 := by omega
    rw [← hn]
    exact this

/-- Powers by squaring: `t` is 10 or a tenth. -/
theorem powSq_near {t : ℚ} (ht : t = 10 ∨ t = 1 / 10) (n e p m A B : ℕ) (base acc : Dbl) (he : e < 2 ^ n)
    (hb : e ≠ 0 → Near B base (t ^ p)) (ha : Near A acc (t ^ m)) (hr : m + p * e ≤ 300) (hK : A + e * (B + 1) ≤ 10 ^ 6) :
    Near (A + e * (B + 1)) (powSq (ops st) n e base acc) (t ^ (m + p * e)) := by
  have hin : ∀ q ≤ 300, InRange (t ^ q) := by
    intro q hq
    rcases ht with rfl | rfl
    · exact (inRange_pow hq).2
    · rw [one_div, inv_pow, ← one_div]
      exact (inRange_pow hq).1
  induction n generalizing e p m A B base acc with
  | zero =>
    have : e = 0 := by simpa using he
    subst this
    simpa [powSq] using ha
  | succ n ih =>
    rw [powSq, ops_mul]
    by_cases h0 : e = 0
    · subst h0
      simpa using ha
    · rw [if_neg h0]
      have hb := hb h0
      have hB : B + 1 ≤ e * (B + 1) := Nat.le_mul_of_pos_left _ (by omega)
      have hlt : e / 2 < 2 ^ n := by rw [pow_succ] at he; omega
      have hb' : e / 2 ≠ 0 → Near (2 * B + 1) (mul base base) (t ^ (2 * p)) := by
        intro h
        have h2 : 2 * p ≤ p * e := by
          rw [Nat.mul_comm p]
          exact Nat.mul_le_mul_right p (by omega)
        have := near_mul hb hb (by rw [← pow_add]; exact hin _ (by omega)) (by
          have : 2 * (B + 1) ≤ e * (B + 1) := Nat.mul_le_mul_right _ (by omega)
          omega)
        rw [← pow_add] at this
        have e1 : B + B + 1 = 2 * B + 1 := by omega
        have e2 : p + p = 2 * p := by omega
        rwa [e1, e2] at this
      by_cases ho : e % 2 = 1
      · rw [if_pos ho]
        have ha' : Near (A + B + 1) (mul acc base) (t ^ (m + p)) := by
          have hp1 : p ≤ p * e := Nat.le_mul_of_pos_right _ (by omega)
          have := near_mul ha hb (by rw [← pow_add]; exact hin _ (by omega)) (by omega)
          rwa [← pow_add] at this
        have hE : e = 2 * (e / 2) + 1 := by omega
        generalize e / 2 = q at *
        subst hE
        have e1 : m + p + 2 * p * q = m + p * (2 * q + 1) := by ring
        have e2 : A + B + 1 + q * (2 * B + 1 + 1) = A + (2 * q + 1) * (B + 1) := by ring
        have := ih q (2 * p) (m + p) (A + B + 1) (2 * B + 1) (mul base base) (mul acc base) hlt hb' ha' (by rw [e1]; exact hr) (by rw [e2]; exact hK)
        rw [e1, e2] at this
        exact this
      · rw [if_neg ho]
        have hE : e = 2 * (e / 2) := by omega
        generalize e / 2 = q at *
        subst hE
        have e1 : m + 2 * p * q = m + p * (2 * q) := by ring
        have e2 : A + q * (2 * B + 1 + 1) = A + 2 * q * (B + 1) := by ring
        have := ih q (2 * p) m A (2 * B + 1) (mul base base) acc hlt hb' ha (by rw [e1]; exact hr) (by rw [e2]; exact hK)
        rw [e1, e2] at this
        exact this

theorem scale_near (neg : Bool) {e : ℕ} (he : e ≤ 300) :
    Near (2 * e) (scale (ops st) neg e) (10 ^ (if neg then -(e : ℤ) else e)) := by
  have h1 : Near 0 (ofInt 1) ((10 : ℚ) ^ 0) := by simpa using near_exact (i := 1) (by norm_num)
  have h1' : Near 0 (ofInt 1) ((1 / 10 : ℚ) ^ 0) := by simpa using near_exact (i := 1) (by norm_num)
  unfold scale
  rw [ops_ofInt, ops_tenth]
  cases neg with
  | false =>
    have hb : Near 0 (ofInt 10) ((10 : ℚ) ^ 1) := by simpa using near_exact (i := 10) (by norm_num)
    have := powSq_near st (.inl rfl) 32 e 1 0 0 0 (ofInt 10) (ofInt 1) (by omega) (fun _ => hb) h1 (by omega) (by omega)
    simp only [Bool.false_eq_true, if_false, zpow_natCast]
    have e1 : 0 + 1 * e = e := by omega
    rw [e1] at this
    exact this.mono (by omega)
  | true =>
    have hb : Near 1 tenth ((1 / 10 : ℚ) ^ 1) := by simpa using near_tenth
    have := powSq_near st (.inr rfl) 32 e 1 0 0 1 tenth (ofInt 1) (by omega) (fun _ => hb) h1' (by omega) (by omega)
    simp only [if_true, zpow_neg, zpow_natCast]
    have e1 : 0 + 1 * e = e := by omega
    have e2 : (1 / 10 : ℚ) ^ e = ((10 : ℚ) ^ e)⁻¹ := by rw [one_div, inv_pow]
    rw [e1, e2] at this
    exact this.mono (by omega)

end

/-- The size of the exponent. -/
def expAbs (n : Lit) : ℕ := match n.exp with | none => 0 | some (_, _, ds) => decimal ds

theorem mantissa_none (m i x) : Lit.mantissa ⟨m, i, none, x⟩ = decimal i := by unfold Lit.mantissa; exact add_zero _
theorem mantissa_some (m i fs x) : Lit.mantissa ⟨m, i, some fs, x⟩ = decimal i + (decimal fs : ℚ) / 10 ^ fs.length := rfl
theorem exponent_none (m i f) : Lit.exponent ⟨m, i, f, none⟩ = 0 := rfl
theorem exponent_some (m i f e s ds) : Lit.exponent ⟨m, i, f, some (e, s, ds)⟩ = if (s == some 0x2D) = true then -(decimal ds : ℤ) else decimal ds := by
  unfold Lit.exponent
  simp only [beq_iff_eq]
theorem tailVal_nn {F : Type} (fo : FloatOps F) (i : ℕ) : tailVal fo i none none = fo.ofInt i := rfl
theorem tailVal_sn {F : Type} (fo : FloatOps F) (i : ℕ) (fs) : tailVal fo i (some fs) none = fracVal fo i fs := rfl
theorem tailVal_ns {F : Type} (fo : FloatOps F) (i : ℕ) (e s ds) :
    tailVal fo i none (some (e, s, ds)) = fo.mul (fo.ofInt i) (scale fo (s == some 0x2D) (decimal ds)) := rfl
theorem tailVal_ss {F : Type} (fo : FloatOps F) (i : ℕ) (fs e s ds) :
    tailVal fo i (some fs) (some (e, s, ds)) = fo.mul (fracVal fo i fs) (scale fo (s == some 0x2D) (decimal ds)) := rfl

theorem tailVal_near (st : Style) {n : Lit} (hv : n.Valid) (hr : Readable n) (hl : n.fracDigits ≤ 300) (he : expAbs n ≤ 300)
    (hq : InRange (n.mantissa * 10 ^ n.exponent)) :
    Near (2 * n.fracDigits + 2 * expAbs n + 2) (tailVal (ops st) (decimal n.int) n.frac n.exp) (n.mantissa * 10 ^ n.exponent) := by
  obtain ⟨m, i, f, x⟩ := n
  have hf := hv.frac
  have hi : decimal i ≤ 10 ^ 19 := by
    have h : decimal i ≤ 9223372036854775807 := hr.int
    exact h.trans (by norm_num)
  clear hv hr
  cases f with
  | none =>
    have hm := near_ofInt (i := decimal i) (hi.trans (by norm_num))
    rw [mantissa_none] at hq ⊢
    rcases x with _ | ⟨e, s, ds⟩
    · rw [exponent_none, zpow_zero, mul_one, tailVal_nn, ops_ofInt]
      exact hm.mono (by omega)
    · rw [exponent_some] at hq ⊢
      rw [tailVal_ns, ops_ofInt, ops_mul]
      have he : decimal ds ≤ 300 := he
      have hs := scale_near st (s == some 0x2D) he
      have := near_mul hm hs hq (by omega)
      have hk : 2 * Lit.fracDigits ⟨m, i, none, some (e, s, ds)⟩ + 2 * expAbs ⟨m, i, none, some (e, s, ds)⟩ + 2 = 2 * 0 + 2 * decimal ds + 2 := rfl
      rw [hk]
      exact this.mono (by omega)
  | some fs =>
    have hl : fs.length ≤ 300 := hl
    have hm := fracVal_near st hi fs (hf fs rfl).2 hl
    rw [mantissa_some] at hq ⊢
    rcases x with _ | ⟨e, s, ds⟩
    · rw [exponent_none, zpow_zero, mul_one, tailVal_sn]
      have hk : 2 * Lit.fracDigits ⟨m, i, some fs, none⟩ + 2 * expAbs ⟨m, i, some fs, none⟩ + 2 = 2 * fs.length + 2 * 0 + 2 := rfl
      rw [hk]
      exact hm.mono (by omega)
    · rw [exponent_some] at hq ⊢
      rw [tailVal_ss, ops_mul]
      have he : decimal ds ≤ 300 := he
      have hs := scale_near st (s == some 0x2D) he
      have := near_mul hm hs hq (by omega)
      have hk : 2 * Lit.fracDigits ⟨m, i, some fs, some (e, s, ds)⟩ + 2 * expAbs ⟨m, i, some fs, some (e, s, ds)⟩ + 2 =
        2 * fs.length + 2 * decimal ds + 2 := rfl
      rw [hk]
      exact this.mono (by omega)

theorem expAbs_eq (n : Lit) : n.exponent.natAbs = expAbs n := by
  obtain ⟨m, i, f, _ | ⟨e, s, ds⟩⟩ := n
  · rfl
  · rw [exponent_some]
    show _ = decimal ds
    split <;> omega

theorem mantissa_nonneg (n : Lit) : 0 ≤ n.mantissa := by
  obtain ⟨m, i, _ | f, x⟩ := n
  · rw [mantissa_none]; positivity
  · rw [mantissa_some]; positivity

/-- What nearness says about the number. -/
theorem Near.error {K : ℕ} {f : Dbl} {x : ℚ} (h : Near K f x) (hK : K ≤ 10 ^ 6) :
    ∃ k, f = .fin false k ∧ |(k : ℚ) / one - x| ≤ (K + 1) / 2 ^ 53 * x := by
  have hx := h.nonneg
  obtain ⟨k, rfl, h1, h2⟩ := h
  refine ⟨k, rfl, ?_⟩
  have ho := oneQ_pos
  have hv : ∃ v : ℚ, (k : ℚ) / one = v ∧ k = v * one := ⟨_, rfl, by field_simp⟩
  obtain ⟨v, hv1, hv2⟩ := hv
  rw [hv1]
  rw [hv2] at h1 h2
  have h1' : v ≤ x * U ^ K := by
    have : v * one ≤ x * U ^ K * one := by linarith
    exact le_of_mul_le_mul_right this ho
  have h2' : x ≤ v * U ^ K := by
    have : x * one ≤ v * U ^ K * one := by linarith
    exact le_of_mul_le_mul_right this ho
  have hU := Upow_le (K := K) (by omega)
  have hU1 := Upow_ge K
  rw [abs_le]
  constructor
  · by_cases hvx : v ≤ x
    · have : v * (U ^ K - 1) ≤ x * (U ^ K - 1) := mul_le_mul_of_nonneg_right hvx (by linarith)
      nlinarith
    · have : 0 ≤ ((K : ℚ) + 1) / 2 ^ 53 * x := by positivity
      linarith
  · nlinarith

theorem oneQ : (one : ℚ) = 2 ^ 1074 := by
  obtain ⟨n, hn, h⟩ := one_def
  rw [h, ← hn]
  push_cast
  rfl

/-- A literal read as a double. -/
theorem value_near (st : Style) {n : Lit} (hv : n.Valid) (hr : Readable n) (h : n.frac ≠ none ∨ n.exp ≠ none)
    (hl : n.fracDigits ≤ 300) (he : n.exponent.natAbs ≤ 300) (hq : InRange |n.exact|) :
    ∃ f q, n.value (ops st) = .flt f ∧ dblValue f = some q ∧
      |q - n.exact| ≤ (2 * n.fracDigits + 2 * n.exponent.natAbs + 3) / 2 ^ 53 * |n.exact| := by
  have hp : (0 : ℚ) ≤ n.mantissa * 10 ^ n.exponent := mul_nonneg (mantissa_nonneg n) (zpow_nonneg (by norm_num) _)
  have hex : n.exact = (if n.minus then -1 else 1) * (n.mantissa * 10 ^ n.exponent) := by rw [Lit.exact, mul_assoc]
  have habs : |n.exact| = n.mantissa * 10 ^ n.exponent := by
    rw [hex]
    cases n.minus
    · simp only [Bool.false_eq_true, if_false, one_mul]
      exact abs_of_nonneg hp
    · simp only [if_true, neg_mul, one_mul, abs_neg]
      exact abs_of_nonneg hp
  rw [expAbs_eq] at he ⊢
  rw [habs] at hq ⊢
  have hn := tailVal_near st hv hr hl he hq
  obtain ⟨k, hk, hb⟩ := hn.error (by omega)
  rw [value_flt (ops st) h, hex]
  rw [oneQ] at hb
  rw [hk, ops_neg]
  cases hm : n.minus with
  | false =>
    refine ⟨_, (k : ℚ) / 2 ^ 1074, rfl, ?_, ?_⟩
    · unfold dblValue
      simp
    · simp only [Bool.false_eq_true, if_false, one_mul]
      refine hb.trans (le_of_eq ?_)
      push_cast
      ring
  | true =>
    refine ⟨_, -((k : ℚ) / 2 ^ 1074), rfl, ?_, ?_⟩
    · unfold dblValue
      simp [neg, neg_div]
    · simp only [if_true]
      have e : -((k : ℚ) / 2 ^ 1074) - -1 * (n.mantissa * 10 ^ n.exponent) = -((k : ℚ) / 2 ^ 1074 - n.mantissa * 10 ^ n.exponent) := by ring
      rw [e, abs_neg]
      refine hb.trans (le_of_eq ?_)
      push_cast
      ring

theorem fracLoop_valid (st : Style) (ds : List ℕ) (f s : Dbl) (hf : f.Valid) : (fracLoop (ops st) f s ds).Valid := by
  induction ds generalizing f s with
  | nil => exact hf
  | cons c ds ih =>
    rw [fracLoop, ops_add]
    exact ih _ _ (add_valid _ _)

theorem fracVal_valid (st : Style) (i : ℕ) (ds : List ℕ) : (fracVal (ops st) i ds).Valid := by
  cases ds with
  | nil => rw [fracVal, ops_ofInt]; exact ofInt_valid i
  | cons c ds => rw [fracVal, ops_add]; exact fracLoop_valid st ds _ _ (add_valid _ _)

theorem value_valid (st : Style) {n : Lit} {f : Dbl} (h : n.value (ops st) = .flt f) : f.Valid := by
  by_cases hn : n.frac ≠ none ∨ n.exp ≠ none
  · rw [value_flt (ops st) hn] at h
    injection h with h
    have ht : (tailVal (ops st) (decimal n.int) n.frac n.exp).Valid := by
      rcases n.frac with _ | fs <;> rcases n.exp with _ | ⟨e, s, ds⟩
      · rw [tailVal_nn, ops_ofInt]; exact ofInt_valid _
      · rw [tailVal_ns, ops_mul]; exact mul_valid _ _
      · rw [tailVal_sn]; exact fracVal_valid st _ fs
      · rw [tailVal_ss, ops_mul]; exact mul_valid _ _
    rw [← h, ops_neg]
    split
    · exact neg_valid ht
    · exact ht
  · obtain ⟨m, i, f', x⟩ := n
    cases f' <;> cases x <;> simp at hn
    simp [Lit.value] at h

end Configor.Dbl
