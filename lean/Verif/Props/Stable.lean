import Verif.Proofs.DblStable
import Verif.Proofs.DumpStable
import Verif.Props.Decimal
/-!
# Values with floats: dumping, parsing and dumping again
-/
set_option autoImplicit false
set_option exponentiation.threshold 2000
namespace Configor.Props
open Configor Spec

/-- What is written for a whole number and what is read. -/
theorem whole_float {A : DumpArgs Dbl} {B : ParseArgs Dbl} (hU : B.Usual) {st st' : Dbl.Style} (hA : A.fo = Dbl.ops st)
    (hB : B.fo = Dbl.ops st') {f : Dbl} (hv : f.Valid) {i : Int} (hw : Whole f i) (hi : i.natAbs < 9223372036854775808) :
    ∃ g : Dbl, g.Valid ∧ Whole g i ∧ ¬ NegZero g ∧ (¬ NegZero f → g = f) ∧ dblValue g = dblValue f ∧ FloatOk A f ∧ FloatOk A g ∧
      floatText A.fo g = floatText A.fo f ∧ All (· < 128) (floatText A.fo f) ∧
      ∀ nx, After nx → Val B.dialect (floatText A.fo f) nx (.flt g) := by
  have key : ∃ g : Dbl, g.Valid ∧ Whole g i ∧ ¬ NegZero g ∧ (¬ NegZero f → g = f) ∧ dblValue g = dblValue f := by
    by_cases hz : NegZero f
    · refine ⟨.fin false 0, Dbl.representable_zero, ?_, ?_, fun h => absurd hz h, ?_⟩
      · unfold NegZero at hz
        subst hz
        have : (0 : Int) = i * (Dbl.one : Int) := by simpa [Whole] using hw
        simpa [Whole] using this
      · unfold NegZero; simp
      · unfold NegZero at hz
        subst hz
        simp [dblValue]
    · exact ⟨f, hv, hw, hz, fun _ => rfl, rfl⟩
  obtain ⟨g, gv, gw, gz, ge, gd⟩ := key
  have t1 := Dbl.whole_text hA hw hi
  have t2 := Dbl.whole_text hA gw hi
  refine ⟨g, gv, gw, gz, ge, gd, (Dbl.floatOk_iff hA f).2 (Dbl.whole_ok hw hi), (Dbl.floatOk_iff hA g).2 (Dbl.whole_ok gw hi), by rw [t1, t2], ?_, ?_⟩
  · rw [t1]
    intro c hc
    rcases List.mem_append.1 hc with hc | hc
    · exact decText_ascii i c hc
    · simp at hc; omega
  · intro nx hn
    rw [t1]
    exact Dbl.whole_val hU hB gv gz gw hi nx hn

/-- What is written for a number with a fraction and what is read. -/
theorem lit_float {A : DumpArgs Dbl} {B : ParseArgs Dbl} (hU : B.Usual) {st : Dbl.Style} (hA : A.fo = Dbl.ops st)
    {a : Bool} {k : ℕ} (hm : k % Dbl.one ≠ 0) {n : Rfc.Lit} (hn : n.text = Dbl.fmt st (.fin a k)) (hv : n.Valid) (hr : Readable n) :
    FloatOk A (.fin a k) ∧ floatText A.fo (.fin a k) = Dbl.fmt st (.fin a k) ∧ All (· < 128) (floatText A.fo (.fin a k)) ∧
      ∀ nx, After nx → Val B.dialect (floatText A.fo (.fin a k)) nx (n.value B.fo) := by
  have hi : A.fo.isIntegral (.fin a k) = false := by
    rw [hA]
    simpa only [Dbl.ops, Dbl.isIntegral, beq_eq_false_iff_ne, ne_eq] using hm
  have htext : floatText A.fo (.fin a k) = Dbl.fmt st (.fin a k) := by
    rw [floatText, hi, hA]
    rfl
  have hok : FloatOk A (.fin a k) := by
    intro h
    rw [hi] at h
    cases h
  refine ⟨hok, htext, ?_, fun nx hnx => ?_⟩
  · rw [htext, ← hn]
    exact lit_ascii hv
  · rw [htext, ← hn]
    exact json_val (D := B.dialect) hU.sw (.num hv hr) nx hnx

/-- What is read for a literal, be it an integer or a float. -/
theorem lit_value (st : Dbl.Style) {n : Rfc.Lit} {a : Bool} {k : ℕ} {t : List ℕ} {err : ℚ} (W : Dbl.Written a k t err n) {p : ℕ} (hd : n.fracDigits ≤ p + 4) :
    ∃ r, numValue (n.value (Dbl.ops st)) = some r ∧ |r - n.exact| ≤ (2 * p + 2 * n.exponent.natAbs + 11) / 2 ^ 53 * |n.exact| := by
  by_cases hfe : n.frac ≠ none ∨ n.exp ≠ none
  · obtain ⟨g, r, h3, h4, h5⟩ := Dbl.value_near st W.valid W.readable hfe W.digits W.exponent W.range
    refine ⟨r, by rw [h3]; exact h4, h5.trans ?_⟩
    have : (n.fracDigits : ℚ) ≤ p + 4 := by exact_mod_cast hd
    exact mul_le_mul_of_nonneg_right (div_le_div_of_nonneg_right (by linarith) (by positivity)) (abs_nonneg _)
  · have hfr : n.frac = none := by
      by_contra h
      exact hfe (.inl h)
    have hex : n.exp = none := by
      by_contra h
      exact hfe (.inr h)
    have hval : n.value (Dbl.ops st) = .int (if n.minus then -(Rfc.decimal n.int : ℤ) else Rfc.decimal n.int) := by
      unfold Rfc.Lit.value
      rw [hfr, hex]
    have hexact : n.exact = (((if n.minus then -(Rfc.decimal n.int : ℤ) else Rfc.decimal n.int) : ℤ) : ℚ) := by
      clear W hd hfe hval
      rcases n with ⟨m, i, f, x⟩
      subst hfr hex
      rw [Rfc.Lit.exact, Dbl.mantissa_none, Dbl.exponent_none]
      cases m <;> simp
    refine ⟨_, by rw [hval]; rfl, ?_⟩
    rw [hexact, sub_self, abs_zero]
    positivity

/-- The errors of writing and of reading together. -/
theorem combine {p e : ℕ} {q x r : ℚ} (hp : p ≤ 13) (he : e ≤ 300) (h1 : |x - q| ≤ 1 / 2 / 10 ^ (p - 1) * |q|)
    (h2 : |r - x| ≤ (2 * p + 2 * e + 11) / 2 ^ 53 * |x|) : |r - q| ≤ |q| / 10 ^ (p - 1) := by
  have hT : (10 : ℚ) ^ (p - 1) ≤ 10 ^ 12 := pow_le_pow_right₀ (by norm_num) (by omega)
  have hT1 : (1 : ℚ) ≤ 10 ^ (p - 1) := one_le_pow₀ (by norm_num)
  generalize (10 : ℚ) ^ (p - 1) = T at *
  have hq := abs_nonneg q
  have hb : 1 / 2 / T * |q| = |q| / T / 2 := by ring
  rw [hb] at h1
  have hqT : |q| / T ≤ |q| := div_le_self hq hT1
  have hx : |x| ≤ 2 * |q| := by
    have := abs_sub_abs_le_abs_sub x q
    linarith
  have hc : ((2 * p + 2 * e + 11 : ℕ) : ℚ) ≤ 637 := by
    have : 2 * p + 2 * e + 11 ≤ 637 := by omega
    exact_mod_cast this
  push_cast at hc
  have h3 : (2 * (p : ℚ) + 2 * e + 11) / 2 ^ 53 * |x| ≤ |q| / T / 2 := by
    calc (2 * (p : ℚ) + 2 * e + 11) / 2 ^ 53 * |x| ≤ 637 / 2 ^ 53 * (2 * |q|) :=
          mul_le_mul (div_le_div_of_nonneg_right hc (by positivity)) hx (abs_nonneg _) (by positivity)
      _ ≤ |q| / 10 ^ 12 / 2 := by
        rw [div_div, le_div_iff₀ (by positivity)]
        nlinarith
      _ ≤ |q| / T / 2 := by
        apply div_le_div_of_nonneg_right _ (by norm_num)
        exact div_le_div_of_nonneg_left hq (by linarith) hT
  calc |r - q| ≤ |r - x| + |x - q| := abs_sub_le _ _ _
    _ ≤ |q| / T := by linarith

/-! ## C82 in a tree -/

/-- C82 in a tree, partial: a value whose floats are whole numbers in the range of `int64_t` or finite and at least 10^-299 is
written, with a precision up to 13, as a text that is read as the same value but for its floats. Each of these is
read as a number that is off by at most one unit of the last significant digit, relative to it; whole numbers are exact. Missing: the other floats. -/
theorem C82_trees_partial (A : DumpArgs Dbl) (B : ParseArgs Dbl) (hAB : Reverses A B) (st' : Dbl.Style) (p : ℕ) (hp : p ≤ 13)
    (hA : A.fo = Dbl.ops (.general p)) (hB : B.fo = Dbl.ops st') (spec spec' : Nat → List Nat)
    (hs : Target A.se A.sw spec) (ht : Target A.te A.tw spec') (hb : A.pretty = true → A.ch = 0x20 ∨ A.ch = 0x09)
    (v : Value Dbl) (hv : KeysSorted v)
    (hf : ∀ f, HasFloat v f → f.Valid ∧ ((∃ i : Int, Whole f i ∧ i.natAbs < 9223372036854775808) ∨
      (∀ i, ¬ Whole f i) ∧ ∃ q, dblValue f = some q ∧ 1 / 10 ^ 299 ≤ |q|))
    (hi : ∀ i, HasInt v i → -9223372036854775808 < i ∧ i < 9223372036854775808)
    (htx : ∀ s, HasText v s → ∃ cps : List Nat, s = cps.flatMap spec ∧
      ∀ c ∈ cps, Rereadable A.uesc c ∧ (A.sw = 16 ∨ A.tw = 16 → c ≠ 0xFFFF)) :
    ∃ (t : List Nat) (fl : Dbl → Value Dbl), (∀ str, jsonDump A none str v = (.ok (), str ++ t)) ∧
      (∀ h c, jsonParse B h c t = (.ok (), withFloats fl v)) ∧
      ∀ f, HasFloat v f → ∃ q r, dblValue f = some q ∧ numValue (fl f) = some r ∧ |r - q| ≤ |q| / 10 ^ (p - 1) ∧
        ((∃ i, Whole f i) → r = q) := by
  have hU : B.Usual := ⟨by rw [hAB.sw]; exact ht.width, by rw [hAB.tw]; exact hs.width⟩
  have each : ∀ f, ∃ w : Value Dbl, HasFloat v f → (FloatOk A f ∧ All (· < 128) (floatText A.fo f) ∧
      ∀ nx, After nx → Val B.dialect (floatText A.fo f) nx w) ∧
      ∃ q r, dblValue f = some q ∧ numValue w = some r ∧ |r - q| ≤ |q| / 10 ^ (p - 1) ∧ ((∃ i, Whole f i) → r = q) := by
    intro f
    by_cases h : HasFloat v f
    · obtain ⟨fv, ⟨i, hw, hi⟩ | ⟨hw, q, hq, hlo⟩⟩ := hf f h
      · obtain ⟨g, gv, gw, gz, ge, gd, h1, h2, h3, h4, h5⟩ := whole_float hU hA hB fv hw hi
        refine ⟨.flt g, fun _ => ⟨⟨h1, h4, h5⟩, ?_⟩⟩
        obtain ⟨q, hq⟩ : ∃ q, dblValue f = some q := by
          cases f with
          | fin a k => exact ⟨_, rfl⟩
          | _ => cases hw
        refine ⟨q, q, hq, ?_, ?_, fun _ => rfl⟩
        · show dblValue g = some q
          rw [gd, hq]
        · rw [sub_self, abs_zero]
          positivity
      · obtain ⟨a, k, rfl, hm, hk, rfl⟩ := not_whole fv hw hq
        have hko : |(k : ℚ) / Dbl.one| = (k : ℚ) / Dbl.one := abs_of_nonneg (div_nonneg (Nat.cast_nonneg _) Dbl.oneQ_pos.le)
        obtain ⟨n, W, hd, _⟩ := Dbl.fin_general a hk (by rw [Dbl.abs_sgn, hko] at hlo; exact hlo) (p := p) (by omega)
        obtain ⟨k1, k2, k3, k4⟩ := lit_float (B := B) hU hA hm W.text W.valid W.readable
        obtain ⟨r, h5, h6⟩ := lit_value st' W hd
        rw [hB] at k4
        refine ⟨n.value (Dbl.ops st'), fun _ => ⟨⟨k1, k3, k4⟩, _, r, hq, h5, ?_, fun hc => absurd hc (by simpa using hw)⟩⟩
        have e1 : |n.exact - Dbl.sgn a * ((k : ℚ) / Dbl.one)| ≤ 1 / 2 / 10 ^ (p - 1) * |Dbl.sgn a * ((k : ℚ) / Dbl.one)| := by
          rw [Dbl.abs_sgn, hko]
          exact W.near
        exact combine hp W.exponent e1 h6
    · exact ⟨.null, fun h' => absurd h' h⟩
  choose fl hfl using each
  have := dump_parse_as hAB hs ht hb fl v hv hi (fun f h => (hfl f h).1) htx
  exact ⟨_, fl, this.1, this.2, fun f h => (hfl f h).2⟩

/-! ## C121 -/

/-- C121 is false: 1000000.5 is written as `1e+06`, which is read as a whole number and written as `1000000.0`. -/
theorem C121_violated (b : Bool) :
    jsonDump (dblDump (.general 6)) none [] (.flt (.fin false (2000001 * (Dbl.one / 2)))) = (.ok (), ascii "1e+06") ∧
    ∃ w, jsonParse (dblParse (.general 6) b) none .null (ascii "1e+06") = (.ok (), w) ∧
      jsonDump (dblDump (.general 6)) none [] w = (.ok (), ascii "1000000.0") := by
  refine ⟨by decide +kernel, .flt (.fin false (1000000 * Dbl.one)), ?_, by decide +kernel⟩
  cases b <;> decide +kernel

/-- C121, partial: with a precision p of 1 to 11 (6 is the default), let the floats of a value be whole numbers
in the range of `int64_t`, or numbers with a fraction, at least 10^-299 and below 10^p - 1/2. What is read of the text of the value is
written as the same text again. Missing: numbers with a fraction that are larger, which are written with
an exponent and for which it is false, or smaller, NaN, and other styles. -/
theorem C121_stable_partial (A : DumpArgs Dbl) (B : ParseArgs Dbl) (hAB : Reverses A B) (st' : Dbl.Style) (p : ℕ) (hp : 1 ≤ p) (hp' : p ≤ 11)
    (hA : A.fo = Dbl.ops (.general p)) (hB : B.fo = Dbl.ops st') (spec spec' : Nat → List Nat)
    (hs : Target A.se A.sw spec) (ht : Target A.te A.tw spec') (hb : A.pretty = true → A.ch = 0x20 ∨ A.ch = 0x09)
    (v : Value Dbl) (hv : KeysSorted v)
    (hf : ∀ f, HasFloat v f → f.Valid ∧ ((∃ i : Int, Whole f i ∧ i.natAbs < 9223372036854775808) ∨
      (∀ i, ¬ Whole f i) ∧ ∃ q, dblValue f = some q ∧ 1 / 10 ^ 299 ≤ |q| ∧ |q| < 10 ^ p - 1 / 2))
    (hi : ∀ i, HasInt v i → -9223372036854775808 < i ∧ i < 9223372036854775808)
    (htx : ∀ s, HasText v s → ∃ cps : List Nat, s = cps.flatMap spec ∧
      ∀ c ∈ cps, Rereadable A.uesc c ∧ (A.sw = 16 ∨ A.tw = 16 → c ≠ 0xFFFF)) :
    ∃ (t : List Nat) (w : Value Dbl), (∀ str, jsonDump A none str v = (.ok (), str ++ t)) ∧
      (∀ h c, jsonParse B h c t = (.ok (), w)) ∧ ∀ str, jsonDump A none str w = (.ok (), str ++ t) := by
  have hU : B.Usual := ⟨by rw [hAB.sw]; exact ht.width, by rw [hAB.tw]; exact hs.width⟩
  have each : ∀ f, ∃ w : Value Dbl, HasFloat v f → (FloatOk A f ∧ All (· < 128) (floatText A.fo f) ∧
      ∀ nx, After nx → Val B.dialect (floatText A.fo f) nx w) ∧
      ((∃ g, w = .flt g ∧ FloatOk A g ∧ floatText A.fo g = floatText A.fo f) ∨ ∃ i, w = .int i ∧ decText i = floatText A.fo f) := by
    intro f
    by_cases h : HasFloat v f
    · obtain ⟨fv, ⟨i, hw, hi⟩ | ⟨hw, q, hq, hlo, hhi⟩⟩ := hf f h
      · obtain ⟨g, gv, gw, gz, ge, gd, h1, h2, h3, h4, h5⟩ := whole_float hU hA hB fv hw hi
        exact ⟨.flt g, fun _ => ⟨⟨h1, h4, h5⟩, .inl ⟨g, rfl, h2, h3⟩⟩⟩
      · obtain ⟨a, k, rfl, hm, hk, rfl⟩ := not_whole fv hw hq
        have hko : |(k : ℚ) / Dbl.one| = (k : ℚ) / Dbl.one := abs_of_nonneg (div_nonneg (Nat.cast_nonneg _) Dbl.oneQ_pos.le)
        rw [Dbl.abs_sgn, hko] at hlo hhi
        obtain ⟨n, W, hn⟩ := Dbl.general_stable st' a hk hlo hp hp' hhi
        obtain ⟨k1, k2, k3, k4⟩ := lit_float (B := B) hU hA hm W.text W.valid W.readable
        rw [hB] at k4
        refine ⟨n.value (Dbl.ops st'), fun _ => ⟨⟨k1, k3, k4⟩, ?_⟩⟩
        rcases hn with ⟨k', e1, e2, e3⟩ | ⟨i, e1, e2⟩
        · have hi : A.fo.isIntegral (.fin a k') = false := by
            rw [hA]
            simpa only [Dbl.ops, Dbl.isIntegral, beq_eq_false_iff_ne, ne_eq] using e2
          refine .inl ⟨_, e1, ?_, ?_⟩
          · intro h
            rw [hi] at h
            cases h
          · rw [k2, ← e3, floatText, hi, hA]
            rfl
        · exact .inr ⟨i, e1, by rw [k2]; exact e2⟩
    · exact ⟨.null, fun h' => absurd h' h⟩
  choose fl hfl using each
  obtain ⟨t, h1, h2, h3⟩ := dump_stable hAB hs ht hb fl v hv hi (fun f h => (hfl f h).1) (fun f h => (hfl f h).2) htx
  exact ⟨t, _, h1, h2, h3⟩

/-- `[0.25, {"a": 100000.5}, -7.0, -0.0]`, of which 100000.5 is read as an integer. -/
def floatSample : Value Dbl :=
  .arr [.flt (.fin false (Dbl.one / 4)), .obj [([0x61], .flt (.fin false (200001 * (Dbl.one / 2))))], .flt (.fin true (7 * Dbl.one)), .flt (.fin true 0)]

example : jsonDump (dblDump (.general 6)) none [] floatSample = (.ok (), ascii "[0.25,{\"a\":100000},-7.0,0.0]") := by decide +kernel

/-- It meets the hypotheses of `C82_trees_partial` and `C121_stable_partial`. -/
example (f : Dbl) (h : HasFloat floatSample f) : f.Valid ∧ ((∃ i : Int, Whole f i ∧ i.natAbs < 9223372036854775808) ∨
      (∀ i, ¬ Whole f i) ∧ ∃ q, dblValue f = some q ∧ 1 / 10 ^ 299 ≤ |q| ∧ |q| < 10 ^ 6 - 1 / 2) := by
  have frac : ∀ a k, k % Dbl.one ≠ 0 → ∀ i, ¬ Whole (.fin a k) i := by
    intro a k hk i hw
    obtain ⟨b, hb, _⟩ := Dbl.whole_fin hw
    injection hb with _ h
    apply hk
    rw [h]
    exact Nat.mul_mod_left _ _
  have hsplit : f = .fin false (Dbl.one / 4) ∨ f = .fin false (200001 * (Dbl.one / 2)) ∨ f = .fin true (7 * Dbl.one) ∨ f = .fin true 0 := by
    unfold floatSample at h
    cases h with
    | elem hx hf =>
      simp only [List.mem_cons, List.not_mem_nil, or_false] at hx
      rcases hx with rfl | rfl | rfl | rfl
      · cases hf; exact .inl rfl
      · cases hf with
        | member hx hf =>
          simp only [List.mem_cons, List.not_mem_nil, or_false, Prod.mk.injEq] at hx
          obtain ⟨_, rfl⟩ := hx
          cases hf
          exact .inr (.inl rfl)
      · cases hf; exact .inr (.inr (.inl rfl))
      · cases hf; exact .inr (.inr (.inr rfl))
  rcases hsplit with rfl | rfl | rfl | rfl
  · refine ⟨⟨by decide +kernel, Nat.dvd_of_mod_eq_zero (by decide +kernel)⟩, .inr ⟨frac _ _ (by decide +kernel), 1 / 4, ?_, ?_, ?_⟩⟩
    · have e : Dbl.one / 4 = 2 ^ 1072 := by decide +kernel
      simp only [dblValue, e]
      norm_num
    · rw [abs_of_pos (by norm_num)]; norm_num
    · rw [abs_of_pos (by norm_num)]; norm_num
  · refine ⟨⟨by decide +kernel, Nat.dvd_of_mod_eq_zero (by decide +kernel)⟩, .inr ⟨frac _ _ (by decide +kernel), 200001 / 2, ?_, ?_, ?_⟩⟩
    · have e : Dbl.one / 2 = 2 ^ 1073 := by decide +kernel
      simp only [dblValue, e]
      norm_num
    · rw [abs_of_pos (by norm_num)]; norm_num
    · rw [abs_of_pos (by norm_num)]; norm_num
  · exact ⟨Dbl.representable_small (n := 7) (by norm_num), .inl ⟨-7, by simp [Whole], by decide⟩⟩
  · exact ⟨Dbl.representable_zero, .inl ⟨0, by simp [Whole], by decide⟩⟩

end Configor.Props
