import Verif.Proofs.DblDump
import Verif.Proofs.DblNearest
import Verif.Proofs.DblInf
import Verif.Props.Float
/-!
# Decimal literals
-/
set_option autoImplicit false
namespace Configor.Props
open Configor Spec

/-- What a call makes of a text that is one number. -/
theorem parse_lit {F : Type} (A : ParseArgs F) (hA : A.Usual) (n : Rfc.Lit) (hv : n.Valid) (hr : (rfc A).ok n)
    (str g g' : List Nat) (hg : Rfc.Ws g) (hg' : Rfc.Ws g') (hl : Reads A str (g ++ n.text ++ g')) (h : Option Handler) (c : Value F) :
    jsonParse A h c str = (.ok (), n.value A.fo) :=
  C12_standard_json_accepted A hA h c _ str _ hl ⟨g, n.text, g', rfl, hg, .num hv hr, hg'⟩

/-! ## C79 -/

/-- C79. In exact arithmetic a literal with a fraction or an exponent is read as the number it
denotes. -/
theorem C79_exact_arithmetic (A : ParseArgs ℚ) (hA : A.Usual) (E : ExactOps A.fo) (n : Rfc.Lit) (hv : n.Valid) (hr : (rfc A).ok n)
    (hfe : n.frac ≠ none ∨ n.exp ≠ none) (str g g' : List Nat) (hg : Rfc.Ws g) (hg' : Rfc.Ws g')
    (hl : Reads A str (g ++ n.text ++ g')) (h : Option Handler) (c : Value ℚ) :
    jsonParse A h c str = (.ok (), .flt n.exact) := by
  rw [parse_lit A hA n hv hr str g g' hg hg' hl h c, value_exact E hv ⟨hr.1, hr.2⟩ hfe]

/-- Exact arithmetic. -/
def exactOps : FloatOps ℚ where
  ofInt i := i
  add a b := a + b
  mul a b := a * b
  neg a := -a
  tenth := 1 / 10
  isIntegral _ := true
  toI64 _ := none
  fmt _ := []
  eq _ _ := true
  lt _ _ := false

example : ExactOps exactOps := ⟨fun _ => rfl, fun _ _ => rfl, fun _ _ => rfl, fun _ => rfl, rfl⟩

/-- `-12.34e-5` -/
def litSample : Rfc.Lit := ⟨true, [0x31, 0x32], some [0x33, 0x34], some (0x65, some 0x2D, [0x35])⟩

example : litSample.text = ascii "-12.34e-5" := by decide
example : litSample.Valid :=
  ⟨Or.inr ⟨0x31, [0x32], rfl, by decide, by decide, by simp [Rfc.Digit]⟩, by simp [litSample, Rfc.Digit], by
    simp +contextual [litSample, Rfc.Digit]⟩
example : (rfc (dblParse (.general 6) true)).ok litSample := ⟨by decide, by simp [litSample]; decide⟩
example : litSample.exact = -1234 / 10000000 := by
  have h1 : Rfc.decimal [0x31, 0x32] = 12 := by decide
  have h2 : Rfc.decimal [0x33, 0x34] = 34 := by decide
  have h3 : Rfc.decimal [0x35] = 5 := by decide
  have h4 : litSample.exponent = -5 := by decide
  have h5 : litSample.mantissa = 1234 / 100 := by
    show ((Rfc.decimal [0x31, 0x32] : ℕ) : ℚ) + ((Rfc.decimal [0x33, 0x34] : ℕ) : ℚ) / 10 ^ 2 = _
    rw [h1, h2]
    norm_num
  rw [Rfc.Lit.exact, h4, h5]
  simp only [litSample, if_true]
  norm_num

/-! ## C80 -/

/-- C80, partial: the double that a literal is read as lies within (2n + 2e + 3)·2^-53 of the number
it denotes, relative to it, for n ≤ 300 digits behind the point, an exponent of ±e, e ≤ 300, and a
number that is zero or from 10^-300 to 10^300. The factor counts the roundings of the code. Missing:
that it is the nearest double, which is false. -/
theorem C80_error_bound_partial (A : ParseArgs Dbl) (hA : A.Usual) (st : Dbl.Style) (hfo : A.fo = Dbl.ops st) (n : Rfc.Lit)
    (hv : n.Valid) (hr : (rfc A).ok n) (hfe : n.frac ≠ none ∨ n.exp ≠ none) (hn : n.fracDigits ≤ 300) (he : n.exponent.natAbs ≤ 300)
    (hq : n.exact = 0 ∨ (1 / 10 ^ 300 ≤ |n.exact| ∧ |n.exact| ≤ 10 ^ 300))
    (str g g' : List Nat) (hg : Rfc.Ws g) (hg' : Rfc.Ws g') (hl : Reads A str (g ++ n.text ++ g')) (h : Option Handler) (c : Value Dbl) :
    ∃ f q, jsonParse A h c str = (.ok (), .flt f) ∧ f.Valid ∧ dblValue f = some q ∧
      |q - n.exact| ≤ (2 * n.fracDigits + 2 * n.exponent.natAbs + 3) / 2 ^ 53 * |n.exact| := by
  have hq' : Dbl.InRange |n.exact| := hq.imp (fun h => by rw [h]; simp) id
  obtain ⟨f, q, h1, h2, h3⟩ := Dbl.value_near st hv ⟨hr.1, hr.2⟩ hfe hn he hq'
  refine ⟨f, q, ?_, Dbl.value_valid st h1, h2, h3⟩
  rw [parse_lit A hA n hv hr str g g' hg hg' hl h c, hfo, h1]

example : litSample.fracDigits = 2 ∧ litSample.exponent.natAbs = 5 := by decide

/-- C80, partial: every step of the code rounds to a nearest double. The steps are conversions of
integers, sums, products and the constant 0.1, all of which are `Dbl.round` of a fraction. -/
theorem C80_each_step_nearest_partial (a : Bool) (n d k l : Nat) (hd : 0 < d) (h : Dbl.round a n d = .fin a k) (hl : Dbl.Representable l) :
    ((k * d : Int) - n).natAbs ≤ ((l * d : Int) - n).natAbs := by
  unfold Dbl.round at h
  split at h
  · injection h with _ h
    subst h
    exact Dbl.roundUnits_nearest hd hl.2
  · cases h

example : Dbl.round false (2 ^ 53 + 1) 1 = .fin false (2 ^ 53) ∧ Dbl.Representable (2 ^ 53 + 2) := by
  exact ⟨by decide +kernel, by decide +kernel, Nat.dvd_of_mod_eq_zero (by decide +kernel)⟩

/-! ## C82 -/

theorem lit_ascii {n : Rfc.Lit} (h : n.Valid) : ∀ c ∈ n.text, c < 128 := by
  have hd : ∀ d, Rfc.Digit d → d < 128 := by intro d h; unfold Rfc.Digit at h; omega
  intro c hc
  unfold Rfc.Lit.text at hc
  have hi : ∀ d ∈ n.int, d < 128 := by
    rcases h.int with h | ⟨c, ds, h, h1, h2, h3⟩
    · rw [h]; simp
    · rw [h]
      intro d hd'
      rcases List.mem_cons.1 hd' with rfl | hd'
      · omega
      · exact hd _ (h3 d hd')
  have hf := h.frac
  have hx := h.exp
  rcases n with ⟨m, i, f, x⟩
  simp only [List.mem_append] at hc hf hx hi
  rcases hc with ((hc | hc) | hc) | hc
  · cases m <;> simp at hc; omega
  · exact hi c hc
  · cases f with
    | none => simp at hc
    | some ds =>
      rcases List.mem_cons.1 hc with rfl | hc
      · omega
      · exact hd _ ((hf ds rfl).2 c hc)
  · cases x with
    | none => simp at hc
    | some x =>
      obtain ⟨e, s, ds⟩ := x
      obtain ⟨h1, h2, _, h3⟩ := hx e s ds rfl
      simp only [List.cons_append, List.mem_cons, List.mem_append] at hc
      rcases hc with rfl | hc | hc
      · omega
      · cases s with
        | none => simp at hc
        | some sg =>
          have := h2 sg rfl
          simp at hc
          omega
      · exact hd _ (h3 c hc)

/-- What a call writes for a double that is not whole, and what is read back. -/
theorem dump_lit {A : DumpArgs Dbl} {B : ParseArgs Dbl} (hAB : Reverses A B) {st : Dbl.Style}
    (hA : A.fo = Dbl.ops st) {spec spec' : Nat → List Nat}
    (hs : Target A.se A.sw spec) (ht : Target A.te A.tw spec') {a : Bool} {k : ℕ} (hm : k % Dbl.one ≠ 0)
    {n : Rfc.Lit} (hn : n.text = Dbl.fmt st (.fin a k)) (hv : n.Valid) (hr : Readable n) :
    (∀ str, jsonDump A none str (.flt (.fin a k)) = (.ok (), str ++ n.text)) ∧
    ∀ h c, jsonParse B h c n.text = (.ok (), n.value B.fo) := by
  have hU : B.Usual := ⟨by rw [hAB.sw]; exact ht.width, by rw [hAB.tw]; exact hs.width⟩
  have hi : A.fo.isIntegral (.fin a k) = false := by
    rw [hA]
    simpa only [Dbl.ops, Dbl.isIntegral, beq_eq_false_iff_ne, ne_eq] using hm
  have htext : floatText A.fo (.fin a k) = n.text := by
    rw [hn, floatText, hi, hA]
    rfl
  have hok : FloatOk A (.fin a k) := by
    intro h
    rw [hi] at h
    cases h
  constructor
  · intro str
    have hd := jsonDump_spec (prints_printer' A) str (.flt (.fin a k))
    rcases hr : jsonDump A none str (.flt (.fin a k)) with ⟨e | _, r⟩
    · rw [hr] at hd
      rcases hd with ⟨_, s, hs, _⟩ | ⟨_, g, hg, hn⟩
      · cases hs
      · cases hg
        exact absurd hok hn
    · rw [hr] at hd
      rw [hd.2, ← htext]
      rfl
  · intro h c
    have hasc := lit_ascii hv
    have hread : Reads B n.text ([] ++ n.text ++ []) := by
      unfold Reads
      rw [hAB.se, hAB.sw]
      have := ht.reads (cps := n.text) (fun c hc => by
        have := hasc c hc
        unfold IsScalar IsSurrogate maxCp
        omega) (fun _ c hc => by have := hasc c hc; omega)
      rw [flatMap_fix fun c hc => ht.ascii (hasc c hc)] at this
      simpa using this
    exact parse_lit B hU n hv ⟨hr.1, hr.2⟩ n.text [] [] (by simp [Rfc.Ws]) (by simp [Rfc.Ws]) hread h c

theorem not_whole {f : Dbl} (hf : f.Valid) (hw : ∀ i, ¬ Whole f i) {q : ℚ} (hq : dblValue f = some q) :
    ∃ a k, f = .fin a k ∧ k % Dbl.one ≠ 0 ∧ k < 2 ^ 52 * Dbl.one ∧ q = Dbl.sgn a * ((k : ℚ) / Dbl.one) := by
  cases f with
  | nan => cases hq
  | inf => cases hq
  | fin a k =>
    have hm : k % Dbl.one ≠ 0 := by
      intro h0
      have : k = k / Dbl.one * Dbl.one := (Nat.div_mul_cancel (Nat.dvd_of_mod_eq_zero h0)).symm
      have h1 := Dbl.fin_whole a (k / Dbl.one)
      rw [← this] at h1
      exact hw _ h1
    rw [Dbl.dblValue_fin] at hq
    injection hq with hq
    exact ⟨a, k, rfl, hm, Dbl.small_of_frac hf hm, hq.symm⟩

/-- C82 with `std::fixed`, partial: a finite double with a fraction is written, with 1 to 300 digits
behind the point, as a decimal within half a unit of its last digit, and that is read back as a
double within (2p + 3)·2^-53 of the decimal, relative to it. Missing: NaN, infinities and whole
numbers out of the range of `int64_t`; C81 has the other whole numbers. -/
theorem C82_fixed_partial (A : DumpArgs Dbl) (B : ParseArgs Dbl) (hAB : Reverses A B) (st' : Dbl.Style) (p : ℕ) (hp : 1 ≤ p) (hp' : p ≤ 300)
    (hA : A.fo = Dbl.ops (.fixed p)) (hB : B.fo = Dbl.ops st') (spec spec' : Nat → List Nat)
    (hs : Target A.se A.sw spec) (ht : Target A.te A.tw spec') (f : Dbl) (hv : f.Valid) (hw : ∀ i, ¬ Whole f i)
    (q : ℚ) (hq : dblValue f = some q) :
    ∃ (n : Rfc.Lit) (g : Dbl) (r : ℚ), n.Valid ∧ n.fracDigits = p ∧ n.exp = none ∧ |n.exact - q| ≤ 1 / 2 / 10 ^ p ∧
      (∀ str, jsonDump A none str (.flt f) = (.ok (), str ++ n.text)) ∧
      (∀ h c, jsonParse B h c n.text = (.ok (), .flt g)) ∧ g.Valid ∧ dblValue g = some r ∧
      |r - n.exact| ≤ (2 * p + 3) / 2 ^ 53 * |n.exact| := by
  obtain ⟨a, k, rfl, hm, hk, rfl⟩ := not_whole hv hw hq
  obtain ⟨n, W, hfr, hd, hx, hno⟩ := Dbl.fin_fixed a hk hp hp'
  obtain ⟨h1, h2⟩ := dump_lit hAB hA hs ht hm W.text W.valid W.readable
  obtain ⟨g, r, h3, h4, h5⟩ := Dbl.value_near st' W.valid W.readable (.inl hfr) W.digits W.exponent W.range
  rw [hB, h3] at h2
  refine ⟨n, g, r, W.valid, hd, hno, W.near, h1, h2, Dbl.value_valid st' h3, h4, ?_⟩
  rw [hd, hx] at h5
  simpa using h5

/-- C82 with `std::scientific`, partial: a finite double with a fraction and at least 10^-299 is
written as a decimal of p + 1 significant digits that is off by at most half a unit of its last
digit, and that is read back as a double within (2p + 2e + 3)·2^-53 of the decimal, e being its
exponent. Missing: as above, and smaller numbers. -/
theorem C82_scientific_partial (A : DumpArgs Dbl) (B : ParseArgs Dbl) (hAB : Reverses A B) (st' : Dbl.Style) (p : ℕ) (hp : p ≤ 300)
    (hA : A.fo = Dbl.ops (.scientific p)) (hB : B.fo = Dbl.ops st') (spec spec' : Nat → List Nat)
    (hs : Target A.se A.sw spec) (ht : Target A.te A.tw spec') (f : Dbl) (hv : f.Valid) (hw : ∀ i, ¬ Whole f i)
    (q : ℚ) (hq : dblValue f = some q) (hlo : 1 / 10 ^ 299 ≤ |q|) :
    ∃ (n : Rfc.Lit) (g : Dbl) (r : ℚ), n.Valid ∧ n.fracDigits = p ∧ n.exp ≠ none ∧ |n.exact - q| ≤ 1 / 2 / 10 ^ p * |q| ∧
      (∀ str, jsonDump A none str (.flt f) = (.ok (), str ++ n.text)) ∧
      (∀ h c, jsonParse B h c n.text = (.ok (), .flt g)) ∧ g.Valid ∧ dblValue g = some r ∧
      |r - n.exact| ≤ (2 * p + 2 * n.exponent.natAbs + 3) / 2 ^ 53 * |n.exact| := by
  obtain ⟨a, k, rfl, hm, hk, rfl⟩ := not_whole hv hw hq
  have hko : |(k : ℚ) / Dbl.one| = (k : ℚ) / Dbl.one := abs_of_nonneg (div_nonneg (Nat.cast_nonneg _) Dbl.oneQ_pos.le)
  rw [Dbl.abs_sgn, hko] at hlo ⊢
  obtain ⟨n, W, hno, hd, _⟩ := Dbl.fin_scientific a hk hlo hp
  obtain ⟨h1, h2⟩ := dump_lit hAB hA hs ht hm W.text W.valid W.readable
  obtain ⟨g, r, h3, h4, h5⟩ := Dbl.value_near st' W.valid W.readable (.inr hno) W.digits W.exponent W.range
  rw [hB, h3] at h2
  refine ⟨n, g, r, W.valid, hd, hno, W.near, h1, h2, Dbl.value_valid st' h3, h4, ?_⟩
  rw [hd] at h5
  exact h5

/-- C82 in the default style, partial: a finite double with a fraction and at least 10^-299 is
written as a decimal of at most p significant digits that is off by at most half a unit of the p-th,
and that is read back as a number within (2p + 2e + 11)·2^-53 of the decimal, which is a float if the
text has a point or an exponent and an integer otherwise. Missing: as above. -/
theorem C82_general_partial (A : DumpArgs Dbl) (B : ParseArgs Dbl) (hAB : Reverses A B) (st' : Dbl.Style) (p : ℕ) (hp : p ≤ 290)
    (hA : A.fo = Dbl.ops (.general p)) (hB : B.fo = Dbl.ops st') (spec spec' : Nat → List Nat)
    (hs : Target A.se A.sw spec) (ht : Target A.te A.tw spec') (f : Dbl) (hv : f.Valid) (hw : ∀ i, ¬ Whole f i)
    (q : ℚ) (hq : dblValue f = some q) (hlo : 1 / 10 ^ 299 ≤ |q|) :
    ∃ (n : Rfc.Lit) (w : Value Dbl) (r : ℚ), n.Valid ∧ |n.exact - q| ≤ 1 / 2 / 10 ^ (p - 1) * |q| ∧
      (∀ str, jsonDump A none str (.flt f) = (.ok (), str ++ n.text)) ∧
      (∀ h c, jsonParse B h c n.text = (.ok (), w)) ∧ numValue w = some r ∧
      ((∃ g : Dbl, w = .flt g ∧ g.Valid) ↔ n.frac ≠ none ∨ n.exp ≠ none) ∧
      |r - n.exact| ≤ (2 * p + 2 * n.exponent.natAbs + 11) / 2 ^ 53 * |n.exact| := by
  obtain ⟨a, k, rfl, hm, hk, rfl⟩ := not_whole hv hw hq
  have hko : |(k : ℚ) / Dbl.one| = (k : ℚ) / Dbl.one := abs_of_nonneg (div_nonneg (Nat.cast_nonneg _) Dbl.oneQ_pos.le)
  rw [Dbl.abs_sgn, hko] at hlo ⊢
  obtain ⟨n, W, hd, _⟩ := Dbl.fin_general a hk hlo hp
  obtain ⟨h1, h2⟩ := dump_lit hAB hA hs ht hm W.text W.valid W.readable
  by_cases hfe : n.frac ≠ none ∨ n.exp ≠ none
  · obtain ⟨g, r, h3, h4, h5⟩ := Dbl.value_near st' W.valid W.readable hfe W.digits W.exponent W.range
    rw [hB, h3] at h2
    refine ⟨n, .flt g, r, W.valid, W.near, h1, h2, h4, ⟨fun _ => hfe, fun _ => ⟨g, rfl, Dbl.value_valid st' h3⟩⟩, h5.trans ?_⟩
    have : (n.fracDigits : ℚ) ≤ p + 4 := by exact_mod_cast hd
    exact mul_le_mul_of_nonneg_right (div_le_div_of_nonneg_right (by linarith) (by positivity)) (abs_nonneg _)
  · have hfr : n.frac = none := by
      by_contra h
      exact hfe (.inl h)
    have hex : n.exp = none := by
      by_contra h
      exact hfe (.inr h)
    have hval : n.value B.fo = .int (if n.minus then -(Rfc.decimal n.int : ℤ) else Rfc.decimal n.int) := by
      unfold Rfc.Lit.value
      rw [hfr, hex]
    have hexact : n.exact = (((if n.minus then -(Rfc.decimal n.int : ℤ) else Rfc.decimal n.int) : ℤ) : ℚ) := by
      rcases n with ⟨m, i, f, x⟩
      subst hfr hex
      rw [Rfc.Lit.exact, Dbl.mantissa_none, Dbl.exponent_none]
      cases m <;> simp
    refine ⟨n, _, _, W.valid, W.near, h1, fun h c => by rw [h2 h c, hval], rfl, ⟨?_, fun h => absurd h hfe⟩, ?_⟩
    · rintro ⟨g, h, _⟩
      cases h
    · rw [hexact, sub_self, abs_zero]
      positivity

/-- 3.625 and the default precision. -/
example : (∀ i, ¬ Whole (.fin true (29 * (Dbl.one / 8))) i) ∧ (Dbl.fin true (29 * (Dbl.one / 8))).Valid ∧
    jsonDump (dblDump (.general 6)) none [] (.flt (.fin true (29 * (Dbl.one / 8)))) = (.ok (), ascii "-3.625") ∧
    jsonDump (dblDump (.fixed 2)) none [] (.flt (.fin true (29 * (Dbl.one / 8)))) = (.ok (), ascii "-3.62") ∧
    jsonDump (dblDump (.scientific 2)) none [] (.flt (.fin true (29 * (Dbl.one / 8)))) = (.ok (), ascii "-3.62e+00") := by
  refine ⟨?_, ?_, by decide +kernel, by decide +kernel, by decide +kernel⟩
  · intro i h
    obtain ⟨b, hb, _⟩ := Dbl.whole_fin h
    injection hb with _ h
    have h2 : 29 * (Dbl.one / 8) % Dbl.one = 0 := by rw [h]; exact Nat.mul_mod_left _ _
    exact absurd h2 (by decide +kernel)
  · exact ⟨by decide +kernel, Nat.dvd_of_mod_eq_zero (by decide +kernel)⟩

/-! ## C110 -/

/-- C110 is false: `1e309` and `-1e309` are accepted and read as infinities, and to dump these is undefined. -/
theorem C110_violated (b : Bool) :
    jsonParse (dblParse (.general 6) b) none .null (ascii "1e309") = (.ok (), .flt (.inf false)) ∧
    jsonParse (dblParse (.general 6) b) none .null (ascii "-1e309") = (.ok (), .flt (.inf true)) ∧
    ∀ a, (jsonDump (dblDump (.general 6)) none [] (.flt (.inf a))).1 = .error .ub := by
  refine ⟨?_, ?_, ?_⟩
  · cases b <;> decide +kernel
  · cases b <;> decide +kernel
  · intro a
    cases a <;> decide +kernel

/-- C110 is false for zero too: `0.0e309` is zero and is read as no number at all. -/
theorem C110_violated_zero (b : Bool) :
    jsonParse (dblParse (.general 6) b) none .null (ascii "0.0e309") = (.ok (), .flt .nan) := by
  cases b <;> decide +kernel

/-- C110: how far this goes. Every literal with an exponent of 309 or more is read as an infinity of its sign, however small
its mantissa (`0.00001e310` is one, too), and as no number if its mantissa is zero. -/
theorem C110_infinite (A : ParseArgs Dbl) (hA : A.Usual) (st : Dbl.Style) (hfo : A.fo = Dbl.ops st) (n : Rfc.Lit)
    (hv : n.Valid) (hr : (rfc A).ok n) (hn : n.fracDigits ≤ 300) (e : Nat) (s : Option Nat) (ds : List Nat)
    (hx : n.exp = some (e, s, ds)) (hs : s ≠ some 0x2D) (h309 : 309 ≤ Rfc.decimal ds)
    (str g g' : List Nat) (hg : Rfc.Ws g) (hg' : Rfc.Ws g') (hl : Reads A str (g ++ n.text ++ g')) (h : Option Handler) (c : Value Dbl) :
    (n.mantissa ≠ 0 → jsonParse A h c str = (.ok (), .flt (.inf n.minus))) ∧
    (n.mantissa = 0 → jsonParse A h c str = (.ok (), .flt .nan)) := by
  rw [parse_lit A hA n hv hr str g g' hg hg' hl h c, hfo, Dbl.value_inf st hv ⟨hr.1, hr.2⟩ hn hx hs h309 (hr.2 e s ds hx).1]
  constructor
  · intro h0
    rw [if_neg h0]
  · intro h0
    rw [if_pos h0]

/-- `-0.25e400` -/
def litInfinite : Rfc.Lit := ⟨true, [0x30], some [0x32, 0x35], some (0x65, none, [0x34, 0x30, 0x30])⟩

example : litInfinite.text = ascii "-0.25e400" ∧ litInfinite.fracDigits ≤ 300 ∧ 309 ≤ Rfc.decimal [0x34, 0x30, 0x30] := by decide
example : litInfinite.mantissa ≠ 0 := by norm_num [litInfinite, Rfc.Lit.mantissa, Rfc.decimal]
example : litInfinite.Valid :=
  ⟨Or.inl rfl, by simp [litInfinite, Rfc.Digit], by simp [litInfinite, Rfc.Digit]⟩

/-- C110, partial: what is missing from C110 are literals beyond 10^300 or below 10^-300. The others (with up to 300 digits
behind the point and an exponent up to ±300) are read as finite numbers of the right sign. -/
theorem C110_finite_partial (A : ParseArgs Dbl) (hA : A.Usual) (st : Dbl.Style) (hfo : A.fo = Dbl.ops st) (n : Rfc.Lit)
    (hv : n.Valid) (hr : (rfc A).ok n) (hfe : n.frac ≠ none ∨ n.exp ≠ none) (hn : n.fracDigits ≤ 300) (he : n.exponent.natAbs ≤ 300)
    (hq : n.exact = 0 ∨ (1 / 10 ^ 300 ≤ |n.exact| ∧ |n.exact| ≤ 10 ^ 300))
    (str g g' : List Nat) (hg : Rfc.Ws g) (hg' : Rfc.Ws g') (hl : Reads A str (g ++ n.text ++ g')) (h : Option Handler) (c : Value Dbl) :
    ∃ a k, jsonParse A h c str = (.ok (), .flt (.fin a k)) ∧ (0 < n.exact → a = false ∧ 0 < k) ∧ (n.exact < 0 → a = true ∧ 0 < k) := by
  obtain ⟨f, q, h1, h2, h3, h4⟩ := C80_error_bound_partial A hA st hfo n hv hr hfe hn he hq str g g' hg hg' hl h c
  cases f with
  | nan => cases h3
  | inf => cases h3
  | fin a k =>
    refine ⟨a, k, h1, ?_⟩
    have hn' : (n.fracDigits : ℚ) ≤ 300 := by exact_mod_cast hn
    have he' : (n.exponent.natAbs : ℚ) ≤ 300 := by exact_mod_cast he
    have hlt : |q - n.exact| ≤ 1 / 2 * |n.exact| := by
      refine h4.trans (mul_le_mul_of_nonneg_right ?_ (abs_nonneg _))
      rw [div_le_iff₀ (by positivity)]
      have h53 : (1 / 2 * 2 ^ 53 : ℚ) = 4503599627370496 := by norm_num
      rw [h53]
      generalize (n.fracDigits : ℚ) = x at hn'
      generalize (n.exponent.natAbs : ℚ) = y at he'
      linarith
    have hqv : (if a then -1 else 1) * (k : ℚ) / 2 ^ 1074 = q := by
      simp only [dblValue, Option.some.injEq] at h3
      exact h3
    have hp : (0 : ℚ) < 2 ^ 1074 := pow_pos (by norm_num) _
    generalize (2 : ℚ) ^ 1074 = z at hqv hp
    have hk : (0 : ℚ) ≤ (k : ℚ) / z := by positivity
    have sign : ∀ y : ℚ, (if a then -1 else 1) * y / z = if a then -(y / z) else y / z := by
      intro y
      cases a <;> simp [neg_div]
    rw [sign] at hqv
    have pos : q ≠ 0 → 0 < k := by
      intro hq0
      rcases Nat.eq_zero_or_pos k with rfl | h
      · exfalso
        apply hq0
        rw [← hqv]
        simp
      · exact h
    constructor
    · intro hpos
      rw [abs_of_pos hpos, abs_le] at hlt
      have : 0 < q := by linarith [hlt.1]
      refine ⟨?_, pos (ne_of_gt this)⟩
      cases a with
      | false => rfl
      | true => simp only [if_true] at hqv; linarith
    · intro hneg
      rw [abs_of_neg hneg, abs_le] at hlt
      have : q < 0 := by linarith [hlt.2]
      refine ⟨?_, pos (ne_of_lt this)⟩
      cases a with
      | true => rfl
      | false => simp only [Bool.false_eq_true, if_false] at hqv; linarith

example : litSample.fracDigits ≤ 300 ∧ litSample.exponent.natAbs ≤ 300 ∧ litSample.frac ≠ none := by decide

end Configor.Props
