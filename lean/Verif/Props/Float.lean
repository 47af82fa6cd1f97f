import Verif.Spec.Double
import Verif.Proofs.DblFloat
import Verif.Proofs.DblCmp
import Verif.Props.Dump
import Verif.Props.Value
/-!
# Floating point numbers
-/
set_option autoImplicit false
namespace Configor.Props
open Configor Spec

/-- A call of `dump` with `double` as the floating point type. -/
def dblDump (st : Dbl.Style) : DumpArgs Dbl := ⟨.utf8, 8, .utf8, 8, false, false, 0, 0x20, Dbl.ops st⟩
/-- A call of `parse` with `double` as the floating point type. -/
def dblParse (st : Dbl.Style) (debug : Bool) : ParseArgs Dbl := ⟨.utf8, 8, .utf8, 8, debug, Dbl.ops st⟩

/-! ## C50 -/

/-- C50 is false: 2^53 + 1 as an integer equals 2^53 as a double, which equals 2^53 as an integer,
but the integers are not equal. -/
theorem C50_violated (st : Dbl.Style) :
    Value.eq (Dbl.ops st) (.int 9007199254740993) (.flt (.fin false (9007199254740992 * Dbl.one))) = true ∧
    Value.eq (Dbl.ops st) (.flt (.fin false (9007199254740992 * Dbl.one))) (.int 9007199254740992) = true ∧
    Value.eq (Dbl.ops st) (.int 9007199254740993) (.int 9007199254740992) = false := by
  have h1 : Dbl.eq (Dbl.ofInt 9007199254740993) (.fin false (9007199254740992 * Dbl.one)) = true := by decide +kernel
  have h2 : Dbl.eq (.fin false (9007199254740992 * Dbl.one)) (Dbl.ofInt 9007199254740992) = true := by decide +kernel
  refine ⟨?_, ?_, ?_⟩
  · simpa only [Value.eq, Dbl.ops] using h1
  · simpa only [Value.eq, Dbl.ops] using h2
  · simp [Value.eq]

/-- C50, partial: with doubles `==` is symmetric, and transitive between values whose integers lie
within ±2^53. Missing: transitivity for larger integers, for which it is false. -/
theorem C50_doubles_partial (st : Dbl.Style) (u v w : Value Dbl)
    (hu : ∀ i, HasInt u i → i.natAbs ≤ 9007199254740992) (hw : ∀ i, HasInt w i → i.natAbs ≤ 9007199254740992) :
    (Value.eq (Dbl.ops st) u v = Value.eq (Dbl.ops st) v u) ∧
    (Value.eq (Dbl.ops st) u v = true → Value.eq (Dbl.ops st) v w = true → Value.eq (Dbl.ops st) u w = true) :=
  ⟨C50_symmetric_partial (Dbl.ops st) Dbl.eq_symm u v,
    eq_trans' (Dbl.ops st) Dbl.eq_trans u v w fun i j hi hj h => Dbl.ofInt_inj (hu i hi) (hw j hj) h⟩

example (st : Dbl.Style) : Value.eq (Dbl.ops st) (.arr [.int 1, .flt (Dbl.ofInt 2)]) (.arr [.flt (Dbl.ofInt 1), .int 2]) = true := by
  have h1 : Dbl.eq (Dbl.ofInt 1) (Dbl.ofInt 1) = true := by decide +kernel
  have h2 : Dbl.eq (Dbl.ofInt 2) (Dbl.ofInt 2) = true := by decide +kernel
  simp only [Value.eq, eqElems, Dbl.ops, h1, h2]
  rfl

/-! ## C51, C52 -/

/-- C51 for values with doubles, NaNs included. -/
theorem C51_doubles (st : Dbl.Style) (v w : Value Dbl) :
    ¬ (Value.lt (Dbl.ops st) v w = true ∧ Value.lt (Dbl.ops st) w v = true) ∧ Value.lt (Dbl.ops st) v v = false :=
  let h := C51_asymmetric (Dbl.ops st) Dbl.lt_asymm v w
  ⟨h.1, h.2.1⟩

/-- C52 for values of one kind with doubles other than NaN. -/
theorem C52_doubles_partial (st : Dbl.Style) (k : Kind) : StrictWeak (HasKind (· ≠ Dbl.nan) k) (Value.lt (Dbl.ops st)) :=
  C52_strict_weak_partial (Dbl.ops st) (· ≠ Dbl.nan) Dbl.lt_strictWeak k

/-- C52 is false with NaNs even among floating point numbers: 1 and 2 are both incomparable to it. -/
theorem C52_violated_nan (st : Dbl.Style) :
    ∃ a b c : Dbl, Value.lt (Dbl.ops st) (.flt a) (.flt b) = false ∧ Value.lt (Dbl.ops st) (.flt b) (.flt a) = false ∧
      Value.lt (Dbl.ops st) (.flt b) (.flt c) = false ∧ Value.lt (Dbl.ops st) (.flt c) (.flt b) = false ∧
      Value.lt (Dbl.ops st) (.flt a) (.flt c) = true := by
  have h : Dbl.lt (Dbl.ofInt 1) (Dbl.ofInt 2) = true := by decide +kernel
  refine ⟨Dbl.ofInt 1, .nan, Dbl.ofInt 2, ?_⟩
  have h1 : ∀ a, Dbl.lt .nan a = false := fun a => by cases a <;> rfl
  have h2 : ∀ a, Dbl.lt a .nan = false := fun a => by cases a <;> rfl
  simp only [Value.lt, Dbl.ops, h, h1, h2, and_self]

/-! ## C80 -/

/-- C80 is false: `0.3` is read as 0.30000000000000004, and 0.3 has a nearer double. -/
theorem C80_violated (b : Bool) :
    ∃ f g, jsonParse (dblParse (.general 6) b) none .null (ascii "0.3") = (.ok (), .flt f) ∧ f.Valid ∧ g.Valid ∧ Nearer 3 10 g f := by
  refine ⟨Dbl.mul (Dbl.ofInt 3) Dbl.tenth, Dbl.round false (3 * Dbl.one) 10, ?_, Dbl.mul_valid _ _, Dbl.round_valid (by decide), ?_⟩
  · cases b <;> decide +kernel
  · decide +kernel

/-! ## C81 -/

/-- C81 is false for `-0.0`, which is written as `0.0`. -/
theorem C81_violated (b : Bool) :
    jsonDump (dblDump (.general 6)) none [] (.flt (.fin true 0)) = (.ok (), ascii "0.0") ∧
    jsonParse (dblParse (.general 6) b) none .null (ascii "0.0") = (.ok (), .flt (.fin false 0)) := by
  cases b <;> decide +kernel

/-- C81, partial: every double but `-0.0` that is a whole number below 2^63 is written as its digits
followed by `.0`, and read back as itself. Missing: `-0.0`, for which it is false. -/
theorem C81_whole_doubles_partial (A : DumpArgs Dbl) (B : ParseArgs Dbl) (hAB : Reverses A B) (st st' : Dbl.Style)
    (hA : A.fo = Dbl.ops st) (hB : B.fo = Dbl.ops st') (spec spec' : Nat → List Nat)
    (hs : Target A.se A.sw spec) (ht : Target A.te A.tw spec') (f : Dbl) (hv : f.Valid) (i : Int) (hw : Whole f i)
    (hi : i.natAbs < 9223372036854775808) (hz : ¬ NegZero f) :
    ∃ t, WholeText i t ∧ (∀ str, jsonDump A none str (.flt f) = (.ok (), str ++ t)) ∧
      ∀ h c, jsonParse B h c t = (.ok (), .flt f) := by
  have hU : B.Usual := ⟨by rw [hAB.sw]; exact ht.width, by rw [hAB.tw]; exact hs.width⟩
  have htext := Dbl.whole_text hA hw hi
  have := dump_parse (A := { A with pretty := false }) ⟨hAB.se, hAB.sw, hAB.te, hAB.tw⟩ hs ht (by nofun) (.flt f)
    (fun ms h => by cases h) (fun i h => by cases h) (fun g h => by
      cases h
      refine ⟨(Dbl.floatOk_iff hA f).2 (Dbl.whole_ok hw hi), ?_, fun nx hn => ?_⟩
      · rw [htext]
        intro c hc
        rcases List.mem_append.1 hc with hc | hc
        · exact decText_ascii i c hc
        · simp at hc; omega
      · rw [htext]
        exact Dbl.whole_val hU hB hv hz hw hi nx hn) (fun s h => by cases h)
  refine ⟨decText i ++ [0x2E, 0x30], Dbl.wholeText_of i, fun str => ?_, fun h c => ?_⟩
  · have hd := jsonDump_spec (prints_printer' A) str (.flt f)
    rcases hr : jsonDump A none str (.flt f) with ⟨e | _, r⟩
    · rw [hr] at hd
      rcases hd with ⟨_, s, hs, _⟩ | ⟨_, g, hg, hn⟩
      · cases hs
      · cases hg
        exact absurd ((Dbl.floatOk_iff hA f).2 (Dbl.whole_ok hw hi)) hn
    · rw [hr] at hd
      rw [hd.2, ← htext]
      rfl
  · rw [← htext]
    exact this.2 h c

/-- 2^62 + 2^10, with precision 3. -/
example : Whole (.fin true ((2 ^ 62 + 2 ^ 10) * Dbl.one)) (-4611686018427388928) ∧
    (jsonDump (dblDump (.general 3)) none [] (.flt (.fin true ((2 ^ 62 + 2 ^ 10) * Dbl.one)))).2 = ascii "-4611686018427388928.0" :=
  ⟨Dbl.fin_whole true _, by decide +kernel⟩

/-- Every whole number up to 2^53 is a double. -/
theorem C81_doubles (i : Int) (h : i.natAbs ≤ 9007199254740992) : (Dbl.ofInt i).Valid ∧ Whole (Dbl.ofInt i) i ∧ ¬ NegZero (Dbl.ofInt i) := by
  refine ⟨Dbl.ofInt_valid i, ?_, ?_⟩
  · rw [Dbl.ofInt_small h]
    have := Dbl.fin_whole (decide (i < 0)) i.natAbs
    have hu : Dbl.units (decide (i < 0)) i.natAbs = i := by
      unfold Dbl.units
      by_cases h0 : i < 0
      · rw [if_pos (by simpa using h0)]; omega
      · rw [if_neg (by simpa using h0)]; omega
    rwa [hu] at this
  · rw [Dbl.ofInt_small h]
    intro hz
    injection hz with h1 h2
    have hp := Dbl.one_pos
    rcases Nat.mul_eq_zero.1 h2 with h3 | h3
    · simp at h1; omega
    · omega

/-- C81 in a tree, partial: a value that has no other floats than such ones, no INT64_MIN, and
text that can be read back, is read back from its text. -/
theorem C81_trees_partial (A : DumpArgs Dbl) (B : ParseArgs Dbl) (hAB : Reverses A B) (st st' : Dbl.Style)
    (hA : A.fo = Dbl.ops st) (hB : B.fo = Dbl.ops st') (spec spec' : Nat → List Nat)
    (hs : Target A.se A.sw spec) (ht : Target A.te A.tw spec') (hb : A.pretty = true → A.ch = 0x20 ∨ A.ch = 0x09)
    (v : Value Dbl) (hv : KeysSorted v)
    (hf : ∀ f, HasFloat v f → f.Valid ∧ ¬ NegZero f ∧ ∃ i : Int, Whole f i ∧ i.natAbs < 9223372036854775808)
    (hi : ∀ i, HasInt v i → -9223372036854775808 < i ∧ i < 9223372036854775808)
    (htx : ∀ s, HasText v s → ∃ cps : List Nat, s = cps.flatMap spec ∧
      ∀ c ∈ cps, Rereadable A.uesc c ∧ (A.sw = 16 ∨ A.tw = 16 → c ≠ 0xFFFF)) :
    ∃ t, (∀ str, jsonDump A none str v = (.ok (), str ++ t)) ∧ ∀ h c, jsonParse B h c t = (.ok (), v) := by
  have hU : B.Usual := ⟨by rw [hAB.sw]; exact ht.width, by rw [hAB.tw]; exact hs.width⟩
  have := dump_parse hAB hs ht hb v hv hi (fun f h => by
    obtain ⟨hv, hz, i, hw, hi⟩ := hf f h
    have htext := Dbl.whole_text hA hw hi
    refine ⟨(Dbl.floatOk_iff hA f).2 (Dbl.whole_ok hw hi), ?_, fun nx hn => ?_⟩
    · rw [htext]
      intro c hc
      rcases List.mem_append.1 hc with hc | hc
      · exact decText_ascii i c hc
      · simp at hc; omega
    · rw [htext]
      exact Dbl.whole_val hU hB hv hz hw hi nx hn) htx
  exact ⟨_, this.1, this.2⟩

example : jsonDump (dblDump (.general 6)) none [] (.arr [.flt (Dbl.ofInt (-3)), .obj [([0x61], .flt (Dbl.ofInt 1000000000))]]) =
    (.ok (), ascii "[-3.0,{\"a\":1000000000.0}]") := by decide +kernel

/-! ## C82 -/

/-- C82 is false: with the default precision, 100000.5 is written as `100000`, which is read as an
integer, and a NaN is written as `nan`, which is rejected. -/
theorem C82_violated (b : Bool) :
    jsonDump (dblDump (.general 6)) none [] (.flt (.fin false (200001 * (Dbl.one / 2)))) = (.ok (), ascii "100000") ∧
    jsonParse (dblParse (.general 6) b) none .null (ascii "100000") = (.ok (), .int 100000) ∧
    jsonDump (dblDump (.general 6)) none [] (.flt .nan) = (.ok (), ascii "nan") ∧
    (jsonParse (dblParse (.general 6) b) none .null (ascii "nan")).1 = .error (.exn .deserialization) := by
  cases b <;> decide +kernel

/-! ## C83 -/

/-- C83 is false: for 2^63 and for infinity the cast to `int64_t` is undefined. -/
theorem C83_violated :
    (Dbl.fin false (9223372036854775808 * Dbl.one)).Valid ∧
    (jsonDump (dblDump (.general 6)) none [] (.flt (.fin false (9223372036854775808 * Dbl.one)))).1 = .error .ub ∧
    (jsonDump (dblDump (.general 6)) none [] (.flt (.inf false))).1 = .error .ub := by
  refine ⟨?_, ?_, ?_⟩
  · exact Dbl.representable_pow (e := 63) (by omega)
  · decide +kernel
  · decide +kernel

/-- C83, partial: a call is undefined only if the value has a float that is infinite or a whole
number out of the range of `int64_t`. -/
theorem C83_defined_partial (A : DumpArgs Dbl) (st : Dbl.Style) (hA : A.fo = Dbl.ops st) (str : List Nat) (v : Value Dbl)
    (h : ∀ f, HasFloat v f → ¬ OutOfRange f) : (jsonDump A none str v).1 ≠ .error .ub := by
  have hs := jsonDump_spec (prints_printer' A) str v
  intro hu
  rcases hd : jsonDump A none str v with ⟨e | _, r⟩
  · rw [hd] at hs hu
    rcases hs with ⟨rfl, _⟩ | ⟨_, f, hf, hn⟩
    · cases hu
    · exact hn ((Dbl.floatOk_iff hA f).2 (h f hf))
  · rw [hd] at hu; cases hu

/-- C83, the other way: for a float value the call is undefined exactly if it is out of range. -/
theorem C83_undefined_exactly_partial (A : DumpArgs Dbl) (st : Dbl.Style) (hA : A.fo = Dbl.ops st) (str : List Nat) (f : Dbl) :
    (jsonDump A none str (.flt f)).1 = .error .ub ↔ OutOfRange f := by
  have hs := jsonDump_spec (prints_printer' A) str (.flt f)
  rcases hd : jsonDump A none str (.flt f) with ⟨e | _, r⟩
  · rw [hd] at hs
    rcases hs with ⟨rfl, s, hs, _⟩ | ⟨rfl, g, hg, hn⟩
    · cases hs
    · cases hg
      exact ⟨fun _ => Classical.byContradiction fun h => hn ((Dbl.floatOk_iff hA f).2 h), fun _ => rfl⟩
  · rw [hd] at hs
    exact ⟨nofun, fun h => absurd h ((Dbl.floatOk_iff hA f).1 (hs.1.2 f .flt))⟩

example : ¬ OutOfRange (.fin false (Dbl.one / 4)) ∧ OutOfRange (.fin true (2 ^ 64 * Dbl.one)) := by
  constructor
  · rw [← Dbl.floatOk_iff (A := dblDump (.general 6)) rfl]
    intro h
    exact absurd h (by decide +kernel)
  · exact Or.inr ⟨_, Dbl.fin_whole true _, by decide⟩

end Configor.Props
