import Verif.Spec.Decimal
import Verif.Proofs.Rfc
import Mathlib.Tactic.NormNum
import Mathlib.Tactic.Ring
import Mathlib.Tactic.FieldSimp
import Mathlib.Tactic.Linarith
/-!
# Literals in exact arithmetic
-/
namespace Configor
open Spec Spec.Rfc

theorem decimal_cons_aux (ds : List Nat) (v : Nat) :
    ds.foldl (fun v c => v * 10 + (c - 0x30)) v = v * 10 ^ ds.length + decimal ds := by
  induction ds generalizing v with
  | nil => simp [decimal]
  | cons c ds ih =>
    rw [List.foldl_cons, ih, show decimal (c :: ds) = _ from List.foldl_cons .., ih, List.length_cons, pow_succ]
    ring

theorem decimal_cons (c : Nat) (ds : List Nat) : decimal (c :: ds) = (c - 0x30) * 10 ^ ds.length + decimal ds := by
  rw [decimal, List.foldl_cons, decimal_cons_aux]
  ring

/-- The value of a literal that is not an integer. -/
theorem value_flt {F : Type} (fo : FloatOps F) {n : Lit} (h : n.frac ≠ none ∨ n.exp ≠ none) :
    n.value fo = .flt (if n.minus then fo.neg (tailVal fo (decimal n.int) n.frac n.exp) else tailVal fo (decimal n.int) n.frac n.exp) := by
  obtain ⟨m, i, f, x⟩ := n
  cases f <;> cases x <;> first | rfl | simp at h

variable {fo : FloatOps ℚ} (E : ExactOps fo)
include E

theorem fracLoop_exact (ds : List Nat) (h : ∀ d ∈ ds, Digit d) (f s : ℚ) :
    fracLoop fo f s ds = f + s * ((decimal ds : ℚ) / 10 ^ ds.length) := by
  induction ds generalizing f s with
  | nil => simp [fracLoop, decimal]
  | cons c ds ih =>
    rw [fracLoop, ih (fun d hd => h d (by simp [hd])), E.add, E.mul, E.mul, E.ofInt, E.tenth, dv_digit (h c (by simp)), decimal_cons,
      List.length_cons]
    push_cast
    have : (10 : ℚ) ^ ds.length ≠ 0 := pow_ne_zero _ (by norm_num)
    field_simp
    ring

theorem fracVal_exact (i : Nat) (ds : List Nat) (h : ∀ d ∈ ds, Digit d) :
    fracVal fo i ds = i + (decimal ds : ℚ) / 10 ^ ds.length := by
  cases ds with
  | nil => simp [fracVal, decimal, E.ofInt]
  | cons c ds =>
    rw [fracVal, fracLoop_exact E ds (fun d hd => h d (by simp [hd])), E.add, E.mul, E.ofInt, E.ofInt, E.tenth, dv_digit (h c (by simp)),
      decimal_cons, List.length_cons]
    push_cast
    have : (10 : ℚ) ^ ds.length ≠ 0 := pow_ne_zero _ (by norm_num)
    field_simp
    ring

theorem powSq_exact (n e : Nat) (b a : ℚ) (h : e < 2 ^ n) : powSq fo n e b a = a * b ^ e := by
  induction n generalizing e b a with
  | zero =>
    have : e = 0 := by simpa using h
    subst this
    simp [powSq]
  | succ n ih =>
    rw [powSq]
    by_cases he : e = 0
    · rw [if_pos he, he]; simp
    · rw [if_neg he, ih _ _ _ (by rw [pow_succ] at h; omega), E.mul b b]
      by_cases ho : e % 2 = 1
      · rw [if_pos ho, E.mul]
        conv_rhs => rw [show e = 2 * (e / 2) + 1 by omega, pow_succ, pow_mul]
        ring
      · rw [if_neg ho]
        conv_rhs => rw [show e = 2 * (e / 2) by omega, pow_mul]
        rw [sq]

theorem scale_exact (neg : Bool) (e : Nat) (h : e < 4294967296) :
    scale fo neg e = 10 ^ (if neg then -(e : ℤ) else e) := by
  rw [scale, powSq_exact E _ _ _ _ (by simpa using h), E.ofInt]
  cases neg with
  | false => simp [E.ofInt]
  | true => simp [E.tenth]

theorem value_exact {n : Lit} (hv : n.Valid) (hr : Readable n) (h : n.frac ≠ none ∨ n.exp ≠ none) :
    n.value fo = .flt n.exact := by
  rw [value_flt fo h]
  obtain ⟨m, i, f, x⟩ := n
  have hf := hv.frac
  have hx := hr.exp
  clear hv hr h
  simp only at hf hx ⊢
  have ht : tailVal fo (decimal i) f x = Lit.mantissa ⟨m, i, f, x⟩ * 10 ^ Lit.exponent ⟨m, i, f, x⟩ := by
    rcases x with _ | ⟨e, s, ds⟩
    · cases f with
      | none => simp [tailVal, Lit.mantissa, Lit.exponent, E.ofInt]
      | some fs => simp [tailVal, Lit.mantissa, Lit.exponent, fracVal_exact E _ fs (hf fs rfl).2]
    · have hs := scale_exact E (s == some 0x2D) (decimal ds) (hx e s ds rfl).1
      cases f with
      | none => simp [tailVal, Lit.mantissa, Lit.exponent, E.ofInt, E.mul, hs]
      | some fs => simp [tailVal, Lit.mantissa, Lit.exponent, fracVal_exact E _ fs (hf fs rfl).2, E.mul, hs]
  rw [ht, Lit.exact]
  cases m <;> simp [E.neg]

end Configor
