import Verif.Spec.Scalar
import Verif.Proofs.DblFloat
import Verif.Proofs.RoundTrip
import Verif.Proofs.ParseSound
/-!
# Comparisons with numbers
-/
set_option autoImplicit false
namespace Configor
open Spec

namespace Dbl

/-- Rounding down never passes a double. -/
theorem rep_le_roundUnits {k q : Nat} (hk : Representable k) (h : k ≤ q) : k ≤ roundUnits q 1 := by
  unfold roundUnits
  simp only [Nat.div_one, Nat.one_mul]
  have hn : q / ulp q ≤ nearest q (ulp q) := by unfold nearest; split <;> omega
  refine Nat.le_trans ?_ (Nat.mul_le_mul_right _ hn)
  have key : ∀ m, ulp q ∣ m → m ≤ q → m ≤ q / ulp q * ulp q := by
    rintro m ⟨c, rfl⟩ hm
    rw [Nat.mul_comm]
    exact Nat.mul_le_mul_right _ ((Nat.le_div_iff_mul_le (ulp_pos q)).2 (by rwa [Nat.mul_comm]))
  by_cases hq : q = 0
  · subst hq; omega
  by_cases hl : Nat.log2 k = Nat.log2 q
  · refine key k ?_ h
    have := hk.2
    unfold ulp at this ⊢
    rwa [hl] at this
  · have hlt : Nat.log2 k < Nat.log2 q := by
      by_cases hk0 : k = 0
      · subst hk0
        have : Nat.log2 0 = 0 := by decide
        omega
      · have h1 : 2 ^ Nat.log2 k ≤ q := Nat.le_trans (Nat.log2_self_le hk0) h
        have := (Nat.le_log2 hq).2 h1
        omega
    have hk1 : k ≤ 2 ^ Nat.log2 q := by
      have : k < 2 ^ (Nat.log2 k + 1) := Nat.lt_log2_self
      have h2 : 2 ^ (Nat.log2 k + 1) ≤ 2 ^ Nat.log2 q := Nat.pow_le_pow_right (by omega) hlt
      omega
    exact Nat.le_trans hk1 (key _ (Nat.pow_dvd_pow _ (by omega)) (Nat.log2_self_le hq))

/-- Rounding up never passes a double. -/
theorem roundUnits_le_rep {k q : Nat} (hk : Representable k) (h : q ≤ k) : roundUnits q 1 ≤ k := by
  unfold roundUnits
  simp only [Nat.div_one, Nat.one_mul]
  have hd : ulp q ∣ k := by
    refine Nat.dvd_trans (Nat.pow_dvd_pow _ ?_) hk.2
    by_cases hq : q = 0
    · subst hq
      have : Nat.log2 0 = 0 := by decide
      omega
    · have h1 : 2 ^ Nat.log2 q ≤ k := Nat.le_trans (Nat.log2_self_le hq) h
      have := (Nat.le_log2 (by have := Nat.two_pow_pos (Nat.log2 q); omega)).2 h1
      omega
  obtain ⟨c, rfl⟩ := hd
  have hu := ulp_pos q
  rw [Nat.mul_comm]
  refine Nat.mul_le_mul_left _ ?_
  have hqc : q / ulp q ≤ c := by
    have := Nat.div_le_div_right (c := ulp q) h
    rwa [Nat.mul_div_cancel_left _ hu] at this
  unfold nearest
  split
  · exact hqc
  · rename_i hc
    have hm : q % ulp q ≠ 0 := by
      intro h0
      exact hc (.inl (by omega))
    rcases Nat.lt_or_ge (q / ulp q) c with h1 | h1
    · exact h1
    · have h2 : c = q / ulp q := by omega
      have h3 := Nat.div_add_mod q (ulp q)
      rw [← h2] at h3
      omega

set_option exponentiation.threshold 2000 in
theorem one_eq : one = 2 ^ 1074 := by unfold one; rfl

theorem intAmount_eq (i : Int) : intAmount i = .units (i * (one : Nat)) := by
  unfold intAmount
  rw [one_eq, Int.natCast_pow]
  rfl

theorem dblAmount_fin (a : Bool) (k : Nat) : dblAmount (.fin a k) = some (.units (units a k)) := by
  cases a <;> rfl

theorem lt_iff (a b : Dbl) : lt a b = true ↔ CmpHolds .lt (dblAmount a) (dblAmount b) := by
  cases a with
  | nan => cases b <;> simp [lt, dblAmount, CmpHolds]
  | inf a =>
    cases b with
    | nan => cases a <;> simp [lt, dblAmount, CmpHolds]
    | inf b => cases a <;> cases b <;> simp [lt, dblAmount, CmpHolds, Amount.Less]
    | fin b l => cases a <;> cases b <;> simp [lt, dblAmount, CmpHolds, Amount.Less]
  | fin a k =>
    cases b with
    | nan => cases a <;> simp [lt, dblAmount, CmpHolds]
    | inf b => cases a <;> cases b <;> simp [lt, dblAmount, CmpHolds, Amount.Less]
    | fin b l => rw [dblAmount_fin, dblAmount_fin]; simp [lt, CmpHolds, Amount.Less]

theorem eq_iff (a b : Dbl) : eq a b = true ↔ CmpHolds .eq (dblAmount a) (dblAmount b) := by
  cases a with
  | nan => cases b <;> simp [eq, dblAmount, CmpHolds]
  | inf a =>
    cases b with
    | nan => cases a <;> simp [eq, dblAmount, CmpHolds]
    | inf b => cases a <;> cases b <;> simp [eq, dblAmount, CmpHolds]
    | fin b l => cases a <;> cases b <;> simp [eq, dblAmount, CmpHolds]
  | fin a k =>
    cases b with
    | nan => cases a <;> simp [eq, dblAmount, CmpHolds]
    | inf b => cases a <;> cases b <;> simp [eq, dblAmount, CmpHolds]
    | fin b l => rw [dblAmount_fin, dblAmount_fin]; simp [eq, CmpHolds]

theorem units_int (i : Int) (o : Nat) : units (decide (i < 0)) (i.natAbs * o) = i * o := by
  unfold units
  rw [Int.natCast_mul]
  by_cases h : i < 0
  · rw [if_pos (by simpa using h), ← Int.neg_mul]
    congr 1
    omega
  · rw [if_neg (by simpa using h)]
    congr 1
    omega

theorem ofInt_amount {i : Int} (h : i.natAbs ≤ 2 ^ 53) : dblAmount (ofInt i) = some (intAmount i) := by
  rw [ofInt_small h, dblAmount_fin, units_int, intAmount_eq]

theorem ofInt_fin {i : Int} (h : i.natAbs ≤ 2 ^ 63) : ofInt i = .fin (decide (i < 0)) (roundUnits (i.natAbs * one) 1) := by
  unfold ofInt round
  have hp := representable_pow (e := 63) (by omega)
  have := roundUnits_le_rep hp (Nat.mul_le_mul_right one h)
  rw [if_pos (Nat.lt_of_le_of_lt this hp.1)]

theorem units_le_round {a : Bool} {k : Nat} {i : Int} (hk : Representable k) (h : units a k ≤ i * (one : Nat)) :
    units a k ≤ units (decide (i < 0)) (roundUnits (i.natAbs * one) 1) := by
  rw [← units_int] at h
  generalize i.natAbs * one = q at h ⊢
  have h1 := @rep_le_roundUnits k q hk
  have h2 := @roundUnits_le_rep k q hk
  unfold units at h ⊢
  by_cases hi : i < 0 <;> cases a <;> simp only [hi, decide_true, decide_false, if_true, if_false, Bool.false_eq_true] at h ⊢
  · have : k ≤ 0 := by omega
    have := h2 (by omega)
    omega
  · have := h2 (by omega)
    omega
  · have := h1 (by omega)
    omega
  · omega

theorem round_le_units {a : Bool} {k : Nat} {i : Int} (hk : Representable k) (h : i * (one : Nat) ≤ units a k) :
    units (decide (i < 0)) (roundUnits (i.natAbs * one) 1) ≤ units a k := by
  rw [← units_int] at h
  generalize i.natAbs * one = q at h ⊢
  have h1 := @rep_le_roundUnits k q hk
  have h2 := @roundUnits_le_rep k q hk
  unfold units at h ⊢
  by_cases hi : i < 0 <;> cases a <;> simp only [hi, decide_true, decide_false, if_true, if_false, Bool.false_eq_true] at h ⊢
  · omega
  · have := h1 (by omega)
    omega
  · have := h2 (by omega)
    omega
  · have : k ≤ 0 := by omega
    have := h2 (by omega)
    omega

/-- An integer that is rounded to below a double is below it. -/
theorem ofInt_less {i : Int} {f : Dbl} (hi : i.natAbs ≤ 2 ^ 63) (hf : f.Valid) (h : CmpHolds .lt (dblAmount (ofInt i)) (dblAmount f)) :
    CmpHolds .lt (some (intAmount i)) (dblAmount f) := by
  rw [ofInt_fin hi, dblAmount_fin] at h
  rw [intAmount_eq]
  cases f with
  | nan => exact h
  | inf a => cases a <;> exact h
  | fin a k =>
    rw [dblAmount_fin] at h ⊢
    simp only [CmpHolds, Amount.Less] at h ⊢
    apply Int.not_le.1
    intro hc
    exact absurd (units_le_round hf hc) (Int.not_le.2 h)

/-- An integer that is rounded to above a double is above it. -/
theorem less_ofInt {i : Int} {f : Dbl} (hi : i.natAbs ≤ 2 ^ 63) (hf : f.Valid) (h : CmpHolds .lt (dblAmount f) (dblAmount (ofInt i))) :
    CmpHolds .lt (dblAmount f) (some (intAmount i)) := by
  rw [ofInt_fin hi, dblAmount_fin] at h
  rw [intAmount_eq]
  cases f with
  | nan => exact h
  | inf a => cases a <;> exact h
  | fin a k =>
    rw [dblAmount_fin] at h ⊢
    simp only [CmpHolds, Amount.Less] at h ⊢
    apply Int.not_le.1
    intro hc
    exact absurd (round_le_units hf hc) (Int.not_le.2 h)

/-- An integer that is a double is converted to it. -/
theorem ofInt_same {i : Int} {f : Dbl} (hi : i.natAbs ≤ 2 ^ 63) (hf : f.Valid) (h : dblAmount f = some (intAmount i)) :
    dblAmount (ofInt i) = dblAmount f := by
  rw [ofInt_fin hi, dblAmount_fin]
  rw [intAmount_eq] at h
  cases f with
  | nan => cases h
  | inf a => cases a <;> cases h
  | fin a k =>
    rw [dblAmount_fin] at h ⊢
    simp only [Option.some.injEq, Amount.units.injEq] at h ⊢
    exact Int.le_antisymm (round_le_units hf (Int.le_of_eq h.symm)) (units_le_round hf (Int.le_of_eq h))

end Dbl

/-- What the operators make of two numbers, or of a number and something else. -/
structure CmpAgree (st : Dbl.Style) (v w : Value Dbl) : Prop where
  lt : Value.lt (Dbl.ops st) v w = true ↔ CmpHolds .lt (valueAmount v) (valueAmount w)
  eq : Value.eq (Dbl.ops st) v w = true ↔ CmpHolds .eq (valueAmount v) (valueAmount w)

theorem intAmount_less {i j : Int} : i < j ↔ CmpHolds .lt (some (intAmount i)) (some (intAmount j)) := by
  rw [Dbl.intAmount_eq, Dbl.intAmount_eq]
  have := Dbl.one_pos
  simp only [CmpHolds, Amount.Less]
  exact (Int.mul_lt_mul_right (by omega)).symm

theorem intAmount_inj {i j : Int} : i = j ↔ CmpHolds .eq (some (intAmount i)) (some (intAmount j)) := by
  rw [Dbl.intAmount_eq, Dbl.intAmount_eq]
  have := Dbl.one_pos
  simp only [CmpHolds, Amount.units.injEq]
  exact ⟨fun h => by rw [h], fun h => Int.eq_of_mul_eq_mul_right (by omega) h⟩

theorem agree_int (st : Dbl.Style) (i j : Int) : CmpAgree st (.int i) (.int j) :=
  ⟨by rw [Value.lt, decide_eq_true_iff]; exact intAmount_less, by rw [Value.eq, beq_iff_eq]; exact intAmount_inj⟩

theorem agree_flt (st : Dbl.Style) (f g : Dbl) : CmpAgree st (.flt f) (.flt g) :=
  ⟨by rw [Value.lt]; exact Dbl.lt_iff f g, by rw [Value.eq]; exact Dbl.eq_iff f g⟩

theorem agree_int_flt (st : Dbl.Style) {i : Int} (h : i.natAbs ≤ 2 ^ 53) (g : Dbl) : CmpAgree st (.int i) (.flt g) := by
  have e := Dbl.ofInt_amount h
  refine ⟨?_, ?_⟩
  · rw [Value.lt]
    refine (Dbl.lt_iff (Dbl.ofInt i) g).trans ?_
    rw [e]; rfl
  · rw [Value.eq]
    refine (Dbl.eq_iff (Dbl.ofInt i) g).trans ?_
    rw [e]; rfl

theorem agree_flt_int (st : Dbl.Style) {i : Int} (h : i.natAbs ≤ 2 ^ 53) (g : Dbl) : CmpAgree st (.flt g) (.int i) := by
  have e := Dbl.ofInt_amount h
  refine ⟨?_, ?_⟩
  · rw [Value.lt]
    refine (Dbl.lt_iff g (Dbl.ofInt i)).trans ?_
    rw [e]; rfl
  · rw [Value.eq]
    refine (Dbl.eq_iff g (Dbl.ofInt i)).trans ?_
    rw [e]; rfl

theorem holds_none_left (b : Option Amount) : ¬ CmpHolds .lt none b ∧ ¬ CmpHolds .eq none b := by
  cases b <;> exact ⟨fun h => h, fun h => h⟩
theorem holds_none_right (a : Option Amount) : ¬ CmpHolds .lt a none ∧ ¬ CmpHolds .eq a none := by
  cases a <;> exact ⟨fun h => h, fun h => h⟩

/-- For a scalar that fits, all is right that does not need the negation of `<`. -/
theorem agree_scalar (st : Dbl.Style) {v : Value Dbl} {x : Scalar} (hx : ScalarArith x) (hf : ScalarFits x) (hm : SmallIfMixed v x) :
    (CmpAgree st v x.toValue ∧ CmpAgree st x.toValue v) ∧ valueAmount x.toValue = scalarAmount x := by
  cases x with
  | null => exact hx.elim
  | bool => exact hx.elim
  | str => exact hx.elim
  | int s w i =>
    have e : Conv.castTo true 64 i = i := castTo_id (by omega) (by simpa [InRange, ScalarFits] using hf)
    simp only [Scalar.toValue, e]
    refine ⟨?_, rfl⟩
    cases v with
    | int j => exact ⟨agree_int st _ _, agree_int st _ _⟩
    | flt f => exact ⟨agree_flt_int st hm f, agree_int_flt st hm f⟩
    | null => exact ⟨⟨by simp [Value.lt, valueAmount, CmpHolds], by simp [Value.eq, valueAmount, CmpHolds]⟩, by simp [Value.lt, valueAmount, CmpHolds], by simp [Value.eq, valueAmount, CmpHolds]⟩
    | bool => exact ⟨⟨by simp [Value.lt, valueAmount, CmpHolds], by simp [Value.eq, valueAmount, CmpHolds]⟩, by simp [Value.lt, valueAmount, CmpHolds], by simp [Value.eq, valueAmount, CmpHolds]⟩
    | str => exact ⟨⟨by simp [Value.lt, valueAmount, CmpHolds], by simp [Value.eq, valueAmount, CmpHolds]⟩, by simp [Value.lt, valueAmount, CmpHolds], by simp [Value.eq, valueAmount, CmpHolds]⟩
    | arr => exact ⟨⟨by simp [Value.lt, valueAmount, CmpHolds], by simp [Value.eq, valueAmount, CmpHolds]⟩, by simp [Value.lt, valueAmount, CmpHolds], by simp [Value.eq, valueAmount, CmpHolds]⟩
    | obj => exact ⟨⟨by simp [Value.lt, valueAmount, CmpHolds], by simp [Value.eq, valueAmount, CmpHolds]⟩, by simp [Value.lt, valueAmount, CmpHolds], by simp [Value.eq, valueAmount, CmpHolds]⟩
  | dbl f =>
    refine ⟨?_, rfl⟩
    simp only [Scalar.toValue]
    have hl := holds_none_left (dblAmount f)
    have hr := holds_none_right (dblAmount f)
    cases v with
    | int j => exact ⟨agree_int_flt st hm f, agree_flt_int st hm f⟩
    | flt g => exact ⟨agree_flt st _ _, agree_flt st _ _⟩
    | null => exact ⟨⟨by simp [Value.lt, valueAmount, hl], by simp [Value.eq, valueAmount, hl]⟩, by simp [Value.lt, valueAmount, hr], by simp [Value.eq, valueAmount, hr]⟩
    | bool => exact ⟨⟨by simp [Value.lt, valueAmount, hl], by simp [Value.eq, valueAmount, hl]⟩, by simp [Value.lt, valueAmount, hr], by simp [Value.eq, valueAmount, hr]⟩
    | str => exact ⟨⟨by simp [Value.lt, valueAmount, hl], by simp [Value.eq, valueAmount, hl]⟩, by simp [Value.lt, valueAmount, hr], by simp [Value.eq, valueAmount, hr]⟩
    | arr => exact ⟨⟨by simp [Value.lt, valueAmount, hl], by simp [Value.eq, valueAmount, hl]⟩, by simp [Value.lt, valueAmount, hr], by simp [Value.eq, valueAmount, hr]⟩
    | obj => exact ⟨⟨by simp [Value.lt, valueAmount, hl], by simp [Value.eq, valueAmount, hl]⟩, by simp [Value.lt, valueAmount, hr], by simp [Value.eq, valueAmount, hr]⟩

/-- The numbers are totally ordered. -/
theorem Amount.trichotomy (a b : Amount) :
    (a.Less b ∧ ¬ b.Less a ∧ a ≠ b) ∨ (b.Less a ∧ ¬ a.Less b ∧ a ≠ b) ∨ (a = b ∧ ¬ a.Less b ∧ ¬ b.Less a) := by
  cases a <;> cases b <;> simp [Amount.Less]
  omega

theorem holds_le {a b : Option Amount} (ha : a ≠ none) (hb : b ≠ none) : CmpHolds .le a b ↔ ¬ CmpHolds .lt b a := by
  cases a with
  | none => exact absurd rfl ha
  | some a =>
    cases b with
    | none => exact absurd rfl hb
    | some b => simp only [CmpHolds]; grind [Amount.trichotomy a b]

theorem holds_ge {a b : Option Amount} (ha : a ≠ none) (hb : b ≠ none) : CmpHolds .ge a b ↔ ¬ CmpHolds .lt a b := by
  cases a with
  | none => exact absurd rfl ha
  | some a =>
    cases b with
    | none => exact absurd rfl hb
    | some b => simp only [CmpHolds]; grind [Amount.trichotomy a b]

theorem holds_gt {a b : Option Amount} : CmpHolds .gt a b ↔ CmpHolds .lt b a := by
  cases a <;> cases b <;> exact Iff.rfl

theorem holds_ne {a b : Option Amount} : CmpHolds .ne a b ↔ ¬ CmpHolds .eq a b := by
  cases a <;> cases b <;> simp [CmpHolds]

/-- What the operators make of two numbers, if integers are rounded. -/
structure CmpSound (st : Dbl.Style) (v w : Value Dbl) : Prop where
  lt : Value.lt (Dbl.ops st) v w = true → CmpHolds .lt (valueAmount v) (valueAmount w)
  eq : CmpHolds .eq (valueAmount v) (valueAmount w) → Value.eq (Dbl.ops st) v w = true

theorem CmpAgree.sound {st : Dbl.Style} {v w : Value Dbl} (h : CmpAgree st v w) : CmpSound st v w := ⟨h.lt.1, h.eq.2⟩

theorem holds_eq_iff {a : Amount} {b : Option Amount} : CmpHolds .eq (some a) b ↔ b = some a := by
  cases b
  · simp [CmpHolds]
  · simp only [CmpHolds, Option.some.injEq]; exact eq_comm
theorem holds_eq_iff' {a : Amount} {b : Option Amount} : CmpHolds .eq b (some a) ↔ b = some a := by
  cases b <;> simp [CmpHolds]

theorem sound_int_flt (st : Dbl.Style) {i : Int} {g : Dbl} (hi : i.natAbs ≤ 2 ^ 63) (hg : g.Valid) :
    CmpSound st (.int i) (.flt g) ∧ CmpSound st (.flt g) (.int i) := by
  refine ⟨⟨fun h => ?_, fun h => ?_⟩, fun h => ?_, fun h => ?_⟩
  · rw [Value.lt] at h
    exact Dbl.ofInt_less hi hg ((Dbl.lt_iff _ _).1 h)
  · rw [Value.eq]
    have e := Dbl.ofInt_same hi hg (holds_eq_iff.1 h)
    refine (Dbl.eq_iff (Dbl.ofInt i) g).2 ?_
    rw [e, show dblAmount g = some (intAmount i) from holds_eq_iff.1 h]
    rfl
  · rw [Value.lt] at h
    exact Dbl.less_ofInt hi hg ((Dbl.lt_iff _ _).1 h)
  · rw [Value.eq]
    have e := Dbl.ofInt_same hi hg (holds_eq_iff'.1 h)
    refine (Dbl.eq_iff g (Dbl.ofInt i)).2 ?_
    rw [e, show dblAmount g = some (intAmount i) from holds_eq_iff'.1 h]
    rfl

theorem sound_scalar (st : Dbl.Style) {v : Value Dbl} {x : Scalar} (hx : ScalarArith x) (hf : ScalarFits x) (hv : HeldNumber v) :
    (CmpSound st v x.toValue ∧ CmpSound st x.toValue v) ∧ valueAmount x.toValue = scalarAmount x := by
  by_cases hm : SmallIfMixed v x
  · obtain ⟨⟨h1, h2⟩, h3⟩ := agree_scalar st hx hf hm
    exact ⟨⟨h1.sound, h2.sound⟩, h3⟩
  · cases x with
    | null => exact hx.elim
    | bool => exact hx.elim
    | str => exact hx.elim
    | int s w i =>
      have e : Conv.castTo true 64 i = i := castTo_id (by omega) (by simpa [InRange, ScalarFits] using hf)
      simp only [Scalar.toValue, e]
      refine ⟨?_, rfl⟩
      simp only [ScalarFits] at hf
      cases v with
      | flt f => exact (sound_int_flt st (by omega) hv).symm
      | _ => exact absurd trivial hm
    | dbl f =>
      refine ⟨?_, rfl⟩
      simp only [Scalar.toValue]
      cases v with
      | int j =>
        simp only [HeldNumber] at hv
        exact sound_int_flt st (by omega) hx
      | _ => exact absurd trivial hm

end Configor
