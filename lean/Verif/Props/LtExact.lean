import Verif.Props.Float
import Verif.Spec.NumKind
import Verif.Proofs.Scalar
import Verif.Proofs.DblNearest
/-!
# `<` on values with numbers of both types
-/
set_option autoImplicit false
namespace Configor.Props
open Configor Spec

/-- The double a number is compared as. -/
def asDbl : Value Dbl → Dbl
  | .int i => Dbl.ofInt i
  | .flt f => f
  | _ => .nan

theorem ofInt_lt {i j : Int} (hi : i.natAbs ≤ 9007199254740992) (hj : j.natAbs ≤ 9007199254740992) :
    Dbl.lt (Dbl.ofInt i) (Dbl.ofInt j) = decide (i < j) := by
  rw [Dbl.ofInt_small (show i.natAbs ≤ 2 ^ 53 from hi), Dbl.ofInt_small (show j.natAbs ≤ 2 ^ 53 from hj)]
  have h1 : ∀ i : Int, Dbl.units (decide (i < 0)) (i.natAbs * Dbl.one) = i * Dbl.one := by
    intro i
    unfold Dbl.units
    by_cases h0 : i < 0
    · rw [if_pos (by simpa using h0), Int.natCast_mul, show (i.natAbs : Int) = -i by omega, Int.neg_mul, Int.neg_neg]
    · rw [if_neg (by simpa using h0), Int.natCast_mul, show (i.natAbs : Int) = i by omega]
  simp only [Dbl.lt, h1]
  have := Dbl.one_pos
  rw [decide_eq_decide]
  exact ⟨fun h => Int.lt_of_mul_lt_mul_right h (by omega), fun h => Int.mul_lt_mul_of_pos_right h (by omega)⟩

theorem lt_asDbl (st : Dbl.Style) {v w : Value Dbl} (hv : HasNumKind .num v) (hw : HasNumKind .num w) :
    Value.lt (Dbl.ops st) v w = Dbl.lt (asDbl v) (asDbl w) := by
  cases hv with
  | int hi =>
    cases hw with
    | int hj => simp only [Value.lt, asDbl]; exact (ofInt_lt hi hj).symm
    | flt _ => simp only [Value.lt, asDbl, Dbl.ops]
  | flt _ => cases hw <;> simp only [Value.lt, asDbl, Dbl.ops]

theorem asDbl_num {v : Value Dbl} (hv : HasNumKind .num v) : asDbl v ≠ .nan := by
  cases hv with
  | int hi => simp only [asDbl]; rw [Dbl.ofInt_small (show _ ≤ 2 ^ 53 from hi)]; nofun
  | flt h => exact h

/-- C52, partial: `<` is a strict weak order on numbers of both types, and on arrays and objects of them nested alike, for integers up to 2^53
and doubles other than NaN. -/
theorem C52_numbers_partial (st : Dbl.Style) (k : NumKind) : StrictWeak (HasNumKind k) (Value.lt (Dbl.ops st)) := by
  induction k with
  | num =>
    have h := Dbl.lt_strictWeak
    refine ⟨fun a ha => ?_, fun a b c ha hb hc => ?_, fun a b c ha hb hc => ?_⟩
    · rw [lt_asDbl st ha ha]; exact h.irrefl _ (asDbl_num ha)
    · rw [lt_asDbl st ha hb, lt_asDbl st hb hc, lt_asDbl st ha hc]
      exact h.trans _ _ _ (asDbl_num ha) (asDbl_num hb) (asDbl_num hc)
    · rw [lt_asDbl st ha hb, lt_asDbl st hb ha, lt_asDbl st hb hc, lt_asDbl st hc hb, lt_asDbl st ha hc, lt_asDbl st hc ha]
      exact h.incomp _ _ _ (asDbl_num ha) (asDbl_num hb) (asDbl_num hc)
  | arr k ih => exact strictWeak_map (lexLt_strictWeak ih) Value.arr (lt_arr _) (fun v h => by cases h with | arr h => exact ⟨_, rfl, h⟩)
  | obj k ih => exact strictWeak_map (lexLt_strictWeak (pairLt_strictWeak ih)) Value.obj (lt_obj _) (fun v h => by cases h with | obj h => exact ⟨_, rfl, h⟩)

/-- Arrays of numbers of both types. -/
example : HasNumKind (.arr .num) (.arr [.int 3, .flt (Dbl.ofInt 2)]) :=
  .arr (by
    intro x hx
    simp at hx
    rcases hx with rfl | rfl
    · exact .int (by decide)
    · exact .flt (by decide +kernel))

/-- C52 is false of larger integers even among numbers that are no NaNs: 2^53 as a double is incomparable to the integers 2^53 and 2^53 + 1. -/
theorem C52_violated_large (st : Dbl.Style) :
    Value.lt (Dbl.ops st) (.int 9007199254740992) (.flt (.fin false (9007199254740992 * Dbl.one))) = false ∧
    Value.lt (Dbl.ops st) (.flt (.fin false (9007199254740992 * Dbl.one))) (.int 9007199254740992) = false ∧
    Value.lt (Dbl.ops st) (.flt (.fin false (9007199254740992 * Dbl.one))) (.int 9007199254740993) = false ∧
    Value.lt (Dbl.ops st) (.int 9007199254740993) (.flt (.fin false (9007199254740992 * Dbl.one))) = false ∧
    Value.lt (Dbl.ops st) (.int 9007199254740992) (.int 9007199254740993) = true := by
  have h1 : Dbl.lt (Dbl.ofInt 9007199254740992) (.fin false (9007199254740992 * Dbl.one)) = false := by decide +kernel
  have h2 : Dbl.lt (.fin false (9007199254740992 * Dbl.one)) (Dbl.ofInt 9007199254740992) = false := by decide +kernel
  have h3 : Dbl.lt (.fin false (9007199254740992 * Dbl.one)) (Dbl.ofInt 9007199254740993) = false := by decide +kernel
  have h4 : Dbl.lt (Dbl.ofInt 9007199254740993) (.fin false (9007199254740992 * Dbl.one)) = false := by decide +kernel
  refine ⟨?_, ?_, ?_, ?_, ?_⟩
  · simpa only [Value.lt, Dbl.ops] using h1
  · simpa only [Value.lt, Dbl.ops] using h2
  · simpa only [Value.lt, Dbl.ops] using h3
  · simpa only [Value.lt, Dbl.ops] using h4
  · simp only [Value.lt]; decide

/-! ## Integers beyond 2^53 -/

theorem roundUnits_mono {a b : Nat} (h : a ≤ b) : Dbl.roundUnits a 1 ≤ Dbl.roundUnits b 1 := by
  have h1 := Dbl.roundUnits_nearest (n := a) (d := 1) (by omega) (Dbl.roundUnits_repr (d := 1) (by omega) b)
  have h2 := Dbl.roundUnits_nearest (n := b) (d := 1) (by omega) (Dbl.roundUnits_repr (d := 1) (by omega) a)
  by_cases hab : a = b
  · rw [hab]; omega
  unfold Dbl.distance at h1 h2
  omega

/-- The conversion of integers to double keeps their order. -/
theorem ofInt_mono {i j : Int} (hi : i.natAbs ≤ 2 ^ 63) (hj : j.natAbs ≤ 2 ^ 63) (h : i ≤ j) : Dbl.lt (Dbl.ofInt j) (Dbl.ofInt i) = false := by
  rw [Dbl.ofInt_fin hi, Dbl.ofInt_fin hj]
  simp only [Dbl.lt, decide_eq_false_iff_not, Int.not_lt]
  unfold Dbl.units
  by_cases h0 : i < 0 <;> by_cases h1 : j < 0 <;> simp only [h0, h1, decide_true, decide_false, if_true, if_false, Bool.false_eq_true]
  · have := roundUnits_mono (Nat.mul_le_mul_right Dbl.one (show j.natAbs ≤ i.natAbs by omega))
    omega
  · omega
  · omega
  · have := roundUnits_mono (Nat.mul_le_mul_right Dbl.one (show i.natAbs ≤ j.natAbs by omega))
    omega

theorem anyNumber_ne {v : Value Dbl} (hv : AnyNumber v) : asDbl v ≠ .nan := by
  cases hv with
  | int hi => simp only [asDbl]; rw [Dbl.ofInt_fin hi]; nofun
  | flt h => exact h

/-- What `<` of two numbers says about the doubles they are compared as. -/
theorem anyNumber_lt (st : Dbl.Style) {v w : Value Dbl} (hv : AnyNumber v) (hw : AnyNumber w) :
    (Dbl.lt (asDbl v) (asDbl w) = true → Value.lt (Dbl.ops st) v w = true) ∧
    (Value.lt (Dbl.ops st) v w = true → Dbl.lt (asDbl w) (asDbl v) = false) ∧
    (Value.lt (Dbl.ops st) v w = Dbl.lt (asDbl v) (asDbl w) ∨ ∃ i j, v = .int i ∧ w = .int j) := by
  have has : ∀ a b, a ≠ Dbl.nan → b ≠ Dbl.nan → Dbl.lt a b = true → Dbl.lt b a = false := fun a b ha hb h => by
    cases hc : Dbl.lt b a with
    | false => rfl
    | true => have := Dbl.lt_strictWeak.trans a b a ha hb ha h hc; rw [Dbl.lt_strictWeak.irrefl a ha] at this; cases this
  cases hv with
  | @int i hi =>
    cases hw with
    | @int j hj =>
      simp only [Value.lt, asDbl, decide_eq_true_eq]
      refine ⟨fun h => ?_, fun h => ofInt_mono hi hj (by omega), .inr ⟨i, j, rfl, rfl⟩⟩
      apply Int.not_le.1
      intro hc
      rw [ofInt_mono hj hi hc] at h; cases h
    | @flt f hf =>
      have e : Value.lt (Dbl.ops st) (.int i) (.flt f) = Dbl.lt (Dbl.ofInt i) f := by simp only [Value.lt, Dbl.ops]
      rw [e]
      exact ⟨id, has _ _ (anyNumber_ne (.int hi)) hf, .inl rfl⟩
  | @flt f hf =>
    cases hw with
    | @int j hj =>
      have e : Value.lt (Dbl.ops st) (.flt f) (.int j) = Dbl.lt f (Dbl.ofInt j) := by simp only [Value.lt, Dbl.ops]
      rw [e]
      exact ⟨id, has _ _ hf (anyNumber_ne (.int hj)), .inl rfl⟩
    | @flt g hg =>
      have e : Value.lt (Dbl.ops st) (.flt f) (.flt g) = Dbl.lt f g := by simp only [Value.lt, Dbl.ops]
      rw [e]
      exact ⟨id, has _ _ hf hg, .inl rfl⟩

/-- C52, partial: `<` is transitive on all numbers other than NaN. -/
theorem C52_transitive_partial (st : Dbl.Style) (u v w : Value Dbl) (hu : AnyNumber u) (hv : AnyNumber v) (hw : AnyNumber w)
    (h1 : Value.lt (Dbl.ops st) u v = true) (h2 : Value.lt (Dbl.ops st) v w = true) : Value.lt (Dbl.ops st) u w = true := by
  obtain ⟨_, a2, a3⟩ := anyNumber_lt st hu hv
  obtain ⟨_, b2, b3⟩ := anyNumber_lt st hv hw
  obtain ⟨c1, _, _⟩ := anyNumber_lt st hu hw
  have nu := anyNumber_ne hu
  have nv := anyNumber_ne hv
  have nw := anyNumber_ne hw
  have key : Dbl.lt (asDbl u) (asDbl v) = true ∨ Dbl.lt (asDbl v) (asDbl w) = true → Value.lt (Dbl.ops st) u w = true := by
    intro h
    apply c1
    rcases h with h | h
    · cases hc : Dbl.lt (asDbl u) (asDbl w) with
      | true => rfl
      | false =>
        rcases Dbl.lt_strictWeak.split nu nw nv h with h' | h'
        · rw [hc] at h'; cases h'
        · rw [b2 h2] at h'; cases h'
    · cases hc : Dbl.lt (asDbl u) (asDbl w) with
      | true => rfl
      | false =>
        rcases Dbl.lt_strictWeak.split nv nu nw h with h' | h'
        · rw [a2 h1] at h'; cases h'
        · rw [hc] at h'; cases h'
  rcases a3 with e | ⟨i, j, rfl, rfl⟩
  · exact key (.inl (e ▸ h1))
  · rcases b3 with e | ⟨j', k, hj, rfl⟩
    · exact key (.inr (e ▸ h2))
    · simp only [Value.lt, decide_eq_true_eq] at h1 h2 ⊢
      cases hj
      omega

/-- C52, partial: the only numbers other than NaN that are ordered although a third is incomparable to both are different integers that are the same
double, with that double between them. -/
theorem C52_exactly_partial (st : Dbl.Style) (u v w : Value Dbl) (hu : AnyNumber u) (hv : AnyNumber v) (hw : AnyNumber w) :
    (Value.lt (Dbl.ops st) u v = false ∧ Value.lt (Dbl.ops st) v u = false ∧ Value.lt (Dbl.ops st) v w = false ∧ Value.lt (Dbl.ops st) w v = false ∧
      Value.lt (Dbl.ops st) u w = true) ↔
    ∃ i j f, u = .int i ∧ v = .flt f ∧ w = .int j ∧ i < j ∧ Dbl.eq (Dbl.ofInt i) f = true ∧ Dbl.eq f (Dbl.ofInt j) = true := by
  have heq : ∀ a b : Dbl, a ≠ .nan → b ≠ .nan → (Dbl.eq a b = true ↔ Dbl.lt a b = false ∧ Dbl.lt b a = false) := by
    intro a b ha hb
    cases a with
    | nan => exact absurd rfl ha
    | inf a =>
      cases b with
      | nan => exact absurd rfl hb
      | inf b => cases a <;> cases b <;> simp [Dbl.eq, Dbl.lt]
      | fin b l => cases a <;> simp [Dbl.eq, Dbl.lt]
    | fin a k =>
      cases b with
      | nan => exact absurd rfl hb
      | inf b => cases b <;> simp [Dbl.eq, Dbl.lt]
      | fin b l =>
        simp only [Dbl.eq, Dbl.lt, beq_iff_eq, decide_eq_false_iff_not]
        omega
  constructor
  · rintro ⟨h1, h2, h3, h4, h5⟩
    have nu := anyNumber_ne hu
    have nv := anyNumber_ne hv
    have nw := anyNumber_ne hw
    have no : ∀ {x y : Value Dbl}, AnyNumber x → AnyNumber y → Value.lt (Dbl.ops st) x y = false → Dbl.lt (asDbl x) (asDbl y) = false := by
      intro x y hx hy h
      cases hc : Dbl.lt (asDbl x) (asDbl y) with
      | false => rfl
      | true => rw [(anyNumber_lt st hx hy).1 hc] at h; cases h
    have hn := Dbl.lt_strictWeak.incomp _ _ _ nu nv nw (no hu hv h1) (no hv hu h2) (no hv hw h3) (no hw hv h4)
    rcases (anyNumber_lt st hu hw).2.2 with e | ⟨i, j, rfl, rfl⟩
    · rw [e, hn.1] at h5; cases h5
    · have hij : i < j := by simpa only [Value.lt, decide_eq_true_eq] using h5
      cases hv with
      | @int k hk =>
        simp only [Value.lt, decide_eq_false_iff_not] at h1 h2 h3 h4
        omega
      | @flt f hf =>
        exact ⟨i, j, f, rfl, rfl, rfl, hij, (heq _ _ nu nv).2 ⟨no hu (.flt hf) h1, no (.flt hf) hu h2⟩, (heq _ _ nv nw).2 ⟨no (.flt hf) hw h3, no hw (.flt hf) h4⟩⟩
  · rintro ⟨i, j, f, rfl, rfl, rfl, hij, e1, e2⟩
    have nf : f ≠ .nan := by cases hv with | flt h => exact h
    have a := (heq _ _ (anyNumber_ne hu) nf).1 e1
    have b := (heq _ _ nf (anyNumber_ne hw)).1 e2
    simp only [asDbl] at a b
    simp only [Value.lt, Dbl.ops]
    exact ⟨a.1, a.2, b.1, b.2, by simpa using hij⟩

example : AnyNumber (.int 9007199254740993) ∧ AnyNumber (.flt (.fin false (9007199254740992 * Dbl.one))) := ⟨.int (by decide), .flt nofun⟩

end Configor.Props
