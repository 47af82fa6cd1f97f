import Verif.Proofs.DblFloat
import Verif.Proofs.Compare
/-!
# Comparing doubles
-/
set_option linter.unusedSectionVars false
namespace Configor
open Spec
variable {F : Type}

/-! ## Transitivity -/

section
variable (fo : FloatOps F) (ht : ∀ a b c, fo.eq a b = true → fo.eq b c = true → fo.eq a c = true)
include ht

/-- What makes transitivity fail: two integers that become the same float. -/
def Apart (u w : Value F) : Prop := ∀ i j, HasInt u i → HasInt w j → fo.eq (fo.ofInt i) (fo.ofInt j) = true → i = j

mutual
theorem eq_trans' : ∀ u v w : Value F, Apart fo u w → Value.eq fo u v = true → Value.eq fo v w = true → Value.eq fo u w = true
  | .null, v, w, _, h1, h2 => by cases v <;> simp [Value.eq] at h1 <;> exact h2
  | .bool a, v, w, _, h1, h2 => by
    cases v <;> simp [Value.eq] at h1
    subst h1; exact h2
  | .str a, v, w, _, h1, h2 => by
    cases v <;> simp [Value.eq] at h1
    subst h1; exact h2
  | .int a, v, w, hp, h1, h2 => by
    cases v <;> simp only [Value.eq, Bool.false_eq_true] at h1
    · simp at h1; subst h1; exact h2
    · cases w <;> simp only [Value.eq, Bool.false_eq_true] at h2 ⊢
      · have := hp _ _ .int .int (ht _ _ _ h1 h2)
        simp [this]
      · exact ht _ _ _ h1 h2
  | .flt a, v, w, hp, h1, h2 => by
    cases v <;> simp only [Value.eq, Bool.false_eq_true] at h1
    · cases w <;> simp only [Value.eq, Bool.false_eq_true] at h2 ⊢
      · simp at h2; rw [← h2]; exact h1
      · exact ht _ _ _ h1 h2
    · cases w <;> simp only [Value.eq, Bool.false_eq_true] at h2 ⊢
      · exact ht _ _ _ h1 h2
      · exact ht _ _ _ h1 h2
  | .arr xs, v, w, hp, h1, h2 => by
    cases v <;> simp only [Value.eq, Bool.false_eq_true] at h1
    cases w <;> simp only [Value.eq, Bool.false_eq_true] at h2 ⊢
    exact eqElems_trans xs _ _ (fun x hx y hy i j hi hj => hp i j (.elem hx hi) (.elem hy hj)) h1 h2
  | .obj xs, v, w, hp, h1, h2 => by
    cases v <;> simp only [Value.eq, Bool.false_eq_true] at h1
    cases w <;> simp only [Value.eq, Bool.false_eq_true] at h2 ⊢
    exact eqMembers_trans xs _ _ (fun x hx y hy i j hi hj => hp i j (.member hx hi) (.member hy hj)) h1 h2

theorem eqElems_trans : ∀ xs ys zs : List (Value F), (∀ x ∈ xs, ∀ z ∈ zs, Apart fo x z) →
    eqElems fo xs ys = true → eqElems fo ys zs = true → eqElems fo xs zs = true
  | [], ys, zs, _, h1, h2 => by
    cases ys <;> simp [eqElems] at h1
    exact h2
  | x :: xs, ys, zs, hp, h1, h2 => by
    cases ys with
    | nil => simp [eqElems] at h1
    | cons y ys =>
      cases zs with
      | nil => simp [eqElems] at h2
      | cons z zs =>
        simp only [eqElems, Bool.and_eq_true] at h1 h2 ⊢
        exact ⟨eq_trans' x y z (hp x (by simp) z (by simp)) h1.1 h2.1,
          eqElems_trans xs ys zs (fun a ha b hb => hp a (by simp [ha]) b (by simp [hb])) h1.2 h2.2⟩

theorem eqMembers_trans : ∀ xs ys zs : List (List Nat × Value F), (∀ x ∈ xs, ∀ z ∈ zs, Apart fo x.2 z.2) →
    eqMembers fo xs ys = true → eqMembers fo ys zs = true → eqMembers fo xs zs = true
  | [], ys, zs, _, h1, h2 => by
    cases ys <;> simp [eqMembers] at h1
    exact h2
  | (k, x) :: xs, ys, zs, hp, h1, h2 => by
    cases ys with
    | nil => simp [eqMembers] at h1
    | cons y ys =>
      cases zs with
      | nil => simp [eqMembers] at h2
      | cons z zs =>
        obtain ⟨l, y⟩ := y
        obtain ⟨m, z⟩ := z
        simp only [eqMembers, Bool.and_eq_true, beq_iff_eq] at h1 h2 ⊢
        exact ⟨⟨h1.1.1.trans h2.1.1, eq_trans' x y z (hp (k, x) (by simp) (m, z) (by simp)) h1.1.2 h2.1.2⟩,
          eqMembers_trans xs ys zs (fun a ha b hb => hp a (by simp [ha]) b (by simp [hb])) h1.2 h2.2⟩
end
end

/-! ## Doubles -/

namespace Dbl

theorem eq_symm : ∀ a b : Dbl, eq a b = eq b a
  | .nan, b => by cases b <;> rfl
  | .inf a, b => by cases b <;> simp [eq, Bool.beq_comm]
  | .fin a k, b => by cases b <;> simp [eq, Bool.beq_comm]

theorem eq_trans : ∀ a b c : Dbl, eq a b = true → eq b c = true → eq a c = true
  | .nan, b, c, h, _ => by cases b <;> cases h
  | .inf a, b, c, h1, h2 => by
    cases b <;> simp only [eq, Bool.false_eq_true, beq_iff_eq] at h1
    subst h1; exact h2
  | .fin a k, b, c, h1, h2 => by
    cases b <;> simp only [eq, Bool.false_eq_true, beq_iff_eq] at h1
    cases c <;> simp only [eq, Bool.false_eq_true, beq_iff_eq] at h2 ⊢
    exact h1.trans h2

theorem lt_asymm : ∀ a b : Dbl, lt a b = true → lt b a = false
  | .nan, b, h => by cases b <;> cases h
  | .inf a, b, h => by cases b <;> simp_all [lt]
  | .fin a k, b, h => by
    cases b <;> simp only [lt, Bool.false_eq_true, decide_eq_true_eq, decide_eq_false_iff_not] at h ⊢
    · simpa using h
    · omega

theorem lt_strictWeak : StrictWeak (· ≠ nan) lt where
  irrefl := by
    intro a _
    cases a <;> simp [lt]
  trans := by
    intro a b c _ _ _ h1 h2
    cases a <;> cases b <;> cases c <;> simp_all [lt]
    omega
  incomp := by
    intro a b c ha hb hc h1 h2 h3 h4
    cases a <;> cases b <;> cases c <;> simp_all [lt] <;> omega

theorem ofInt_inj {i j : Int} (hi : i.natAbs ≤ 2 ^ 53) (hj : j.natAbs ≤ 2 ^ 53) (h : eq (ofInt i) (ofInt j) = true) : i = j := by
  rw [ofInt_small hi, ofInt_small hj] at h
  simp only [eq, beq_iff_eq] at h
  have h1 : ∀ i : Int, units (decide (i < 0)) (i.natAbs * one) = i * one := by
    intro i
    unfold units
    by_cases h0 : i < 0
    · rw [if_pos (by simpa using h0), Int.natCast_mul, show (i.natAbs : Int) = -i by omega, Int.neg_mul, Int.neg_neg]
    · rw [if_neg (by simpa using h0), Int.natCast_mul, show (i.natAbs : Int) = i by omega]
  rw [h1, h1] at h
  have := one_pos
  exact Int.eq_of_mul_eq_mul_right (by omega) h

end Dbl
end Configor
