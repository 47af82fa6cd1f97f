import Verif.Props.StackOps
/-!
# How often `==` and `<` are called at least
-/
set_option autoImplicit false
namespace Configor.Props
open Configor Spec

variable {F : Type}

mutual
theorem eqCounted_all (fo : FloatOps F) : ∀ v w : Value F, (Value.eqCounted fo v w).1 = true →
    (Value.eqCounted fo v w).2 = nodes v ∧ (Value.eqCounted fo v w).2 = nodes w
  | .arr xs, .arr ys, h => by
    simp only [Value.eqCounted] at h ⊢
    split at h
    · rename_i e
      rw [if_pos e]
      obtain ⟨h1, h2⟩ := eqElemsCounted_all fo xs ys e h
      simp only [nodes]
      omega
    · cases h
  | .obj xs, .obj ys, h => by
    simp only [Value.eqCounted] at h ⊢
    split at h
    · rename_i e
      rw [if_pos e]
      obtain ⟨h1, h2⟩ := eqMembersCounted_all fo xs ys e h
      simp only [nodes]
      omega
    · cases h
  | .null, w, h => by cases w <;> simp_all [Value.eqCounted, nodes]
  | .bool _, w, h => by cases w <;> simp_all [Value.eqCounted, nodes]
  | .int _, w, h => by cases w <;> simp_all [Value.eqCounted, nodes]
  | .flt _, w, h => by cases w <;> simp_all [Value.eqCounted, nodes]
  | .str _, w, h => by cases w <;> simp_all [Value.eqCounted, nodes]
  | .arr _, .null, h | .arr _, .bool _, h | .arr _, .int _, h | .arr _, .flt _, h | .arr _, .str _, h | .arr _, .obj _, h => by
    simp [Value.eqCounted] at h
  | .obj _, .null, h | .obj _, .bool _, h | .obj _, .int _, h | .obj _, .flt _, h | .obj _, .str _, h | .obj _, .arr _, h => by
    simp [Value.eqCounted] at h

theorem eqElemsCounted_all (fo : FloatOps F) : ∀ xs ys : List (Value F), xs.length = ys.length → (eqElemsCounted fo xs ys).1 = true →
    (eqElemsCounted fo xs ys).2 = nodesElems xs ∧ (eqElemsCounted fo xs ys).2 = nodesElems ys
  | [], [], _, _ => by simp [eqElemsCounted, nodesElems]
  | x :: xs, y :: ys, e, h => by
    simp only [eqElemsCounted] at h ⊢
    cases ha : (Value.eqCounted fo x y).1 with
    | false => simp [ha] at h
    | true =>
      simp only [ha, if_true] at h ⊢
      have h1 := eqCounted_all fo x y ha
      have h2 := eqElemsCounted_all fo xs ys (by simpa using e) h
      simp only [nodesElems]
      omega
  | [], _ :: _, e, _ => by cases e
  | _ :: _, [], e, _ => by cases e

theorem eqMembersCounted_all (fo : FloatOps F) : ∀ xs ys : List (List Nat × Value F), xs.length = ys.length → (eqMembersCounted fo xs ys).1 = true →
    (eqMembersCounted fo xs ys).2 = nodesMembers xs ∧ (eqMembersCounted fo xs ys).2 = nodesMembers ys
  | [], [], _, _ => by simp [eqMembersCounted, nodesMembers]
  | (k, x) :: xs, (l, y) :: ys, e, h => by
    simp only [eqMembersCounted] at h ⊢
    cases hk : k == l with
    | false => simp [hk] at h
    | true =>
      cases ha : (Value.eqCounted fo x y).1 with
      | false => simp [ha, hk] at h
      | true =>
        simp only [hk, ha, if_true] at h ⊢
        have h1 := eqCounted_all fo x y ha
        have h2 := eqMembersCounted_all fo xs ys (by simpa using e) h
        simp only [nodesMembers]
        omega
  | [], _ :: _, e, _ => by cases e
  | _ :: _, [], e, _ => by cases e
end

/-- C131. `==` of equal values is called exactly once for each part, and of any values at least once. -/
theorem C131_equal_exactly (fo : FloatOps F) (v w : Value F) :
    1 ≤ (Value.eqCounted fo v w).2 ∧ (Value.eq fo v w = true → (Value.eqCounted fo v w).2 = nodes v ∧ nodes v = nodes w) := by
  refine ⟨?_, fun h => ?_⟩
  · cases v <;> cases w <;> simp only [Value.eqCounted] <;> first | exact Nat.le_refl 1 | (split <;> simp)
  · rw [← (C131_follows fo v w).1] at h
    have h1 := eqCounted_all fo v w h
    exact ⟨h1.1, by omega⟩

example : Value.eq unitFloat (.arr [.null, .obj [([1], .null)]]) (.arr [.null, .obj [([1], .null)]]) = true ∧
    nodes (.arr [.null, .obj [([1], .null)]] : Value Unit) = 4 := by decide +kernel

end Configor.Props
