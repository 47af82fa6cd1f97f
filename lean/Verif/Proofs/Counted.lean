import Verif.Proofs.StackOps
/-!
# How many comparisons are made
-/
namespace Configor
open Spec

variable {F : Type}

mutual
theorem eqCounted_fst (fo : FloatOps F) : ∀ v w : Value F, (Value.eqCounted fo v w).1 = Value.eq fo v w := by
  intro v w
  cases v <;> cases w
  case arr.arr xs ys =>
    unfold Value.eqCounted Value.eq
    split
    · rename_i hl; exact eqElemsCounted_fst fo xs ys hl
    · rename_i hl; rw [eqElems_length fo hl]
  case obj.obj xs ys =>
    unfold Value.eqCounted Value.eq
    split
    · rename_i hl; exact eqMembersCounted_fst fo xs ys hl
    · rename_i hl; rw [eqMembers_length fo hl]
  all_goals (unfold Value.eqCounted Value.eq; rfl)

theorem eqElemsCounted_fst (fo : FloatOps F) : ∀ xs ys : List (Value F), xs.length = ys.length → (eqElemsCounted fo xs ys).1 = eqElems fo xs ys := by
  intro xs ys hl
  cases xs with
  | nil => cases ys with
    | nil => unfold eqElemsCounted eqElems; rfl
    | cons => cases hl
  | cons x xs => cases ys with
    | nil => cases hl
    | cons y ys =>
      unfold eqElemsCounted eqElems
      have h1 := eqCounted_fst fo x y
      have h2 := eqElemsCounted_fst fo xs ys (by simpa using hl)
      rw [← h1, ← h2]
      generalize Value.eqCounted fo x y = a
      obtain ⟨a | a, n⟩ := a <;> rfl

theorem eqMembersCounted_fst (fo : FloatOps F) : ∀ xs ys : List (List Nat × Value F), xs.length = ys.length →
    (eqMembersCounted fo xs ys).1 = eqMembers fo xs ys := by
  intro xs ys hl
  cases xs with
  | nil => cases ys with
    | nil => unfold eqMembersCounted eqMembers; rfl
    | cons => cases hl
  | cons x xs => cases ys with
    | nil => cases hl
    | cons y ys =>
      obtain ⟨k, x⟩ := x
      obtain ⟨l, y⟩ := y
      unfold eqMembersCounted eqMembers
      have h1 := eqCounted_fst fo x y
      have h2 := eqMembersCounted_fst fo xs ys (by simpa using hl)
      rw [← h1, ← h2]
      generalize Value.eqCounted fo x y = a
      obtain ⟨a | a, n⟩ := a <;> cases k == l <;> rfl
end

mutual
theorem eqCounted_left (fo : FloatOps F) : ∀ v w : Value F, (Value.eqCounted fo v w).2 ≤ nodes v := by
  intro v w
  cases v <;> cases w
  case arr.arr xs ys =>
    unfold Value.eqCounted nodes
    split
    · have := eqElemsCounted_left fo xs ys; simp only; omega
    · simp only; omega
  case obj.obj xs ys =>
    unfold Value.eqCounted nodes
    split
    · have := eqMembersCounted_left fo xs ys; simp only; omega
    · simp only; omega
  all_goals (unfold Value.eqCounted nodes; simp only; omega)

theorem eqElemsCounted_left (fo : FloatOps F) : ∀ xs ys : List (Value F), (eqElemsCounted fo xs ys).2 ≤ nodesElems xs := by
  intro xs ys
  cases xs with
  | nil => unfold eqElemsCounted; simp
  | cons x xs => cases ys with
    | nil => unfold eqElemsCounted; simp
    | cons y ys =>
      unfold eqElemsCounted nodesElems
      have h1 := eqCounted_left fo x y
      have h2 := eqElemsCounted_left fo xs ys
      simp only
      split
      · simp only; omega
      · omega

theorem eqMembersCounted_left (fo : FloatOps F) : ∀ xs ys : List (List Nat × Value F), (eqMembersCounted fo xs ys).2 ≤ nodesMembers xs := by
  intro xs ys
  cases xs with
  | nil => unfold eqMembersCounted; simp
  | cons x xs => cases ys with
    | nil => unfold eqMembersCounted; simp
    | cons y ys =>
      obtain ⟨k, x⟩ := x
      obtain ⟨l, y⟩ := y
      unfold eqMembersCounted nodesMembers
      have h1 := eqCounted_left fo x y
      have h2 := eqMembersCounted_left fo xs ys
      simp only
      split
      · split
        · simp only; omega
        · omega
      · simp only; omega
end

mutual
theorem eqCounted_right (fo : FloatOps F) : ∀ v w : Value F, (Value.eqCounted fo v w).2 ≤ nodes w := by
  intro v w
  cases v <;> cases w
  case arr.arr xs ys =>
    unfold Value.eqCounted nodes
    split
    · have := eqElemsCounted_right fo xs ys; simp only; omega
    · simp only; omega
  case obj.obj xs ys =>
    unfold Value.eqCounted nodes
    split
    · have := eqMembersCounted_right fo xs ys; simp only; omega
    · simp only; omega
  all_goals (unfold Value.eqCounted nodes; simp only; omega)

theorem eqElemsCounted_right (fo : FloatOps F) : ∀ xs ys : List (Value F), (eqElemsCounted fo xs ys).2 ≤ nodesElems ys := by
  intro xs ys
  cases xs with
  | nil => unfold eqElemsCounted; simp
  | cons x xs => cases ys with
    | nil => unfold eqElemsCounted; simp
    | cons y ys =>
      unfold eqElemsCounted nodesElems
      have h1 := eqCounted_right fo x y
      have h2 := eqElemsCounted_right fo xs ys
      simp only
      split
      · simp only; omega
      · omega

theorem eqMembersCounted_right (fo : FloatOps F) : ∀ xs ys : List (List Nat × Value F), (eqMembersCounted fo xs ys).2 ≤ nodesMembers ys := by
  intro xs ys
  cases xs with
  | nil => unfold eqMembersCounted; simp
  | cons x xs => cases ys with
    | nil => unfold eqMembersCounted; simp
    | cons y ys =>
      obtain ⟨k, x⟩ := x
      obtain ⟨l, y⟩ := y
      unfold eqMembersCounted nodesMembers
      have h1 := eqCounted_right fo x y
      have h2 := eqMembersCounted_right fo xs ys
      simp only
      split
      · split
        · simp only; omega
        · omega
      · simp only; omega
end

/-! ## operator< -/

theorem ltElemsCounted_fst (fo : FloatOps F) : ∀ {xs ys : List (Value F)},
    (∀ x ∈ xs, ∀ y ∈ ys, (Value.ltCounted fo x y).1 = Value.lt fo x y ∧ (Value.ltCounted fo y x).1 = Value.lt fo y x) →
    (ltElemsCounted fo xs ys).1 = ltElems fo xs ys
  | [], [], _ => by unfold ltElemsCounted ltElems; rfl
  | [], _ :: _, _ => by unfold ltElemsCounted ltElems; rfl
  | _ :: _, [], _ => by unfold ltElemsCounted ltElems; rfl
  | x :: xs, y :: ys, h => by
    unfold ltElemsCounted ltElems
    obtain ⟨h1, h2⟩ := h x (by simp) y (by simp)
    have h3 := ltElemsCounted_fst fo (xs := xs) (ys := ys) fun a ha b hb => h a (by simp [ha]) b (by simp [hb])
    rw [← h1, ← h2, ← h3]
    generalize Value.ltCounted fo x y = a
    generalize Value.ltCounted fo y x = b
    obtain ⟨a | a, n⟩ := a <;> obtain ⟨b | b, m⟩ := b <;> rfl

theorem ltMembersCounted_fst (fo : FloatOps F) : ∀ {xs ys : List (List Nat × Value F)},
    (∀ x ∈ xs, ∀ y ∈ ys, (Value.ltCounted fo x.2 y.2).1 = Value.lt fo x.2 y.2 ∧ (Value.ltCounted fo y.2 x.2).1 = Value.lt fo y.2 x.2) →
    (ltMembersCounted fo xs ys).1 = ltMembers fo xs ys
  | [], [], _ => by unfold ltMembersCounted ltMembers; rfl
  | [], _ :: _, _ => by unfold ltMembersCounted ltMembers; rfl
  | _ :: _, [], _ => by unfold ltMembersCounted ltMembers; rfl
  | (k, x) :: xs, (l, y) :: ys, h => by
    unfold ltMembersCounted ltMembers
    obtain ⟨h1, h2⟩ := h (k, x) (by simp) (l, y) (by simp)
    have h3 := ltMembersCounted_fst fo (xs := xs) (ys := ys) fun a ha b hb => h a (by simp [ha]) b (by simp [hb])
    dsimp only at h1 h2
    rw [← h1, ← h2, ← h3]
    generalize Value.ltCounted fo x y = a
    generalize Value.ltCounted fo y x = b
    obtain ⟨a | a, n⟩ := a <;> obtain ⟨b | b, m⟩ := b <;> cases ltKey k l <;> cases ltKey l k <;> rfl

theorem ltCounted_fst (fo : FloatOps F) (v w : Value F) : (Value.ltCounted fo v w).1 = Value.lt fo v w := by
  have main : ∀ (n : Nat) (v w : Value F), height v ≤ n → (Value.ltCounted fo v w).1 = Value.lt fo v w ∧ (Value.ltCounted fo w v).1 = Value.lt fo w v := by
    intro n
    induction n with
    | zero => intro v w h; have := height_pos v; omega
    | succ n ih =>
      intro v w h
      cases v <;> cases w
      case arr.arr xs ys =>
        simp only [height] at h
        unfold Value.ltCounted Value.lt
        exact ⟨ltElemsCounted_fst fo fun x hx y hy => ih x y (by have := height_elem hx; omega),
          ltElemsCounted_fst fo fun y hy x hx => (ih x y (by have := height_elem hx; omega)).symm⟩
      case obj.obj xs ys =>
        simp only [height] at h
        unfold Value.ltCounted Value.lt
        exact ⟨ltMembersCounted_fst fo fun x hx y hy => ih x.2 y.2 (by have := height_member hx; omega),
          ltMembersCounted_fst fo fun y hy x hx => (ih x.2 y.2 (by have := height_member hx; omega)).symm⟩
      all_goals (unfold Value.ltCounted Value.lt; exact ⟨rfl, rfl⟩)
  exact (main _ v w (Nat.le_refl _)).1

theorem ltElemsCounted_le (fo : FloatOps F) (B : Nat) : ∀ {xs ys : List (Value F)},
    (∀ x ∈ xs, ∀ y ∈ ys, (Value.ltCounted fo x y).2 + (Value.ltCounted fo y x).2 ≤ B * nodes x) →
    (ltElemsCounted fo xs ys).2 ≤ B * nodesElems xs
  | [], [], _ => by unfold ltElemsCounted; simp
  | [], _ :: _, _ => by unfold ltElemsCounted; simp
  | _ :: _, [], _ => by unfold ltElemsCounted; simp
  | x :: xs, y :: ys, h => by
    unfold ltElemsCounted nodesElems
    have h1 := h x (by simp) y (by simp)
    have h3 := ltElemsCounted_le fo B (xs := xs) (ys := ys) fun a ha b hb => h a (by simp [ha]) b (by simp [hb])
    rw [Nat.mul_add]
    simp only
    split
    · simp only; omega
    · split <;> (simp only; omega)

theorem ltElemsCounted_le' (fo : FloatOps F) (B : Nat) : ∀ {xs ys : List (Value F)},
    (∀ x ∈ xs, ∀ y ∈ ys, (Value.ltCounted fo x y).2 + (Value.ltCounted fo y x).2 ≤ B * nodes x) →
    (ltElemsCounted fo ys xs).2 ≤ B * nodesElems xs
  | [], [], _ => by unfold ltElemsCounted; simp
  | [], _ :: _, _ => by unfold ltElemsCounted; simp
  | _ :: _, [], _ => by unfold ltElemsCounted; simp
  | x :: xs, y :: ys, h => by
    unfold ltElemsCounted nodesElems
    have h1 := h x (by simp) y (by simp)
    have h3 := ltElemsCounted_le' fo B (xs := xs) (ys := ys) fun a ha b hb => h a (by simp [ha]) b (by simp [hb])
    rw [Nat.mul_add]
    simp only
    split
    · simp only; omega
    · split <;> (simp only; omega)

theorem ltMembersCounted_le (fo : FloatOps F) (B : Nat) : ∀ {xs ys : List (List Nat × Value F)},
    (∀ x ∈ xs, ∀ y ∈ ys, (Value.ltCounted fo x.2 y.2).2 + (Value.ltCounted fo y.2 x.2).2 ≤ B * nodes x.2) →
    (ltMembersCounted fo xs ys).2 ≤ B * nodesMembers xs
  | [], [], _ => by unfold ltMembersCounted; simp
  | [], _ :: _, _ => by unfold ltMembersCounted; simp
  | _ :: _, [], _ => by unfold ltMembersCounted; simp
  | (k, x) :: xs, (l, y) :: ys, h => by
    unfold ltMembersCounted nodesMembers
    have h1 := h (k, x) (by simp) (l, y) (by simp)
    have h3 := ltMembersCounted_le fo B (xs := xs) (ys := ys) fun a ha b hb => h a (by simp [ha]) b (by simp [hb])
    dsimp only at h1
    rw [Nat.mul_add]
    simp only
    split
    · simp only; omega
    · split
      · simp only; omega
      · split
        · simp only; omega
        · split <;> (simp only; omega)

theorem ltMembersCounted_le' (fo : FloatOps F) (B : Nat) : ∀ {xs ys : List (List Nat × Value F)},
    (∀ x ∈ xs, ∀ y ∈ ys, (Value.ltCounted fo x.2 y.2).2 + (Value.ltCounted fo y.2 x.2).2 ≤ B * nodes x.2) →
    (ltMembersCounted fo ys xs).2 ≤ B * nodesMembers xs
  | [], [], _ => by unfold ltMembersCounted; simp
  | [], _ :: _, _ => by unfold ltMembersCounted; simp
  | _ :: _, [], _ => by unfold ltMembersCounted; simp
  | (k, x) :: xs, (l, y) :: ys, h => by
    unfold ltMembersCounted nodesMembers
    have h1 := h (k, x) (by simp) (l, y) (by simp)
    have h3 := ltMembersCounted_le' fo B (xs := xs) (ys := ys) fun a ha b hb => h a (by simp [ha]) b (by simp [hb])
    dsimp only at h1
    rw [Nat.mul_add]
    simp only
    split
    · simp only; omega
    · split
      · simp only; omega
      · split
        · simp only; omega
        · split <;> (simp only; omega)

theorem ltCounted_le (fo : FloatOps F) : ∀ (n : Nat) (v w : Value F), height v ≤ n + 1 →
    (Value.ltCounted fo v w).2 ≤ 2 ^ n * nodes v ∧ (Value.ltCounted fo w v).2 ≤ 2 ^ n * nodes v := by
  intro n
  induction n with
  | zero =>
    intro v w h
    cases v <;> cases w
    case arr.arr xs ys =>
      cases xs with
      | nil => cases ys <;> (unfold Value.ltCounted ltElemsCounted; simp [nodes, nodesElems])
      | cons x xs => simp only [height, heightElems] at h; have := height_pos x; omega
    case obj.obj xs ys =>
      cases xs with
      | nil => cases ys <;> (unfold Value.ltCounted ltMembersCounted; simp [nodes, nodesMembers])
      | cons x xs => obtain ⟨k, x⟩ := x; simp only [height, heightMembers] at h; have := height_pos x; omega
    all_goals (unfold Value.ltCounted nodes; simp)
  | succ n ih =>
    intro v w h
    have hp : 0 < 2 ^ (n + 1) := Nat.pow_pos (by omega)
    have hn : 1 ≤ 2 ^ (n + 1) * nodes v := Nat.mul_pos hp (by cases v <;> simp only [nodes] <;> omega)
    cases v <;> cases w
    case arr.arr xs ys =>
      simp only [height] at h
      have hb : ∀ x ∈ xs, ∀ y ∈ ys, (Value.ltCounted fo x y).2 + (Value.ltCounted fo y x).2 ≤ 2 ^ (n + 1) * nodes x := by
        intro x hx y hy
        obtain ⟨h1, h2⟩ := ih x y (by have := height_elem hx; omega)
        rw [Nat.pow_succ, Nat.mul_comm (2 ^ n) 2, Nat.mul_assoc]
        omega
      unfold Value.ltCounted nodes
      rw [Nat.mul_add]
      exact ⟨by have := ltElemsCounted_le fo _ hb; simp only; omega, by have := ltElemsCounted_le' fo _ hb; simp only; omega⟩
    case obj.obj xs ys =>
      simp only [height] at h
      have hb : ∀ x ∈ xs, ∀ y ∈ ys, (Value.ltCounted fo x.2 y.2).2 + (Value.ltCounted fo y.2 x.2).2 ≤ 2 ^ (n + 1) * nodes x.2 := by
        intro x hx y hy
        obtain ⟨h1, h2⟩ := ih x.2 y.2 (by have := height_member hx; omega)
        rw [Nat.pow_succ, Nat.mul_comm (2 ^ n) 2, Nat.mul_assoc]
        omega
      unfold Value.ltCounted nodes
      rw [Nat.mul_add]
      exact ⟨by have := ltMembersCounted_le fo _ hb; simp only; omega, by have := ltMembersCounted_le' fo _ hb; simp only; omega⟩
    all_goals (unfold Value.ltCounted; exact ⟨hn, hn⟩)

end Configor
