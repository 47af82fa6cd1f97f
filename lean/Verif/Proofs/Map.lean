import Verif.Proofs.Texts
import Verif.Spec.Values
/-! `std::map` as a sorted list. -/
namespace Configor
open Spec

variable {V : Type}

theorem find_lookup {m : Map.T V} (hm : Sorted m) (k : List Nat) : Map.find k m = m.lookup k := by
  induction m with
  | nil => rfl
  | cons x m ih =>
    obtain ⟨l, v⟩ := x
    have hx := List.pairwise_cons.1 hm
    unfold Map.find
    rw [lookup_if]
    split
    · rename_i h
      rw [ltKey_iff] at h
      rw [if_neg (by rintro rfl; exact List.lt_irrefl _ h), lookup_of_lt]
      intro y hy
      exact key_trans h (hx.1 y hy)
    · split
      · rename_i h1 h2
        rw [ltKey_iff] at h2
        rw [if_neg (by rintro rfl; exact List.lt_irrefl _ h2), ih hx.2]
      · rename_i h1 h2
        rw [ltKey_iff] at h1 h2
        rw [if_pos (key_total h1 h2)]

theorem assign_keys {m : Map.T V} (k : List Nat) (v : V) : (Map.assign k v m).map Prod.fst = m.map Prod.fst := by
  induction m with
  | nil => rfl
  | cons x m ih =>
    unfold Map.assign
    split
    · rfl
    · split
      · simp [ih]
      · simp

theorem sorted_keys {m : Map.T V} : Sorted m ↔ (m.map Prod.fst).Pairwise (· < ·) := by
  unfold Sorted
  rw [List.pairwise_map]

theorem assign_sorted {m : Map.T V} {k : List Nat} {v : V} (hm : Sorted m) : Sorted (Map.assign k v m) := by
  rw [sorted_keys, assign_keys, ← sorted_keys]; exact hm

theorem assign_mem {m : Map.T V} {k : List Nat} {v : V} {x : List Nat × V} (h : x ∈ Map.assign k v m) :
    x.2 = v ∨ x ∈ m := by
  induction m with
  | nil => cases h
  | cons y m ih =>
    unfold Map.assign at h
    split at h
    · right; exact h
    · split at h
      · rcases List.mem_cons.1 h with rfl | h
        · simp
        · rcases ih h with h | h <;> simp [h]
      · rcases List.mem_cons.1 h with rfl | h
        · simp
        · simp [h]

theorem assign_lookup {m : Map.T V} (hm : Sorted m) {k : List Nat} {v : V} (j : List Nat) :
    (Map.assign k v m).lookup j = if j = k ∧ m.lookup k ≠ none then some v else m.lookup j := by
  induction m with
  | nil => simp [Map.assign]
  | cons x m ih =>
    obtain ⟨l, u⟩ := x
    have hx := List.pairwise_cons.1 hm
    unfold Map.assign
    split
    · rename_i h
      rw [ltKey_iff] at h
      have : List.lookup k ((l, u) :: m) = none := by
        apply lookup_of_lt
        intro y hy
        rcases List.mem_cons.1 hy with rfl | hy
        · exact h
        · exact key_trans h (hx.1 y hy)
      rw [this]; simp
    · split
      · rename_i h1 h2
        rw [ltKey_iff] at h2
        have hne : k ≠ l := by rintro rfl; exact List.lt_irrefl _ h2
        rw [lookup_if, lookup_if, lookup_if, ih hx.2, if_neg hne]
        by_cases hj : j = l
        · rw [if_pos hj, if_pos hj, if_neg]
          rintro ⟨rfl, _⟩; exact hne hj
        · rw [if_neg hj, if_neg hj]
      · rename_i h1 h2
        rw [ltKey_iff] at h1 h2
        have := key_total h1 h2
        subst this
        rw [lookup_if, lookup_if, lookup_if]
        by_cases hj : j = k <;> simp [hj]

theorem erase_sub {m : Map.T V} (k : List Nat) : (Map.erase k m).Sublist m := by
  induction m with
  | nil => exact .slnil
  | cons x m ih =>
    unfold Map.erase
    split
    · exact .refl _
    · split
      · exact ih.cons_cons _
      · exact .cons _ (.refl _)

theorem erase_sorted {m : Map.T V} {k : List Nat} (hm : Sorted m) : Sorted (Map.erase k m) :=
  List.Pairwise.sublist (erase_sub k) hm

theorem erase_lookup {m : Map.T V} (hm : Sorted m) {k : List Nat} (j : List Nat) :
    (Map.erase k m).lookup j = if j = k then none else m.lookup j := by
  induction m with
  | nil => simp [Map.erase]
  | cons x m ih =>
    obtain ⟨l, u⟩ := x
    have hx := List.pairwise_cons.1 hm
    unfold Map.erase
    split
    · rename_i h
      rw [ltKey_iff] at h
      split
      · rename_i hj; subst hj
        apply lookup_of_lt
        intro y hy
        rcases List.mem_cons.1 hy with rfl | hy
        · exact h
        · exact key_trans h (hx.1 y hy)
      · rfl
    · split
      · rename_i h1 h2
        rw [ltKey_iff] at h2
        have hne : k ≠ l := by rintro rfl; exact List.lt_irrefl _ h2
        rw [lookup_if, lookup_if, ih hx.2]
        by_cases hj : j = l
        · rw [if_pos hj, if_neg (by rintro rfl; exact hne hj)]; simp [hj]
        · rw [if_neg hj, if_neg hj]
      · rename_i h1 h2
        rw [ltKey_iff] at h1 h2
        have := key_total h1 h2
        subst this
        rw [lookup_if]
        by_cases hj : j = k
        · simp only [hj, if_pos]
          exact lookup_of_lt hx.1
        · simp [hj]

theorem lookup_keys {m : Map.T V} (k : List Nat) : m.lookup k ≠ none ↔ k ∈ m.map Prod.fst := by
  induction m with
  | nil => simp
  | cons x m ih =>
    rw [lookup_if]
    by_cases h : k = x.1
    · simp [h]
    · simp [h, ih]

theorem sorted_nodup {m : Map.T V} (hm : Sorted m) : (m.map Prod.fst).Nodup := by
  rw [sorted_keys] at hm
  refine hm.imp ?_
  rintro a b h rfl
  exact List.lt_irrefl _ h

/-! ## Sorted keys everywhere in a value -/

variable {F : Type}

theorem sorted_scalar {v : Value F} (h1 : v.type ≠ .arr) (h2 : v.type ≠ .obj) : KeysSorted v := by
  intro ms h
  cases h with
  | refl => exact absurd rfl h2
  | elem => exact absurd rfl h1
  | member => exact absurd rfl h2

theorem sorted_arr {xs : List (Value F)} : KeysSorted (.arr xs) ↔ ∀ x ∈ xs, KeysSorted x := by
  constructor
  · intro h x hx ms hm
    exact h ms (.elem hx hm)
  · intro h ms hm
    cases hm with
    | elem hx hm => exact h _ hx ms hm

theorem sorted_obj {ms : List (List Nat × Value F)} : KeysSorted (.obj ms) ↔ Sorted ms ∧ ∀ m ∈ ms, KeysSorted m.2 := by
  constructor
  · intro h
    exact ⟨h ms .refl, fun m hm ns hn => h ns (.member hm hn)⟩
  · rintro ⟨h1, h2⟩ ns hn
    cases hn with
    | refl => exact h1
    | member hm hn => exact h2 _ hm ns hn

end Configor
