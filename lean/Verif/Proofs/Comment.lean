import Verif.Proofs.Words
/-!
# Bodies of comments with stars
-/
set_option autoImplicit false
namespace Configor
open Spec

variable {F : Type}

/-- Characters inside a comment that are read without ending it and without leaving a star pending. -/
inductive Skipped : List Nat → Prop where
  | nil : Skipped []
  | other {c : Nat} {t : List Nat} : c ≠ 0x2A → Skipped t → Skipped (c :: t)
  | star {c : Nat} {t : List Nat} : c ≠ 0x2F → Skipped t → Skipped (0x2A :: c :: t)

theorem Skipped.append {a b : List Nat} (ha : Skipped a) (hb : Skipped b) : Skipped (a ++ b) := by
  induction ha with
  | nil => exact hb
  | other h _ ih => exact .other h ih
  | star h _ ih => exact .star h ih

theorem Skipped.body {b t : List Nat} (hb : Skipped b) (ht : BlockBody t) : BlockBody (b ++ t) := by
  induction hb with
  | nil => exact ht
  | other h _ ih => exact .other h ih
  | star h _ ih => exact .star h ih

theorem Skipped.strip {b : List Nat} (hb : Skipped b) : ∀ {t : List Nat} {x z : List (Option Nat)}, BlockBody t →
    b.map some ++ x = t.map some ++ z → ∃ u, t = b ++ u ∧ BlockBody u ∧ x = u.map some ++ z := by
  induction hb with
  | nil => intro t x z ht h; exact ⟨t, rfl, ht, h⟩
  | @other c b hc _ ih =>
    intro t x z ht h
    cases ht with
    | close => simp at h; exact absurd h.1 hc
    | @other c' t' _ ht' =>
      simp at h
      obtain ⟨u, rfl, hu, hx⟩ := ih ht' h.2
      exact ⟨u, by rw [h.1]; rfl, hu, hx⟩
    | star _ _ => simp at h; exact absurd h.1 hc
  | @star c b hc _ ih =>
    intro t x z ht h
    cases ht with
    | close => simp at h; exact absurd h.1 hc
    | @other c' t' h' ht' => simp at h; exact absurd h.1.symm h'
    | @star c' t' _ ht' =>
      simp at h
      obtain ⟨u, rfl, hu, hx⟩ := ih ht' h.2
      exact ⟨u, by rw [h.1]; rfl, hu, hx⟩

theorem skipped_stars (n : Nat) : Skipped (List.replicate (2 * n) 0x2A) := by
  induction n with
  | zero => exact .nil
  | succ n ih =>
    rw [show 2 * (n + 1) = 2 * n + 1 + 1 from by omega, List.replicate_succ, List.replicate_succ]
    exact .star (by decide) ih

/-- Text without `*/` whose last character is no star. -/
theorem skipped_of {b : List Nat} (h : ∀ a r, b ≠ a ++ 0x2A :: 0x2F :: r) (he : b.getLast? ≠ some 0x2A) : Skipped b := by
  suffices ∀ n, ∀ b : List Nat, b.length ≤ n → (∀ a r, b ≠ a ++ 0x2A :: 0x2F :: r) → b.getLast? ≠ some 0x2A → Skipped b from
    this _ b (Nat.le_refl _) h he
  clear h he
  intro n
  induction n with
  | zero =>
    intro b hb _ _
    cases b with
    | nil => exact .nil
    | cons c b => simp at hb
  | succ n ih =>
    intro b hb h he
    match b, hb, h, he with
    | [], _, _, _ => exact .nil
    | [c], _, _, he =>
      by_cases hc : c = 0x2A
      · subst hc; exact absurd rfl he
      · exact .other hc .nil
    | c :: d :: b, hb, h, he =>
      simp at hb
      by_cases hc : c = 0x2A
      · subst hc
        refine .star ?_ (ih b (by omega) ?_ ?_)
        · rintro rfl
          exact h [] b rfl
        · intro a r e
          exact h (0x2A :: d :: a) r (by rw [e]; rfl)
        · cases b with
          | nil => simp
          | cons e b => simpa [List.getLast?_cons_cons] using he
      · refine .other hc (ih (d :: b) (by simp; omega) ?_ ?_)
        · intro a r e
          exact h (c :: a) r (by rw [e]; rfl)
        · simpa [List.getLast?_cons_cons] using he

/-- What is skipped in a comment does not matter. -/
theorem document_open {D : Dialect F} (hw : 8 ≤ D.w) {b : List Nat} (hb : Skipped b) (l : List Nat) (v : Value F) :
    Document D ((0x2F :: 0x2A :: (b ++ l)).map some) v ↔ Document D ((0x2F :: 0x2A :: l).map some) v := by
  constructor
  · intro h
    obtain ⟨g, u, e, more, he, hg, hv, hf⟩ := h
    have hn := val_noGap hw hv []
    have hne := val_ne_nil hv
    cases hg with
    | nil =>
      cases u with
      | nil => exact absurd rfl hne
      | cons x u =>
        simp at he
        exact absurd he.1.symm (hn x (by simp)).2
    | blank hc _ => simp at he; exact absurd (he.1 ▸ hc) slash_not_blank
    | line _ _ _ => simp at he
    | @block t' g' ht' hg' =>
      have he' : b.map some ++ l.map some = t'.map some ++ ((g' ++ u ++ e).map some ++ more) := by
        simp at he
        simpa using he
      obtain ⟨w, rfl, hw', hx⟩ := hb.strip ht' he'
      exact ⟨0x2F :: 0x2A :: w ++ g', u, e, more, by simp [hx], .block hw' hg', hv, hf⟩
  · intro h
    obtain ⟨g, u, e, more, he, hg, hv, hf⟩ := h
    have hn := val_noGap hw hv []
    have hne := val_ne_nil hv
    cases hg with
    | nil =>
      cases u with
      | nil => exact absurd rfl hne
      | cons x u =>
        simp at he
        exact absurd he.1.symm (hn x (by simp)).2
    | blank hc _ => simp at he; exact absurd (he.1 ▸ hc) slash_not_blank
    | line _ _ _ => simp at he
    | @block t' g' ht' hg' =>
      have he' : l.map some = t'.map some ++ ((g' ++ u ++ e).map some ++ more) := by
        simp at he
        simpa using he
      exact ⟨0x2F :: 0x2A :: (b ++ t') ++ g', u, e, more, by simp [he'], .block (hb.body ht') hg', hv, hf⟩

end Configor
