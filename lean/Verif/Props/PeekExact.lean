import Verif.Props.Stream
/-!
# When a block read behind a peek is right
-/
set_option autoImplicit false
namespace Configor.Props
open Configor Spec

private theorem shifted_same (n : Nat) : ∀ (a : Nat) (p : List Nat), n ≤ p.length →
    ((a :: p).take n = p.take n ↔ ∀ u ∈ p.take n, u = a) := by
  induction n with
  | zero => intro a p _; simp
  | succ n ih =>
    intro a p h
    cases p with
    | nil => simp at h
    | cons b p =>
      have := ih b p (by simpa using h)
      rw [List.take_succ_cons, List.take_succ_cons, List.cons.injEq, this]
      constructor
      · rintro ⟨rfl, h2⟩ u hu
        rcases List.mem_cons.1 hu with rfl | hu
        · rfl
        · exact h2 u hu
      · intro h1
        have hb := h1 b (by simp)
        subst hb
        exact ⟨rfl, fun u hu => h1 u (by simp [hu])⟩

/-- C78, exactly when it holds. After `peek()`, `read(buf, n)` stores the next `n` characters and reports `n` only if it cannot
be seen that one was lost: if the next `n + 1` characters are NULs or lie behind the end of the text. -/
theorem C78_exactly_partial (w n : Nat) (hw : 0 < w) (hn : 0 < n) (text : List Nat) (ht : ∀ u ∈ text, u < 2 ^ w) :
    (∃ t, (IStream.peek (cacheSBuf (adapterRead w)) ⟨⟨text, 0⟩, false, false⟩).2.readN w textRead n =
      .ok ((text ++ List.replicate n 0).take n, n, t)) ↔ ∀ u ∈ text.take (n + 1), u = 0 := by
  cases text with
  | nil =>
    have hs : (IStream.peek (cacheSBuf (adapterRead w)) ⟨⟨[], 0⟩, false, false⟩).2 = ⟨⟨[], 0⟩, false, false⟩ := by
      simp [IStream.peek, IStream.good, cacheSBuf, CacheBuf.underflow, adapterRead]
    rw [hs, C78_read_partial]
    simp
  | cons u r =>
    have hu := ht u (by simp)
    by_cases h0 : u = 0
    · subst h0
      have hp : 0 < 2 ^ (w - 1) := Nat.pow_pos (by omega)
      have he : signExtend w 0 = 0 := by unfold signExtend; rw [if_pos hp]; rfl
      have hs : (IStream.peek (cacheSBuf (adapterRead w)) ⟨⟨0 :: r, 0⟩, false, false⟩).2 = ⟨⟨r, 0⟩, false, false⟩ := by
        simp [IStream.peek, IStream.good, cacheSBuf, CacheBuf.underflow, adapterRead, he]
      rw [hs, C78_read_partial]
      have hl : n ≤ (r ++ List.replicate n 0).length := by simp
      have h := shifted_same n 0 (r ++ List.replicate n 0) hl
      constructor
      · rintro ⟨t, e⟩
        simp only [Except.ok.injEq, Prod.mk.injEq] at e
        have h1 := h.1 e.1.symm
        intro x hx
        rw [List.take_succ_cons] at hx
        rcases List.mem_cons.1 hx with rfl | hx
        · rfl
        · refine h1 x ?_
          rw [List.take_append]
          exact List.mem_append_left _ hx
      · intro h1
        refine ⟨⟨⟨r.drop n, 0⟩, false, false⟩, ?_⟩
        have h2 : ∀ x ∈ (r ++ List.replicate n 0).take n, x = 0 := by
          intro x hx
          rw [List.take_append] at hx
          rcases List.mem_append.1 hx with hx | hx
          · exact h1 x (by rw [List.take_succ_cons]; exact List.mem_cons_of_mem _ hx)
          · exact (List.mem_replicate.1 (List.mem_of_mem_take hx)).2
        rw [List.cons_append, h.2 h2]
    · have hr : ¬ ∀ x ∈ (u :: r).take (n + 1), x = 0 := fun h => h0 (h u (by simp))
      refine ⟨fun ⟨t, e⟩ => ?_, fun h => (hr h).elim⟩
      by_cases h1 : u = 2 ^ w - 1
      · have he : signExtend w u = -1 := by
          obtain ⟨w', rfl⟩ : ∃ w', w = w' + 1 := ⟨w - 1, by omega⟩
          have hp : 0 < 2 ^ w' := Nat.pow_pos (by omega)
          unfold signExtend
          simp only [Nat.add_sub_cancel]
          have h2 : 2 ^ (w' + 1) = 2 * 2 ^ w' := by rw [Nat.pow_succ]; omega
          rw [if_neg (by omega)]
          omega
        have hs : (IStream.peek (cacheSBuf (adapterRead w)) ⟨⟨u :: r, 0⟩, false, false⟩).2 = ⟨⟨r, -1⟩, true, false⟩ := by
          simp [IStream.peek, IStream.good, cacheSBuf, CacheBuf.underflow, adapterRead, he]
        rw [hs] at e
        simp [IStream.readN, IStream.good] at e
        omega
      · obtain ⟨m, rfl⟩ : ∃ m, n = m + 1 := ⟨n - 1, by omega⟩
        have h3 := (C78_violated w m u r hu h0 h1).2.2
        rw [h3] at e
        simp at e

/-- Both sides: NULs, and a text with a letter. -/
example : (∀ u ∈ ([0, 0, 0, 0x61] : List Nat).take (2 + 1), u = 0) ∧ ¬ (∀ u ∈ ([0, 0x61] : List Nat).take (2 + 1), u = 0) := by decide

end Configor.Props
