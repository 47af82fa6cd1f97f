import Verif.Proofs.LiveMore
/-! Loops that change what they go through. -/
namespace Configor
open Spec

variable {F : Type}

theorem take_drop_split {α : Type} (ys : List α) (x : α) (rest : List α) :
    (ys ++ x :: rest).take ys.length ++ (ys ++ x :: rest).drop (ys.length + 1) = ys ++ rest := by
  rw [List.take_left', List.drop_append]
  · simp
  · rfl

/-- The loop over an array that removes elements. -/
theorem eraseLoop_array (t : Value F → Bool) : ∀ (rest ys : List (Value F)) (c : Live F) (it : LIter) (n : Nat), LiveOk c → c.content = .arr (ys ++ rest) →
    PointsAt c ys.length it → rest.length < n →
    ∃ d, eraseLoop (testValue t) n it c = (.ok (), d) ∧ d.content = .arr (ys ++ rest.filter fun x => !t x)
  | rest, ys, c, it, 0, _, _, _, hn => absurd hn (by omega)
  | [], ys, c, it, n + 1, hc, he, hi, hn => by
    obtain ⟨last, e1, h1⟩ := fin_live hc
    have hs : c.content.size = ys.length := by rw [he]; simp [Value.size]
    refine ⟨c, ?_, by rw [he]; simp⟩
    unfold eraseLoop
    simp only [e1]
    rw [ne_live hi h1, hs]
    simp
  | x :: rest, ys, c, it, n + 1, hc, he, hi, hn => by
    obtain ⟨last, e1, h1⟩ := fin_live hc
    have hs : c.content.size = ys.length + rest.length + 1 := by rw [he]; simp [Value.size]; omega
    have hp : ys.length < c.content.size := by omega
    have hx : (elements c.content)[ys.length]? = some x := by rw [he]; simp [elements]
    have hd : testValue t c it = .ok (t x) := by unfold testValue; rw [deref_live hi hx]
    have hne : c.ne it last = .ok true := by rw [ne_live hi h1, decide_eq_true (by omega)]
    unfold eraseLoop
    simp only [e1, hne, hd]
    cases ht : t x with
    | true =>
      obtain ⟨jt, d, e2, h2, h3, _⟩ := erase_live hc hi hp (.inl (by rw [he]; rfl))
      have ok := erase_ok it hc
      rw [e2] at ok
      have hd : d.content = .arr (ys ++ rest) := by
        rw [h2, he]
        exact congrArg Value.arr (take_drop_split ys x rest)
      obtain ⟨d', e3, h4⟩ := eraseLoop_array t rest ys d jt n ok hd h3 (by simp at hn; omega)
      refine ⟨d', ?_, by rw [h4]; simp [ht]⟩
      simp only [e2]
      exact e3
    | false =>
      obtain ⟨jt, e2, h2⟩ := incr_live hc hi hp
      obtain ⟨d', e3, h4⟩ := eraseLoop_array t rest (ys ++ [x]) c jt n hc (by rw [he]; simp) (by simpa using h2) (by simp at hn; omega)
      refine ⟨d', ?_, by rw [h4]; simp [ht]⟩
      simp only [e2]
      exact e3

/-- The loop over an object that removes members. -/
theorem eraseLoop_object (t : List Nat → Value F → Bool) : ∀ (rest ys : List (List Nat × Value F)) (c : Live F) (it : LIter) (n : Nat), LiveOk c →
    c.content = .obj (ys ++ rest) → PointsAt c ys.length it → rest.length < n →
    ∃ d, eraseLoop (testMember t) n it c = (.ok (), d) ∧ d.content = .obj (ys ++ rest.filter fun m => !t m.1 m.2)
  | rest, ys, c, it, 0, _, _, _, hn => absurd hn (by omega)
  | [], ys, c, it, n + 1, hc, he, hi, hn => by
    obtain ⟨last, e1, h1⟩ := fin_live hc
    have hs : c.content.size = ys.length := by rw [he]; simp [Value.size]
    refine ⟨c, ?_, by rw [he]; simp⟩
    unfold eraseLoop
    simp only [e1]
    rw [ne_live hi h1, hs]
    simp
  | x :: rest, ys, c, it, n + 1, hc, he, hi, hn => by
    obtain ⟨last, e1, h1⟩ := fin_live hc
    have hs : c.content.size = ys.length + rest.length + 1 := by rw [he]; simp [Value.size]; omega
    have hp : ys.length < c.content.size := by omega
    have hx : (elements c.content)[ys.length]? = some x.2 := by rw [he]; simp [elements]
    have hk : c.key it = .ok x.1 := key_live hi he (by simp)
    have hd : testMember t c it = .ok (t x.1 x.2) := by unfold testMember; rw [deref_live hi hx, hk]
    have hne : c.ne it last = .ok true := by rw [ne_live hi h1, decide_eq_true (by omega)]
    unfold eraseLoop
    simp only [e1, hne, hd]
    cases ht : t x.1 x.2 with
    | true =>
      obtain ⟨jt, d, e2, h2, h3, _⟩ := erase_live hc hi hp (.inr (by rw [he]; rfl))
      have ok := erase_ok it hc
      rw [e2] at ok
      have hd : d.content = .obj (ys ++ rest) := by
        rw [h2, he]
        exact congrArg Value.obj (take_drop_split ys x rest)
      obtain ⟨d', e3, h4⟩ := eraseLoop_object t rest ys d jt n ok hd h3 (by simp at hn; omega)
      refine ⟨d', ?_, by rw [h4]; simp [ht]⟩
      simp only [e2]
      exact e3
    | false =>
      obtain ⟨jt, e2, h2⟩ := incr_live hc hi hp
      obtain ⟨d', e3, h4⟩ := eraseLoop_object t rest (ys ++ [x]) c jt n hc (by rw [he]; simp) (by simpa using h2) (by simp at hn; omega)
      refine ⟨d', ?_, by rw [h4]; simp [ht]⟩
      simp only [e2]
      exact e3

/-- The loop over an array that replaces elements. -/
theorem forLoop_array (f : Value F → Value F) : ∀ (rest ys : List (Value F)) (c : Live F) (it last : LIter) (n : Nat), LiveOk c →
    c.content = .arr (ys ++ rest) → PointsAt c ys.length it → PointsAt c (ys.length + rest.length) last → rest.length < n →
    ∃ d, forLoop (update f) n it last c = (.ok (), d) ∧ d.content = .arr (ys ++ rest.map f)
  | rest, ys, c, it, last, 0, _, _, _, _, hn => absurd hn (by omega)
  | [], ys, c, it, last, n + 1, hc, he, hi, hl, hn => by
    refine ⟨c, ?_, by rw [he]; simp⟩
    unfold forLoop
    rw [ne_live hi hl]
    simp
  | x :: rest, ys, c, it, last, n + 1, hc, he, hi, hl, hn => by
    have hs : c.content.size = ys.length + rest.length + 1 := by rw [he]; simp [Value.size]; omega
    have hp : ys.length < c.content.size := by omega
    have hx : (elements c.content)[ys.length]? = some x := by rw [he]; simp [elements]
    have hne : c.ne it last = .ok true := by rw [ne_live hi hl, decide_eq_true (by simp)]
    obtain ⟨d, e1, ok, h1, h2⟩ := store_live hc hi hp (.inl (by rw [he]; rfl)) (f x)
    have hd : d.content = .arr ((ys ++ [f x]) ++ rest) := by
      rw [h1, he]
      simp [withAt]
    have hu : update f it c = (.ok (), d) := by unfold update; rw [deref_live hi hx]; exact e1
    have hs' : ys.length < d.content.size := by rw [hd]; simp [Value.size]
    obtain ⟨jt, e2, h3⟩ := incr_live ok ((h2 _ _).1 hi) hs'
    obtain ⟨d', e3, h4⟩ := forLoop_array f rest (ys ++ [f x]) d jt last n ok hd (by simpa using h3)
      (by have := (h2 _ _).1 hl; simp at this ⊢; rw [Nat.add_assoc, Nat.add_comm 1]; exact this) (by simp at hn; omega)
    refine ⟨d', ?_, by rw [h4]; simp⟩
    unfold forLoop
    simp only [hne, hu, e2]
    exact e3

theorem modify_split (ys : List (List Nat × Value F)) (x : List Nat × Value F) (rest : List (List Nat × Value F)) (y : Value F) :
    (ys ++ x :: rest).modify ys.length (fun m => (m.1, y)) = (ys ++ [(x.1, y)]) ++ rest := by
  induction ys with
  | nil => simp
  | cons a ys ih => simpa using ih

/-- The loop over an object that replaces members. -/
theorem forLoop_object (f : Value F → Value F) : ∀ (rest ys : List (List Nat × Value F)) (c : Live F) (it last : LIter) (n : Nat), LiveOk c →
    c.content = .obj (ys ++ rest) → PointsAt c ys.length it → PointsAt c (ys.length + rest.length) last → rest.length < n →
    ∃ d, forLoop (update f) n it last c = (.ok (), d) ∧ d.content = .obj (ys ++ rest.map fun m => (m.1, f m.2))
  | rest, ys, c, it, last, 0, _, _, _, _, hn => absurd hn (by omega)
  | [], ys, c, it, last, n + 1, hc, he, hi, hl, hn => by
    refine ⟨c, ?_, by rw [he]; simp⟩
    unfold forLoop
    rw [ne_live hi hl]
    simp
  | x :: rest, ys, c, it, last, n + 1, hc, he, hi, hl, hn => by
    have hs : c.content.size = ys.length + rest.length + 1 := by rw [he]; simp [Value.size]; omega
    have hp : ys.length < c.content.size := by omega
    have hx : (elements c.content)[ys.length]? = some x.2 := by rw [he]; simp [elements]
    have hne : c.ne it last = .ok true := by rw [ne_live hi hl, decide_eq_true (by simp)]
    obtain ⟨d, e1, ok, h1, h2⟩ := store_live hc hi hp (.inr (by rw [he]; rfl)) (f x.2)
    have hd : d.content = .obj ((ys ++ [(x.1, f x.2)]) ++ rest) := by
      rw [h1, he]
      exact congrArg Value.obj (modify_split ys x rest (f x.2))
    have hu : update f it c = (.ok (), d) := by unfold update; rw [deref_live hi hx]; exact e1
    have hs' : ys.length < d.content.size := by rw [hd]; simp [Value.size]
    obtain ⟨jt, e2, h3⟩ := incr_live ok ((h2 _ _).1 hi) hs'
    obtain ⟨d', e3, h4⟩ := forLoop_object f rest (ys ++ [(x.1, f x.2)]) d jt last n ok hd (by simpa using h3)
      (by have := (h2 _ _).1 hl; simp at this ⊢; rw [Nat.add_assoc, Nat.add_comm 1]; exact this) (by simp at hn; omega)
    refine ⟨d', ?_, by rw [h4]; simp⟩
    unfold forLoop
    simp only [hne, hu, e2]
    exact e3

end Configor
