import Verif.Proofs.Parts
/-!
# Parts of a value in the same expression

C125. `assignPart g first x y` is `c[x] = c[y]` and `movePart g first x y` is `c[x] = std::move(c[y])`, where the side `first` is
evaluated first; `pushPart g y` is `c.push_back(c[y])`, `pushSelf g` is `c.push_back(c)` and `assignWhole g x` is `c[x] = c`.
`g` is how the standard library chooses the capacity of a vector that grows.
-/
set_option autoImplicit false
namespace Configor.Props
open Spec

variable {F : Type}

/-- A capacity that doubles, as in GCC's library. For the examples. -/
private def doubling : Growth := fun cap needed => max (2 * cap) needed

private theorem doubling_enough : doubling.Enough := fun _ _ => Nat.le_max_right _ _

/-- `[1, 2]` with room for three elements. For the examples. -/
private def two : Held Unit := .vec ⟨[.int 1, .int 2], 3, 0⟩

/-- C125. `c[x] = c[y]` with keys, on null or an object: in either order of evaluation and whichever of the members exist, the
member `x` gets the content that `y` had (null if it was missing), and nothing else changes but that missing members are made. -/
theorem C125_copy_members (g : Growth) (first : Side) (x y : List Nat) (c : Held F) (h : Indexable c.content (.key x))
    (hs : Sound c) :
    ∃ c', assignPart g first (.key x) (.key y) c = (.ok (), c') ∧ Sound c' ∧ CopiedPart c.content c'.content (.key x) (.key y) := by
  obtain ⟨ms, hb, hm, hl⟩ := bothParts_key g first x y c h hs
  obtain ⟨ux, hx⟩ : ∃ u, ms.lookup x = some u := by
    rw [hl]; cases (objOf c).lookup x <;> simp
  have hy : ms.lookup y = some (((objOf c).lookup y).getD .null) := by
    rw [hl]; cases (objOf c).lookup y <;> simp
  obtain ⟨ns, hc, hn, hk⟩ := copyTo_members hm hx hy
  refine ⟨.obj ns, by unfold assignPart; rw [M.bind_ok hb]; exact hc, hn, ?_, ?_, ?_, ?_⟩
  · show ns.lookup x = _
    rw [hk, if_pos rfl, piece_key h hs]
  · intro a u ha hu
    cases a with
    | index i => rw [piece_key_index h hs] at hu; cases hu
    | key k =>
      rw [piece_key h hs] at hu
      show ns.lookup k = _
      rw [hk, if_neg (fun e => ha (by rw [e])), hl, hu]
      rfl
  · intro a ha hu hmb
    cases a with
    | index i => simp [MadeBy] at hmb
    | key k =>
      rw [piece_key h hs] at hu
      show ns.lookup k = _
      rw [hk, if_neg (fun e => ha (by rw [e])), hl, hu, if_pos (show k = x ∨ k = y from hmb)]
      rfl
  · intro a ha hu hmb
    cases a with
    | index i => rfl
    | key k =>
      rw [piece_key h hs] at hu
      show ns.lookup k = _
      rw [hk, if_neg (fun e => ha (by rw [e])), hl, hu, if_neg (show ¬ (k = x ∨ k = y) from hmb)]
      rfl

example : Indexable (Held.content (.obj [([1], .int 5)] : Held Unit)) (.key [2]) ∧ Sound (.obj [([1], .int 5)] : Held Unit) :=
  ⟨trivial, by simp [Sound]⟩
example : assignPart doubling .left (.key [2]) (.key [1]) (.obj [([1], .int 5)] : Held Unit) =
    (.ok (), .obj [([1], .int 5), ([2], .int 5)]) := rfl

/-- C125. `c[x] = std::move(c[y])` with keys, likewise; the member `y` is left as null. -/
theorem C125_move_members (g : Growth) (first : Side) (x y : List Nat) (c : Held F) (h : Indexable c.content (.key x))
    (hs : Sound c) :
    ∃ c', movePart g first (.key x) (.key y) c = (.ok (), c') ∧ Sound c' ∧ MovedPart c.content c'.content (.key x) (.key y) := by
  obtain ⟨ms, hb, hm, hl⟩ := bothParts_key g first x y c h hs
  obtain ⟨ux, hx⟩ : ∃ u, ms.lookup x = some u := by
    rw [hl]; cases (objOf c).lookup x <;> simp
  have hy : ms.lookup y = some (((objOf c).lookup y).getD .null) := by
    rw [hl]; cases (objOf c).lookup y <;> simp
  obtain ⟨ns, hc, hn, hk⟩ := moveTo_members hm hx hy
  refine ⟨.obj ns, by unfold movePart; rw [M.bind_ok hb]; exact hc, hn, ?_, ?_, ?_, ?_, ?_⟩
  · show ns.lookup x = _
    rw [hk, if_pos rfl, piece_key h hs]
  · intro hxy
    show ns.lookup y = _
    rw [hk, if_neg (fun e => hxy (by rw [e])), if_pos rfl]
  · intro a u ha hay hu
    cases a with
    | index i => rw [piece_key_index h hs] at hu; cases hu
    | key k =>
      rw [piece_key h hs] at hu
      show ns.lookup k = _
      rw [hk, if_neg (fun e => ha (by rw [e])), if_neg (fun e => hay (by rw [e])), hl, hu]
      rfl
  · intro a ha hay hu hmb
    cases a with
    | index i => simp [MadeBy] at hmb
    | key k =>
      rw [piece_key h hs] at hu
      show ns.lookup k = _
      rw [hk, if_neg (fun e => ha (by rw [e])), if_neg (fun e => hay (by rw [e])), hl, hu, if_pos (show k = x ∨ k = y from hmb)]
      rfl
  · intro a ha hu hmb
    cases a with
    | index i => rfl
    | key k =>
      rw [piece_key h hs] at hu
      show ns.lookup k = _
      rw [hk, if_neg (fun e => ha (by rw [e])), if_neg (show ¬ k = y from fun e => hmb (.inr e)), hl, hu, if_neg (show ¬ (k = x ∨ k = y) from hmb)]
      rfl

example : movePart doubling .right (.key [2]) (.key [1]) (.obj [([1], .int 5)] : Held Unit) =
    (.ok (), .obj [([1], .null), ([2], .int 5)]) := rfl

/-- The capacity of the variable after the first of the two accesses. -/
private theorem capacity_after (g : Growth) (first : Side) (x y : Nat) (c : Held F) (h : Indexable c.content (.index x))
    (hs : Sound c) :
    capacity (access g (.index (evalOrder first x y).1) c).2 = ((vecOf c).touch g (evalOrder first x y).1).cap := by
  rw [access_index g _ c (takes_swap h) hs]
  rfl

/-- C125. `c[x] = c[y]` with indices, on null or an array. The full property is that the element `x` gets the content that `y` had.
It holds exactly if the index that is evaluated second is below the capacity that the vector has after the first access;
otherwise the first reference points into a storage that was given up, and the behaviour is undefined. -/
theorem C125_copy_elements_partial (g : Growth) (hg : g.Enough) (first : Side) (x y : Nat) (c : Held F)
    (h : Indexable c.content (.index x)) (hs : Sound c) :
    ((evalOrder first x y).2 < capacity (access g (.index (evalOrder first x y).1) c).2 →
      ∃ c', assignPart g first (.index x) (.index y) c = (.ok (), c') ∧ CopiedPart c.content c'.content (.index x) (.index y)) ∧
    (capacity (access g (.index (evalOrder first x y).1) c).2 ≤ (evalOrder first x y).2 →
      (assignPart g first (.index x) (.index y) c).1 = .error .ub) := by
  rw [capacity_after g first x y c h hs]
  constructor
  · intro hr
    obtain ⟨v, hb, hl⟩ := bothParts_same g first x y c h hs hr
    have hx : x < v.elems.length := by
      have : v.elems[x]? ≠ none := by rw [hl]; cases (vecOf c).elems[x]? <;> simp
      rw [ne_eq, List.getElem?_eq_none_iff] at this
      omega
    have hy : v.elems[y]? = some (((vecOf c).elems[y]?).getD .null) := by
      rw [hl]; cases (vecOf c).elems[y]? <;> simp
    obtain ⟨w, hc, hk, _, _⟩ := copyTo_elems hx hy
    refine ⟨.vec w, by unfold assignPart; rw [M.bind_ok hb]; exact hc, ?_, ?_, ?_, ?_⟩
    · show w.elems[x]? = _
      rw [hk, if_pos rfl, piece_index h hs]
    · intro a u ha hu
      cases a with
      | key k => rw [piece_index_key h hs] at hu; cases hu
      | index k =>
        rw [piece_index h hs] at hu
        show w.elems[k]? = _
        rw [hk, if_neg (fun e => ha (by rw [e])), hl, hu]
        rfl
    · intro a ha hu hmb
      cases a with
      | key k => simp [MadeBy] at hmb
      | index k =>
        rw [piece_index h hs] at hu
        show w.elems[k]? = _
        rw [hk, if_neg (fun e => ha (by rw [e])), hl, hu, if_pos (show k ≤ x ∨ k ≤ y from hmb)]
        rfl
    · intro a ha hu hmb
      cases a with
      | key k => rfl
      | index k =>
        rw [piece_index h hs] at hu
        show w.elems[k]? = _
        rw [hk, if_neg (fun e => ha (by rw [e])), hl, hu, if_neg (show ¬ (k ≤ x ∨ k ≤ y) from hmb)]
        rfl
  · intro hr
    obtain ⟨v, st, hst, hxy, hx, ⟨u, hy⟩, hb⟩ := bothParts_moved g hg first x y c h hs hr
    unfold assignPart
    rw [M.bind_ok hb]
    cases first with
    | left =>
      show (copyTo (.elem st x) (.elem v.storage y) (.vec v)).1 = _
      unfold copyTo
      rw [if_neg (by simp [hxy])]
      have e : loadPart (.elem v.storage y) (.vec v) = (.ok u, .vec v) := by simp only [loadPart, if_true, hy]
      rw [M.bind_ok e]
      simp only [storePart, if_neg (fun h : v.storage = st ∧ _ => hst h.1.symm)]
    | right =>
      show (copyTo (.elem v.storage x) (.elem st y) (.vec v)).1 = _
      unfold copyTo
      rw [if_neg (by simp [hxy])]
      have e : loadPart (.elem st y) (.vec v) = (.error .ub, .vec v) := by
        simp only [loadPart, if_neg (fun h : v.storage = st => hst h.symm)]
      rw [M.bind_error e]

example : Indexable two.content (.index 2) ∧ Sound two ∧ doubling.Enough :=
  ⟨trivial, by simp [Sound, two], doubling_enough⟩
example : (assignPart doubling .right (.index 2) (.index 0) two).2.content = .arr [.int 1, .int 2, .int 1] := rfl
example : (assignPart doubling .right (.index 3) (.index 0) two).1 = .error .ub := rfl

/-- C125. `c[x] = std::move(c[y])` with indices, likewise; the element `y` is left as null. -/
theorem C125_move_elements_partial (g : Growth) (hg : g.Enough) (first : Side) (x y : Nat) (c : Held F)
    (h : Indexable c.content (.index x)) (hs : Sound c) :
    ((evalOrder first x y).2 < capacity (access g (.index (evalOrder first x y).1) c).2 →
      ∃ c', movePart g first (.index x) (.index y) c = (.ok (), c') ∧ MovedPart c.content c'.content (.index x) (.index y)) ∧
    (capacity (access g (.index (evalOrder first x y).1) c).2 ≤ (evalOrder first x y).2 →
      (movePart g first (.index x) (.index y) c).1 = .error .ub) := by
  rw [capacity_after g first x y c h hs]
  constructor
  · intro hr
    obtain ⟨v, hb, hl⟩ := bothParts_same g first x y c h hs hr
    have hx : x < v.elems.length := by
      have : v.elems[x]? ≠ none := by rw [hl]; cases (vecOf c).elems[x]? <;> simp
      rw [ne_eq, List.getElem?_eq_none_iff] at this
      omega
    have hy : v.elems[y]? = some (((vecOf c).elems[y]?).getD .null) := by
      rw [hl]; cases (vecOf c).elems[y]? <;> simp
    obtain ⟨w, hc, hk, _, _⟩ := moveTo_elems hx hy
    refine ⟨.vec w, by unfold movePart; rw [M.bind_ok hb]; exact hc, ?_, ?_, ?_, ?_, ?_⟩
    · show w.elems[x]? = _
      rw [hk, if_pos rfl, piece_index h hs]
    · intro hxy
      show w.elems[y]? = _
      rw [hk, if_neg (fun e => hxy (by rw [e])), if_pos rfl]
    · intro a u ha hay hu
      cases a with
      | key k => rw [piece_index_key h hs] at hu; cases hu
      | index k =>
        rw [piece_index h hs] at hu
        show w.elems[k]? = _
        rw [hk, if_neg (fun e => ha (by rw [e])), if_neg (fun e => hay (by rw [e])), hl, hu]
        rfl
    · intro a ha hay hu hmb
      cases a with
      | key k => simp [MadeBy] at hmb
      | index k =>
        rw [piece_index h hs] at hu
        show w.elems[k]? = _
        rw [hk, if_neg (fun e => ha (by rw [e])), if_neg (fun e => hay (by rw [e])), hl, hu, if_pos (show k ≤ x ∨ k ≤ y from hmb)]
        rfl
    · intro a ha hu hmb
      cases a with
      | key k => rfl
      | index k =>
        rw [piece_index h hs] at hu
        show w.elems[k]? = _
        rw [hk, if_neg (fun e => ha (by rw [e])),
          if_neg (show ¬ k = y from fun e => hmb (.inr (by rw [e]; exact Nat.le_refl _))), hl, hu, if_neg (show ¬ (k ≤ x ∨ k ≤ y) from hmb)]
        rfl
  · intro hr
    obtain ⟨v, st, hst, hxy, hx, ⟨u, hy⟩, hb⟩ := bothParts_moved g hg first x y c h hs hr
    unfold movePart
    rw [M.bind_ok hb]
    cases first with
    | left =>
      show (moveTo (.elem st x) (.elem v.storage y) (.vec v)).1 = _
      unfold moveTo
      rw [if_neg (by simp [hxy])]
      have e : loadPart (.elem v.storage y) (.vec v) = (.ok u, .vec v) := by simp only [loadPart, if_true, hy]
      have e' : storePart u (.elem st x) (.vec v) = (.error .ub, .vec v) := by
        simp only [storePart, if_neg (fun h : v.storage = st ∧ _ => hst h.1.symm)]
      rw [M.bind_ok e, M.bind_error e']
    | right =>
      show (moveTo (.elem v.storage x) (.elem st y) (.vec v)).1 = _
      unfold moveTo
      rw [if_neg (by simp [hxy])]
      have e : loadPart (.elem st y) (.vec v) = (.error .ub, .vec v) := by
        simp only [loadPart, if_neg (fun h : v.storage = st => hst h.symm)]
      rw [M.bind_error e]

example : (movePart doubling .right (.index 2) (.index 0) two).2.content = .arr [.null, .int 2, .int 1] := rfl
example : (movePart doubling .left (.index 0) (.index 3) two).1 = .error .ub := rfl

/-- C125. Without knowing capacities: `c[x] = c[y]` is safe in a given order if the index that is evaluated second is that of an
element, or is not larger than the other index. -/
theorem C125_copy_existing (g : Growth) (hg : g.Enough) (first : Side) (x y : Nat) (c : Held F)
    (h : Indexable c.content (.index x)) (hs : Sound c)
    (hr : piece c.content (.index (evalOrder first x y).2) ≠ none ∨ (evalOrder first x y).2 ≤ (evalOrder first x y).1) :
    ∃ c', assignPart g first (.index x) (.index y) c = (.ok (), c') ∧ CopiedPart c.content c'.content (.index x) (.index y) := by
  refine (C125_copy_elements_partial g hg first x y c h hs).1 ?_
  rw [capacity_after g first x y c h hs]
  have h1 := Vec.touch_fits hg (evalOrder first x y).1 (vecOf c) (vecOf_fits hs)
  rw [Vec.touch_length] at h1
  rcases hr with hr | hr
  · rw [piece_index h hs, ne_eq, List.getElem?_eq_none_iff] at hr
    omega
  · omega

example : piece two.content (.index (evalOrder .right 1 0).2) ≠ none := by simp [two, Held.content, piece, evalOrder]

/-- C125. The property does not hold: for every array that has an element, and however its vector grows, there is an index with
which `c[i] = c[0]` is undefined if the right side is evaluated first, as it is since C++17, and `c[0] = c[i]` is undefined if
the left side is. -/
theorem C125_violated (g : Growth) (hg : g.Enough) (v : Vec F) (hv : v.elems.length ≤ v.cap) (hn : v.elems ≠ []) :
    ∃ i, (assignPart g .right (.index i) (.index 0) (.vec v)).1 = .error .ub ∧
      (assignPart g .left (.index 0) (.index i) (.vec v)).1 = .error .ub := by
  have hl : 0 < v.elems.length := List.length_pos_iff.2 hn
  have ht : v.touch g 0 = v := by unfold Vec.touch; rw [if_neg (by omega)]
  refine ⟨v.cap, (C125_copy_elements_partial g hg .right v.cap 0 (.vec v) trivial hv).2 ?_,
    (C125_copy_elements_partial g hg .left 0 v.cap (.vec v) trivial hv).2 ?_⟩ <;>
  · show capacity (access g (.index 0) (.vec v)).2 ≤ v.cap
    rw [access_vec, ht]
    exact Nat.le_refl _

/-- C125. Indices and keys do not go together: the exception of the access is thrown, in either order. -/
theorem C125_mixed (g : Growth) (first : Side) (i : Nat) (k : List Nat) (c : Held F) :
    (assignPart g first (.index i) (.key k) c).1 = .error (.exn .invalidKey) ∧
    (assignPart g first (.key k) (.index i) c).1 = .error (.exn .invalidKey) := by
  cases first <;> cases c with
  | vec v => exact ⟨rfl, rfl⟩
  | obj ms => exact ⟨rfl, rfl⟩
  | plain v => cases v <;> exact ⟨rfl, rfl⟩

/-- C125. `c.push_back(c[j])` on null or an array: the element is appended, whether or not the vector has to grow for it. -/
theorem C125_push_part (g : Growth) (j : Nat) (c : Held F) (h : Indexable c.content (.index j)) (hs : Sound c) :
    ∃ c' xs, pushPart g (.index j) c = (.ok (), c') ∧
      c'.content = .arr (xs ++ [(piece c.content (.index j)).getD .null]) ∧
      ∀ i, xs[i]? = (piece c.content (.index i)).or (if i ≤ j then some .null else none) := by
  refine ⟨.vec { ((vecOf c).touch g j).reserve g (((vecOf c).touch g j).elems.length + 1) with
    elems := ((vecOf c).touch g j).elems ++ [(piece c.content (.index j)).getD .null] }, ((vecOf c).touch g j).elems, ?_, rfl,
    fun i => ?_⟩
  rotate_left
  · rw [piece_index h hs, Vec.touch_get]
  · unfold pushPart
    rw [M.bind_ok (access_index g j c h hs), piece_index h hs]
    have hj : ((vecOf c).touch g j).elems[j]? = some (((vecOf c).elems[j]?).getD .null) := by
      rw [Vec.touch_get]; cases (vecOf c).elems[j]? <;> simp
    simp only [emplaceBack, loadPart, if_true, hj]

example : (pushPart doubling (.index 0) (.vec ⟨[.int 1, .int 2], 2, 0⟩ : Held Unit)).2.content = .arr [.int 1, .int 2, .int 1] := rfl

/-- C125. `c.push_back(c)` on an array appends what the array was before. -/
theorem C125_push_self (g : Growth) (v : Vec F) :
    ∃ c', pushSelf g (.vec v) = (.ok (), c') ∧ c'.content = .arr (v.elems ++ [.arr v.elems]) :=
  ⟨_, rfl, rfl⟩

/-- C125. On values that `c[…]` or `push_back` does not go with, the statements throw and leave the value as it was; `c.push_back(c[k])`
on an object throws too, but makes the member `k`. -/
theorem C125_wrong_kind (g : Growth) (c : Held F) (hs : Sound c) :
    (∀ x y first, ¬ Indexable c.content x → ¬ Indexable c.content y → assignPart g first x y c = (.error (.exn .invalidKey), c) ∧
      movePart g first x y c = (.error (.exn .invalidKey), c)) ∧
    (∀ x, ¬ Indexable c.content x → assignWhole g x c = (.error (.exn .invalidKey), c) ∧ pushPart g x c = (.error (.exn .invalidKey), c)) ∧
    (¬ Indexable c.content (.index 0) → pushSelf g c = (.error (.exn .typeError), c)) ∧
    (∀ ms k, c.content = .obj ms → ∃ d, pushPart g (.key k) c = (.error (.exn .typeError), d) ∧
      ∀ j, piece d.content (.key j) = (ms.lookup j).or (if j = k then some .null else none)) := by
  have bad : ∀ x, ¬ Indexable c.content x → access g x c = (.error (.exn .invalidKey), c) := by
    intro x hx
    cases c with
    | vec v =>
      cases x with
      | index i => exact absurd trivial hx
      | key k => rfl
    | obj ms =>
      cases x with
      | index i => rfl
      | key k => exact absurd trivial hx
    | plain v =>
      cases x <;> cases v <;> first | rfl | exact absurd trivial hx
  refine ⟨fun x y first hx hy => ?_, fun x hx => ?_, fun h => ?_, fun ms k e => ?_⟩
  · have hb : bothParts g first x y c = (.error (.exn .invalidKey), c) := by
      cases first
      · exact M.bind_error (bad x hx)
      · exact M.bind_error (bad y hy)
    exact ⟨M.bind_error hb, M.bind_error hb⟩
  · exact ⟨M.bind_error (bad x hx), M.bind_error (bad x hx)⟩
  · cases c with
    | vec v => exact absurd trivial h
    | obj ms => rfl
    | plain v => cases v <;> first | rfl | exact absurd trivial h
  · cases c with
    | vec v => cases e
    | plain v => have e : v = .obj ms := e; subst e; exact hs.elim
    | obj ns =>
      cases e
      exact ⟨_, rfl, fun j => emplace_lookup (m := ms) hs j⟩

example : Sound (.plain (.int 5) : Held Unit) ∧ ¬ Indexable (Held.content (.plain (.int 5) : Held Unit)) (.index 0) := ⟨trivial, fun h => h⟩

/-- C125. On null it does not append what the value was: it becomes `[[]]` and not `[null]`. -/
theorem C125_push_self_violated (g : Growth) :
    ∃ c' : Held F, pushSelf g (.plain .null) = (.ok (), c') ∧ c'.content = .arr [.arr []] ∧ c'.content ≠ .arr [.null] :=
  ⟨_, rfl, rfl, by simp [Held.content]⟩

/-- C125. `c[k] = c` gives the member `k` the object as it is after the member `k` was made: with a member that was there, the
content that `c` had; otherwise that content with a null member `k`, and not the content that `c` had. -/
theorem C125_whole_partial (g : Growth) (k : List Nat) (ms : Map.T (Value F)) (hs : Sound (.obj ms)) :
    ∃ ns c', assignWhole g (.key k) (.obj ms) = (.ok (), c') ∧ piece c'.content (.key k) = some (.obj ns) ∧
      (∀ j, ns.lookup j = (ms.lookup j).or (if j = k then some .null else none)) ∧
      (∀ j, j ≠ k → piece c'.content (.key j) = ms.lookup j) ∧
      (ms.lookup k ≠ none → ∀ j, ns.lookup j = ms.lookup j) ∧ (ms.lookup k = none → ns ≠ ms) := by
  have hm : Sorted ms := hs
  have he := emplace_sorted (k := k) (v := (.null : Value F)) hm
  have hl : ∀ j, (Map.emplace k .null ms).lookup j = (ms.lookup j).or (if j = k then some (.null : Value F) else none) :=
    fun j => emplace_lookup hm j
  obtain ⟨u, hu⟩ : ∃ u, (Map.emplace k .null ms).lookup k = some u := by
    rw [hl]; cases ms.lookup k <;> simp
  refine ⟨Map.emplace k .null ms, .obj (Map.assign k (.obj (Map.emplace k .null ms)) (Map.emplace k .null ms)), ?_, ?_, hl, ?_, ?_, ?_⟩
  · unfold assignWhole
    rw [M.bind_ok (access_obj g k ms)]
    unfold copyTo
    rw [if_neg (by simp)]
    rw [M.bind_ok (show loadPart .whole (.obj (Map.emplace k .null ms)) = (.ok (.obj (Map.emplace k .null ms)), _) from rfl)]
    simp only [storePart, find_lookup he, hu, Option.isSome_some, if_true]
  · show (Map.assign _ _ _).lookup k = _
    rw [assign_lookup he, if_pos ⟨rfl, by simp [hu]⟩]
  · intro j hj
    show (Map.assign _ _ _).lookup j = _
    rw [assign_lookup he, if_neg (fun e => hj e.1), hl, if_neg hj, Option.or_none]
  · intro hk j
    rw [hl]
    by_cases e : j = k
    · subst e
      cases hj : ms.lookup j with
      | none => exact absurd hj hk
      | some _ => rfl
    · rw [if_neg e, Option.or_none]
  · intro hk e
    have := hl k
    rw [e, hk] at this
    simp at this

example : (assignWhole doubling (.key [2]) (.obj [([1], .int 5)] : Held Unit)).2.content =
    .obj [([1], .int 5), ([2], .obj [([1], .int 5), ([2], .null)])] := rfl

end Configor.Props
