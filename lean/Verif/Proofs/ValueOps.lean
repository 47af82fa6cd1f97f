import Verif.Proofs.Map
/-! Operations of a value. -/
namespace Configor
open Spec ValueOps

variable {F α : Type}

/-! ## Growing -/

/-- The vector with enough nulls behind it to have an element `i`. -/
def pad (xs : List (Value F)) (i : Nat) : List (Value F) := xs ++ List.replicate (i + 1 - xs.length) .null

theorem pad_length (xs : List (Value F)) (i : Nat) : (pad xs i).length = max xs.length (i + 1) := by
  simp [pad]; omega

theorem pad_get (xs : List (Value F)) (i j : Nat) :
    (pad xs i)[j]? = if j < max xs.length (i + 1) then some (xs[j]?.getD .null) else none := by
  unfold pad
  rw [List.getElem?_append]
  by_cases h : j < xs.length
  · rw [if_pos h, if_pos (by omega), List.getElem?_eq_getElem h]; rfl
  · rw [if_neg h, List.getElem?_replicate, List.getElem?_eq_none (by omega : xs.length ≤ j)]
    by_cases h' : j < max xs.length (i + 1)
    · rw [if_pos h', if_pos (by omega)]; rfl
    · rw [if_neg h', if_neg (by omega)]

theorem pad_at (xs : List (Value F)) (i : Nat) : (pad xs i)[i]? = some (xs[i]?.getD .null) := by
  rw [pad_get, if_pos (by omega)]

theorem growTo_eq {i : Nat} (hi : i < vectorMax) (f : V F α) (xs : List (Value F)) :
    growTo i f xs = ((f (xs[i]?.getD .null)).1, .arr ((pad xs i).set i (f (xs[i]?.getD .null)).2)) := by
  unfold growTo
  have e : i ≥ xs.length → (i - xs.length + 1) % sizeRange = i + 1 - xs.length := by
    intro h
    rw [Nat.mod_eq_of_lt]
    · omega
    · have : vectorMax < sizeRange := by decide
      omega
  split
  · rename_i h
    rw [e h, if_neg (by omega)]
    show onElem i f (pad xs i) = _
    unfold onElem
    rw [pad_at]
  · rename_i h
    have : pad xs i = xs := by
      unfold pad
      rw [Nat.sub_eq_zero_of_le (by omega)]; simp
    rw [this]
    unfold onElem
    rw [List.getElem?_eq_getElem (by omega)]
    rfl

theorem setAt_eq (xs : List (Value F)) (i : Nat) (x : Value F) : (pad xs i).set i x = setAt xs i x := by
  apply List.ext_getElem?
  intro j
  unfold setAt
  rw [List.getElem?_set, List.getElem?_map, pad_length, pad_get]
  by_cases h : j < max xs.length (i + 1)
  · rw [List.getElem?_range h]
    by_cases hj : i = j
    · subst hj
      rw [if_pos rfl, if_pos h]; simp
    · have hj' : ¬ j = i := fun h => hj h.symm
      rw [if_neg hj, if_pos h]; simp [hj']
  · have : (List.range (max xs.length (i + 1)))[j]? = none := List.getElem?_eq_none (by simpa using h)
    rw [if_neg (by omega), if_neg h, this]; rfl

theorem withIndex_arr {i : Nat} (hi : i < vectorMax) (f : V F α) (xs : List (Value F)) :
    withIndex i f (.arr xs) = ((f (xs[i]?.getD .null)).1, .arr (setAt xs i (f (xs[i]?.getD .null)).2)) := by
  rw [← setAt_eq]; exact growTo_eq hi f xs

theorem withIndex_null {i : Nat} (hi : i < vectorMax) (f : V F α) :
    withIndex i f .null = ((f .null).1, .arr (setAt [] i (f .null).2)) := by
  rw [← setAt_eq]; exact growTo_eq hi f []

theorem setAt_get (xs : List (Value F)) (i : Nat) (x : Value F) (j : Nat) :
    (setAt xs i x)[j]? = if j = i then some x else if j < max xs.length (i + 1) then some (xs[j]?.getD .null) else none := by
  rw [← setAt_eq, List.getElem?_set, pad_length, pad_get]
  by_cases hj : i = j
  · subst hj
    rw [if_pos rfl, if_pos (by omega), if_pos rfl]
  · have hj' : ¬ j = i := fun h => hj h.symm
    rw [if_neg hj, if_neg hj']

theorem setAt_length (xs : List (Value F)) (i : Nat) (x : Value F) : (setAt xs i x).length = max xs.length (i + 1) := by
  simp [setAt]

/-! ## Members -/

theorem onMember_eq {ms : Map.T (Value F)} {k : List Nat} {x : Value F} (hm : Sorted ms) (h : ms.lookup k = some x) (f : V F α) :
    onMember k f ms = ((f x).1, .obj (Map.assign k (f x).2 ms)) := by
  unfold onMember
  rw [find_lookup hm, h]

theorem emplace_present {ms : Map.T (Value F)} (hm : Sorted ms) (k : List Nat) :
    (Map.emplace k .null ms).lookup k = some ((ms.lookup k).getD .null) := by
  rw [emplace_lookup hm]
  cases ms.lookup k <;> simp

/-- The members after `c[k]` and a change of the result to `y`. -/
def put (k : List Nat) (y : Value F) (ms : Map.T (Value F)) : Map.T (Value F) :=
  Map.assign k y (Map.emplace k .null ms)

theorem put_sorted {ms : Map.T (Value F)} (hm : Sorted ms) {k : List Nat} {y : Value F} : Sorted (put k y ms) :=
  assign_sorted (emplace_sorted hm)

theorem put_lookup {ms : Map.T (Value F)} (hm : Sorted ms) (k : List Nat) (y : Value F) (j : List Nat) :
    (put k y ms).lookup j = if j = k then some y else ms.lookup j := by
  unfold put
  rw [assign_lookup (emplace_sorted hm), emplace_present hm]
  by_cases hj : j = k
  · simp [hj]
  · simp only [hj, false_and, if_neg, not_false_eq_true]
    rw [emplace_lookup hm, if_neg hj]; simp

theorem withKey_obj {ms : Map.T (Value F)} (hm : Sorted ms) (k : List Nat) (f : V F α) :
    withKey k f (.obj ms) = ((f ((ms.lookup k).getD .null)).1, .obj (put k (f ((ms.lookup k).getD .null)).2 ms)) :=
  onMember_eq (emplace_sorted hm) (emplace_present hm k) f

theorem withKey_null (k : List Nat) (f : V F α) :
    withKey k f .null = ((f .null).1, .obj (put k (f .null).2 [])) :=
  withKey_obj (ms := []) (by simp [Sorted]) k f

theorem atKey_some {ms : Map.T (Value F)} (hm : Sorted ms) {k : List Nat} {x : Value F} (h : ms.lookup k = some x) (f : V F α) :
    atKey k f (.obj ms) = ((f x).1, .obj (Map.assign k (f x).2 ms)) := by
  show (if _ then _ else _) = _
  rw [find_lookup hm, h, if_neg (by simp)]
  exact onMember_eq hm h f

theorem atKey_none {ms : Map.T (Value F)} (hm : Sorted ms) {k : List Nat} (h : ms.lookup k = none) (f : V F α) :
    atKey k f (.obj ms) = (.error (.exn .outOfRange), .obj ms) := by
  show (if _ then _ else _) = _
  rw [find_lookup hm, h, if_pos (by simp)]

theorem assign_same {ms : Map.T (Value F)} (hm : Sorted ms) {k : List Nat} {x : Value F} (h : ms.lookup k = some x) :
    Map.assign k x ms = ms := by
  apply sorted_ext (assign_sorted hm) hm
  intro j
  rw [assign_lookup hm]
  split
  · rename_i hj; rw [hj.1, h]
  · rfl

theorem atKey_read {ms : Map.T (Value F)} (hm : Sorted ms) {k : List Nat} {x : Value F} (h : ms.lookup k = some x) :
    atKey k read (.obj ms) = (.ok x, .obj ms) := by
  rw [atKey_some hm h]
  show (_, Value.obj (Map.assign k x ms)) = _
  rw [assign_same hm h]; rfl

theorem atIndex_read {xs : List (Value F)} {i : Nat} {x : Value F} (h : xs[i]? = some x) :
    atIndex i read (.arr xs) = (.ok x, .arr xs) := by
  obtain ⟨hi, rfl⟩ := List.getElem?_eq_some_iff.1 h
  show (if _ then _ else _) = _
  rw [if_neg (by omega)]
  unfold onElem
  rw [h]
  show (_, Value.arr (xs.set i xs[i])) = _
  rw [List.set_getElem_self]; rfl

theorem count_eq {ms : Map.T (Value F)} (hm : Sorted ms) (k : List Nat) :
    (Value.obj ms).count k = if (ms.lookup k).isSome then 1 else 0 := by
  show (if _ then _ else _) = _
  rw [find_lookup hm]

/-! ## Sorted keys are preserved -/

theorem onElem_sorted {xs : List (Value F)} {f : V F α} (hx : ∀ x ∈ xs, KeysSorted x) (hf : ∀ x, KeysSorted x → KeysSorted (f x).2)
    (i : Nat) : KeysSorted (onElem i f xs).2 := by
  unfold onElem
  split
  · exact sorted_arr.2 hx
  · rename_i x h
    refine sorted_arr.2 fun y hy => ?_
    rcases List.mem_or_eq_of_mem_set hy with h' | rfl
    · exact hx y h'
    · exact hf x (hx x (List.mem_of_getElem? h))

theorem null_sorted : KeysSorted (.null : Value F) := sorted_scalar (by simp [Value.type]) (by simp [Value.type])

theorem growTo_sorted {xs : List (Value F)} {f : V F α} (hx : ∀ x ∈ xs, KeysSorted x) (hf : ∀ x, KeysSorted x → KeysSorted (f x).2)
    (i : Nat) : KeysSorted (growTo i f xs).2 := by
  unfold growTo
  split
  · split
    · exact sorted_arr.2 hx
    · refine onElem_sorted (fun x h => ?_) hf i
      rcases List.mem_append.1 h with h | h
      · exact hx x h
      · rw [(List.mem_replicate.1 h).2]; exact null_sorted
  · exact onElem_sorted hx hf i

theorem onMember_sorted {ms : Map.T (Value F)} {f : V F α} (hx : KeysSorted (.obj ms)) (hf : ∀ x, KeysSorted x → KeysSorted (f x).2)
    (k : List Nat) : KeysSorted (onMember k f ms).2 := by
  have hs := sorted_obj.1 hx
  unfold onMember
  split
  · exact hx
  · rename_i x h
    rw [find_lookup hs.1] at h
    refine sorted_obj.2 ⟨assign_sorted hs.1, fun m hm => ?_⟩
    rcases assign_mem hm with h' | h'
    · rw [h']; exact hf x (hs.2 _ (lookup_mem h))
    · exact hs.2 m h'

theorem emplace_keysSorted {ms : Map.T (Value F)} (hx : KeysSorted (.obj ms)) {x : Value F} (h : KeysSorted x) (k : List Nat) :
    KeysSorted (.obj (Map.emplace k x ms)) := by
  have hs := sorted_obj.1 hx
  refine sorted_obj.2 ⟨emplace_sorted hs.1, fun m hm => ?_⟩
  rcases emplace_mem hm with rfl | h'
  · exact h
  · exact hs.2 m h'

theorem sublist_sorted_obj {ms ns : Map.T (Value F)} (hx : KeysSorted (.obj ms)) (h : ns.Sublist ms) : KeysSorted (.obj ns) := by
  have hs := sorted_obj.1 hx
  exact sorted_obj.2 ⟨List.Pairwise.sublist h hs.1, fun m hm => hs.2 m (h.subset hm)⟩

theorem sublist_sorted_arr {ms ns : List (Value F)} (hx : KeysSorted (.arr ms)) (h : ns.Sublist ms) : KeysSorted (.arr ns) := by
  have hs := sorted_arr.1 hx
  exact sorted_arr.2 fun m hm => hs m (h.subset hm)

theorem takeDrop_sub {β : Type} (l : List β) {p q : Nat} (h : p ≤ q) : (l.take p ++ l.drop q).Sublist l := by
  have : (l.drop q).Sublist (l.drop p) := by
    have : l.drop q = (l.drop p).drop (q - p) := by rw [List.drop_drop]; congr 1; omega
    rw [this]; exact List.drop_sublist _ _
  have h2 := (List.Sublist.refl (l.take p)).append this
  rwa [List.take_append_drop] at h2

theorem drop_snd {m : V F α} (v : Value F) : (Spec.drop m v).2 = (m v).2 := by
  unfold Spec.drop
  rcases m v with ⟨_ | _, _⟩ <;> rfl

theorem eraseIter_sorted {v : Value F} (hv : KeysSorted v) (a : Nat) (pos : Iter) : KeysSorted (eraseIter a pos v).2 := by
  unfold eraseIter
  split
  · exact hv
  · split
    · split
      · split
        · exact sublist_sorted_obj hv (List.eraseIdx_sublist _ _)
        · exact hv
      · exact hv
    · split
      · split
        · exact sublist_sorted_arr hv (List.eraseIdx_sublist _ _)
        · exact hv
      · exact hv
    · exact hv

theorem eraseRange_sorted {v : Value F} (hv : KeysSorted v) (a : Nat) (p q : Iter) : KeysSorted (eraseRange a p q v).2 := by
  unfold eraseRange
  split
  · exact hv
  · split
    · split
      · split
        · rename_i h; exact sublist_sorted_obj hv (takeDrop_sub _ h.2.2.1)
        · exact hv
      · exact hv
    · split
      · split
        · rename_i h; exact sublist_sorted_arr hv (takeDrop_sub _ h.2.2.1)
        · exact hv
      · exact hv
    · exact hv

theorem change_sorted (fo : FloatOps F) (m : Change F) (hx : ∀ x ∈ m.values, KeysSorted x) :
    ∀ v, KeysSorted v → KeysSorted (m.run fo v).2 := by
  induction m with
  | assign x => intro v _; exact hx x (by simp [Change.values])
  | index i m ih =>
    intro v hv
    cases v with
    | null => exact growTo_sorted (by simp) (ih hx) i
    | arr xs => exact growTo_sorted (sorted_arr.1 hv) (ih hx) i
    | _ => exact hv
  | key k m ih =>
    intro v hv
    cases v with
    | null => exact onMember_sorted (emplace_keysSorted (sorted_obj.2 ⟨by simp [Sorted], by simp⟩) null_sorted k) (ih hx) k
    | obj ms => exact onMember_sorted (emplace_keysSorted hv null_sorted k) (ih hx) k
    | _ => exact hv
  | atIndex i m ih =>
    intro v hv
    cases v with
    | arr xs =>
      show KeysSorted (if _ then _ else _ : _ × _).2
      split
      · exact hv
      · exact onElem_sorted (sorted_arr.1 hv) (ih hx) i
    | _ => exact hv
  | atKey k m ih =>
    intro v hv
    cases v with
    | obj xs =>
      show KeysSorted (if _ then _ else _ : _ × _).2
      split
      · exact hv
      · exact onMember_sorted hv (ih hx) k
    | _ => exact hv
  | push x =>
    intro v hv
    have := hx x (by simp [Change.values])
    cases v with
    | null => exact sorted_arr.2 (by simpa using this)
    | arr xs =>
      refine sorted_arr.2 fun y hy => ?_
      rcases List.mem_append.1 hy with h | h
      · exact sorted_arr.1 hv y h
      · rw [List.mem_singleton.1 h]; exact this
    | _ => exact hv
  | eraseKey k =>
    intro v hv
    show KeysSorted (Spec.drop _ v).2
    rw [drop_snd]
    cases v with
    | obj ms => exact sublist_sorted_obj hv (erase_sub k)
    | _ => exact hv
  | eraseIndex i =>
    intro v hv
    cases v with
    | arr xs =>
      show KeysSorted (if _ then _ else _ : _ × _).2
      split
      · exact sublist_sorted_arr hv (List.eraseIdx_sublist _ _)
      · exact hv
    | _ => exact hv
  | erase a pos =>
    intro v hv
    show KeysSorted (Spec.drop _ v).2
    rw [drop_snd]
    exact eraseIter_sorted hv a pos
  | eraseRange a p q =>
    intro v hv
    show KeysSorted (Spec.drop _ v).2
    rw [drop_snd]
    exact eraseRange_sorted hv a p q
  | clear =>
    intro v hv
    cases v with
    | arr xs => exact sorted_arr.2 (by simp)
    | obj xs => exact sorted_obj.2 ⟨by simp [Sorted], by simp⟩
    | _ => exact sorted_scalar (by simp [Change.run, ValueOps.clear, Value.type]) (by simp [Change.run, ValueOps.clear, Value.type])

/-! ## Objects are maps, arrays are lists -/

theorem represents_obj {ms : Map.T (Value F)} (hm : Sorted ms) : Represents (.obj ms) (fun k => ms.lookup k) where
  object := rfl
  present := fun k x h => ⟨atKey_read hm h, by rw [count_eq hm, h]; rfl⟩
  absent := fun k h => ⟨atKey_none hm h _, by rw [count_eq hm, h]; rfl⟩
  size := ⟨ms.map Prod.fst, sorted_nodup hm, fun k => (lookup_keys k).symm, by simp [Value.size]⟩

theorem mapOp_run (fo : FloatOps F) (op : MapOp F) {ms : Map.T (Value F)} (hm : Sorted ms) :
    ∃ ns, op.run fo (.obj ms) = (.ok (), .obj ns) ∧ Sorted ns ∧ (fun k => ns.lookup k) = op.apply fun k => ms.lookup k := by
  cases op with
  | set k v =>
    refine ⟨put k v ms, withKey_obj hm k _, put_sorted hm, ?_⟩
    funext j
    exact put_lookup hm k v j
  | erase k => exact ⟨Map.erase k ms, rfl, erase_sorted hm, by funext j; exact erase_lookup hm j⟩
  | clear => exact ⟨[], rfl, by simp [Sorted], rfl⟩

theorem mapOps_run (fo : FloatOps F) (ops : List (MapOp F)) {ms : Map.T (Value F)} (hm : Sorted ms) :
    ∃ ns, inOrder (ops.map (MapOp.run fo)) (.obj ms) = (.ok (), .obj ns) ∧ Sorted ns ∧
      (fun k => ns.lookup k) = ops.foldl MapOp.apply fun k => ms.lookup k := by
  induction ops generalizing ms with
  | nil => exact ⟨ms, rfl, hm, rfl⟩
  | cons op ops ih =>
    obtain ⟨ns, h1, h2, h3⟩ := mapOp_run fo op hm
    obtain ⟨os, h4, h5, h6⟩ := ih h2
    refine ⟨os, ?_, h5, ?_⟩
    · show inOrder (op.run fo :: _) _ = _
      unfold inOrder
      rw [h1]
      exact h4
    · rw [h6, List.foldl_cons, h3]

theorem seqOp_run (fo : FloatOps F) (op : SeqOp F) {xs : List (Value F)} (h : op.Allowed xs) :
    op.run fo (.arr xs) = (.ok (), .arr (op.apply xs)) := by
  cases op with
  | push x => rfl
  | set i x => exact withIndex_arr h _ xs
  | erase i =>
    have h : i < xs.length := h
    show (if _ then _ else _) = _
    rw [if_pos h]
    simp [SeqOp.apply, List.eraseIdx_eq_take_drop_succ]
  | clear => rfl

theorem seqOps_run (fo : FloatOps F) (ops : List (SeqOp F)) {xs : List (Value F)} (h : AllAllowed xs ops) :
    inOrder (ops.map (SeqOp.run fo)) (.arr xs) = (.ok (), .arr (ops.foldl SeqOp.apply xs)) := by
  induction ops generalizing xs with
  | nil => rfl
  | cons op ops ih =>
    show inOrder (op.run fo :: _) _ = _
    unfold inOrder
    rw [seqOp_run fo op h.1]
    exact ih h.2

end Configor
