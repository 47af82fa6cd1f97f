import Verif.Proofs.Live
/-! What changes do to iterators, and loops that change what they go through. -/
namespace Configor
open Spec

variable {F : Type}

/-! ## The content -/

theorem act_content (fo : FloatOps F) (g : Growth) {c : Live F} (hc : LiveOk c) {ch : Edit F} (hu : Usual ch) :
    (Live.act fo g ch c).1 = (effect fo ch c.content).1 ∧ (Live.act fo g ch c).2.content = (effect fo ch c.content).2 := by
  have elem : ∀ i (n : Nat) (x : Value F) (xs : List (Value F)) marks cap, i < vectorMax → LiveOk ⟨n, .vec xs marks cap⟩ →
      (Live.putElem g i n x xs marks cap).1 = (ValueOps.growTo i (ValueOps.assign x) xs).1 ∧
      (Live.putElem g i n x xs marks cap).2.content = (ValueOps.growTo i (ValueOps.assign x) xs).2 := by
    intro i n x xs marks cap hi ok
    obtain ⟨n', ys, marks', cap', _, _, e, _, hy⟩ := putElem_eq g i x ok
    rw [e]
    unfold ValueOps.growTo
    split
    · rename_i h
      rw [if_pos h] at hy
      have h1 : i - xs.length + 1 ≤ vectorMax - xs.length := by omega
      have h2 : (i - xs.length + 1) % sizeRange = i - xs.length + 1 := Nat.mod_eq_of_lt (by unfold sizeRange; unfold vectorMax at hi; omega)
      rw [h2, if_neg (by omega), ← hy]
      unfold ValueOps.onElem
      have hl : i < ys.length := by rw [hy]; simp; omega
      rw [List.getElem?_eq_getElem hl]
      exact ⟨rfl, rfl⟩
    · rename_i h
      rw [if_neg h] at hy
      rw [← hy]
      unfold ValueOps.onElem
      have hl : i < ys.length := by rw [hy]; omega
      rw [List.getElem?_eq_getElem hl]
      exact ⟨rfl, rfl⟩
  have member : ∀ (n home : Nat) k (x : Value F) (ms : Map.T (Nat × Value F)), Sorted ms →
      (Live.putMember n home k x ms).1 = (ValueOps.onMember k (ValueOps.assign x) (Map.emplace k .null (strip ms))).1 ∧
      (Live.putMember n home k x ms).2.content = (ValueOps.onMember k (ValueOps.assign x) (Map.emplace k .null (strip ms))).2 := by
    intro n home k x ms hs
    obtain ⟨id, ms', e, hs', hl, _, hy⟩ := putMember_eq n home k x hs
    rw [e]
    unfold ValueOps.onMember
    have hf : Map.find k (Map.emplace k .null (strip ms)) ≠ none := by
      rw [find_lookup (emplace_sorted (strip_sorted hs)), emplace_lookup (strip_sorted hs)]
      simp
    cases h : Map.find k (Map.emplace k .null (strip ms)) with
    | none => exact absurd h hf
    | some y => exact ⟨rfl, by show Value.obj (strip ms') = _; rw [hy]; rfl⟩
  obtain ⟨n, sh⟩ := c
  have fresh : ∀ (x : Value F) spare, (Live.fresh n spare x).content = x := by
    intro x spare
    cases x with
    | obj ms => show Value.obj (strip (Live.number _ _)) = _; rw [number_strip]
    | _ => rfl
  cases sh with
  | vec xs marks cap =>
    cases ch with
    | setAt i x => exact elem i n x xs marks cap hu.1 hc
    | push x => exact ⟨rfl, append_content _ _ _ _ _ _⟩
    | eraseAt i =>
      by_cases hi : i < xs.length <;> simp [Live.act, effect, ValueOps.eraseIndex, Live.content, Live.vecErase, hi]
    | assign x spare => exact ⟨rfl, fresh x spare⟩
    | _ => exact ⟨rfl, rfl⟩
  | map home ms =>
    cases ch with
    | put k x => exact member n home k x ms hc.2.1
    | eraseKey k => exact ⟨rfl, by show Value.obj (strip _) = .obj (Map.erase k (strip ms)); rw [strip_erase]⟩
    | assign x spare => exact ⟨rfl, fresh x spare⟩
    | _ => exact ⟨rfl, rfl⟩
  | plain v =>
    have hnil : LiveOk (⟨n + 1, .vec [] [n] 0⟩ : Live F) := ⟨rfl, by intro m hm; rw [List.mem_singleton.1 hm]; exact Nat.lt_succ_self n⟩
    obtain ⟨h1, h2⟩ := hc
    cases ch with
    | put k x =>
      cases v with
      | null => exact member (n + 1) n k x [] .nil
      | arr => exact absurd rfl h1
      | obj => exact absurd rfl h2
      | _ => exact ⟨rfl, rfl⟩
    | setAt i x =>
      cases v with
      | null => exact elem i (n + 1) x [] [n] 0 hu.1 hnil
      | arr => exact absurd rfl h1
      | obj => exact absurd rfl h2
      | _ => exact ⟨rfl, rfl⟩
    | push x =>
      cases v with
      | null => exact ⟨rfl, append_content g (n + 1) [] [n] 0 [x]⟩
      | arr => exact absurd rfl h1
      | obj => exact absurd rfl h2
      | _ => exact ⟨rfl, rfl⟩
    | assign x spare => exact ⟨rfl, fresh x spare⟩
    | clear =>
      cases v with
      | arr => exact absurd rfl h1
      | obj => exact absurd rfl h2
      | _ => exact ⟨rfl, rfl⟩
    | _ =>
      cases v with
      | arr => exact absurd rfl h1
      | obj => exact absurd rfl h2
      | _ => exact ⟨rfl, rfl⟩

/-! ## Iterators that were given up -/

theorem useless_of {c : Live F} {it : LIter} (h : c.resolve it = .error .ub) : Useless c it := by
  have hp : ∀ v, c.shape ≠ .plain v := by
    intro v e
    obtain ⟨n, sh⟩ := c
    cases e
    cases h
  refine ⟨?_, ?_, ?_, fun jt => ?_, ?_, fun x => ?_, ?_, fun ha off => ?_, fun ha jt => ?_, fun jt => ?_, fun jt => ?_⟩
  · unfold Live.deref; rw [h]; rfl
  · unfold Live.key; rw [h]; rfl
  · unfold Live.incr; rw [h]; rfl
  · unfold Live.ne; rw [h]; rfl
  · unfold Live.erase; rw [h]
  · unfold Live.store; rw [h]
  · unfold Live.decr; rw [h]; rfl
  · unfold Live.plus
    split
    · rename_i e
      obtain ⟨n, sh⟩ := c
      cases e
      cases ha
    · rw [h]; rfl
  · constructor
    · unfold Live.diff
      split
      · rw [h]; rfl
      · rename_i e
        obtain ⟨n, sh⟩ := c
        cases sh with
        | vec xs marks cap => exact absurd rfl (e xs marks cap)
        | map home ms => cases ha
        | plain v => exact absurd rfl (hp v)
    · unfold Live.lt
      split
      · rename_i e
        obtain ⟨n, sh⟩ := c
        cases e
        cases ha
      · rw [h]; rfl
  · unfold Live.eraseRange
    split
    · rename_i v e; exact absurd e (hp v)
    · rw [h]
    · rw [h]
  · unfold Live.eraseRange
    split
    · rename_i v e; exact absurd e (hp v)
    · rw [h]; split
      · rename_i e; cases e
      · rfl
    · rw [h]; split
      · rename_i e; cases e
      · rfl

theorem useless_vec {n : Nat} {xs : List (Value F)} {marks : List Nat} {cap p m : Nat} {it : LIter} (hi : it.arr = some (p, m))
    (h : marks[p]? ≠ some m) : Useless ⟨n, .vec xs marks cap⟩ it := by
  apply useless_of
  simp only [Live.resolve, hi]
  rw [if_neg h]

theorem useless_node {n home : Nat} {ms : Map.T (Nat × Value F)} {id : Nat} {it : LIter} (hi : it.obj = some (.node id))
    (h : ∀ a ∈ ms, a.2.1 ≠ id) : Useless ⟨n, .map home ms⟩ it := by
  apply useless_of
  simp only [Live.resolve, hi]
  have : ms.findIdx? (fun m => m.2.1 == id) = none := by
    rw [List.findIdx?_eq_none_iff]
    intro a ha
    have := h a ha
    simpa using this
  rw [this]

theorem useless_past {n home h : Nat} {ms : Map.T (Nat × Value F)} {it : LIter} (hi : it.obj = some (.past h)) (hh : h ≠ home) :
    Useless ⟨n, .map home ms⟩ it := by
  apply useless_of
  simp only [Live.resolve, hi]
  rw [if_neg hh]

/-! ## Arrays -/

theorem all_new {n q m k : Nat} (hm : m < n) : (List.replicate k n)[q]? ≠ some m := by
  intro h
  have := List.eq_of_mem_replicate (List.mem_of_getElem? h)
  omega

theorem new_mark {n q m k : Nat} {l : List Nat} (hm : m < n) (hl : l.length ≤ q) : (l ++ List.replicate k n)[q]? ≠ some m := by
  rw [List.getElem?_append_right hl]
  intro h
  have := List.eq_of_mem_replicate (List.mem_of_getElem? h)
  omega

theorem old_mark {n p k m i : Nat} {marks : List Nat} (h : marks[p]? = some m) (hp : p < i) :
    (marks.take i ++ List.replicate k n)[p]? = some m := by
  have hl := (List.getElem?_eq_some_iff.1 h).1
  rw [List.getElem?_append_left (by simp; omega), List.getElem?_take_of_lt hp]
  exact h

theorem append_iter (g : Growth) {n : Nat} {xs : List (Value F)} {marks : List Nat} {cap p : Nat} {it : LIter} (hc : LiveOk ⟨n, .vec xs marks cap⟩)
    (hi : PointsAt ⟨n, .vec xs marks cap⟩ p it) (ys : List (Value F)) :
    (¬ (cap < xs.length + ys.length ∨ p = xs.length) → PointsAt (Live.append g n xs marks cap ys) p it ∧ (Live.append g n xs marks cap ys).capacity = cap) ∧
    ((cap < xs.length + ys.length ∨ p = xs.length) → Useless (Live.append g n xs marks cap ys) it) := by
  obtain ⟨m, h1, h2⟩ := (at_vec hc).1 hi
  have hp := (List.getElem?_eq_some_iff.1 h2).1
  have hl : marks.length = xs.length + 1 := hc.1
  have hm : m < n := hc.2 m (List.mem_of_getElem? h2)
  have ok := append_ok g hc ys
  unfold Live.append at ok ⊢
  split
  · rename_i hf
    rw [if_pos hf] at ok
    refine ⟨fun h => ?_, fun h => ?_⟩
    · exact ⟨(at_vec ok).2 ⟨m, h1, old_mark h2 (by omega)⟩, rfl⟩
    · rcases h with h | h
      · omega
      · exact useless_vec h1 (new_mark hm (by simp; omega))
  · rename_i hf
    refine ⟨fun h => absurd (Or.inl (by omega)) h, fun _ => ?_⟩
    exact useless_vec h1 (all_new hm)

theorem points_set {n : Nat} {xs ys : List (Value F)} {marks : List Nat} {cap p : Nat} {it : LIter} (hl : ys.length = xs.length)
    (hi : PointsAt ⟨n, .vec xs marks cap⟩ p it) : PointsAt ⟨n, .vec ys marks cap⟩ p it := by
  obtain ⟨i, h1, h2⟩ := hi
  refine ⟨i, h1, h2.1, ?_, h2.2.2⟩
  have := h2.2.1
  rw [elements_length] at this ⊢
  show p ≤ ys.length
  rw [hl]; exact this

theorem useless_resolve {n : Nat} {xs : List (Value F)} {marks : List Nat} {cap : Nat} {it : LIter}
    (hi : Useless ⟨n, .vec xs marks cap⟩ it) : (⟨n, .vec xs marks cap⟩ : Live F).resolve it = .error .ub := by
  have h := hi.ne it
  unfold Live.ne at h
  cases hr : (⟨n, .vec xs marks cap⟩ : Live F).resolve it with
  | error e =>
    rw [hr] at h
    simpa [bind, Except.bind] using h
  | ok i =>
    rw [hr] at h
    simp only [Live.resolve] at hr
    split at hr
    · split at hr
      · cases hr
        exact absurd h (by simp [bind, Except.bind, Iter.ne, Iter.eq, Iter.sameIt, Live.content])
      · cases hr
    · cases hr

theorem useless_set {n : Nat} {xs ys : List (Value F)} {marks : List Nat} {cap : Nat} {it : LIter}
    (hi : Useless ⟨n, .vec xs marks cap⟩ it) : Useless ⟨n, .vec ys marks cap⟩ it := by
  have := useless_resolve hi
  exact useless_of this

theorem ne_useless {n : Nat} {xs : List (Value F)} {marks : List Nat} {cap : Nat} {it : LIter}
    (hi : Useless ⟨n, .vec xs marks cap⟩ it) (jt : LIter) : (⟨n, .vec xs marks cap⟩ : Live F).ne jt it = .error .ub := by
  unfold Live.ne
  rw [useless_resolve hi]
  simp only [Live.resolve]
  split
  · split <;> rfl
  · rfl

/-- What a change does to an iterator of an array. -/
theorem array_step (fo : FloatOps F) (g : Growth) {n : Nat} {xs : List (Value F)} {marks : List Nat} {cap p : Nat} {it : LIter}
    (hc : LiveOk ⟨n, .vec xs marks cap⟩) (hi : PointsAt ⟨n, .vec xs marks cap⟩ p it) {ch : Edit F} {r : Except Stop Unit} {d : Live F}
    (e : Live.act fo g ch ⟨n, .vec xs marks cap⟩ = (r, d)) (hr : r ≠ .error .ub) {ys : List (Value F)} (hd : d.content = .arr ys) :
    (¬ DropsAt ⟨n, .vec xs marks cap⟩ p ch → PointsAt d p it ∧ d.capacity = cap) ∧
    (DropsAt ⟨n, .vec xs marks cap⟩ p ch → Useless d it) := by
  obtain ⟨m, h1, h2⟩ := (at_vec hc).1 hi
  have hp := (List.getElem?_eq_some_iff.1 h2).1
  have hl : marks.length = xs.length + 1 := hc.1
  have hm : m < n := hc.2 m (List.mem_of_getElem? h2)
  cases ch with
  | put k x => cases e; exact ⟨fun _ => ⟨hi, rfl⟩, fun h => h.elim⟩
  | eraseKey k => cases e; exact ⟨fun _ => ⟨hi, rfl⟩, fun h => h.elim⟩
  | push x => cases e; exact append_iter g hc hi [x]
  | setAt i x =>
    obtain ⟨n', zs, marks', cap', ht, _, e', ok, _⟩ := putElem_eq g i x hc
    have e : Live.putElem g i n x xs marks cap = (r, d) := e
    rw [e'] at e
    cases e
    by_cases hx : xs.length ≤ i
    · have hA := append_iter g hc hi (List.replicate (i - xs.length + 1) .null)
      unfold Live.touch at ht
      rw [if_pos hx] at ht
      rw [ht] at hA
      have hlen : xs.length + (List.replicate (i - xs.length + 1) (Value.null : Value F)).length = i + 1 := by simp; omega
      rw [hlen] at hA
      refine ⟨fun h => ?_, fun h => ?_⟩
      · obtain ⟨a, b⟩ := hA.1 (fun h' => h ⟨hx, h'⟩)
        exact ⟨points_set (by simp) a, b⟩
      · exact useless_set (hA.2 h.2)
    · unfold Live.touch at ht
      rw [if_neg hx] at ht
      cases ht
      exact ⟨fun _ => ⟨points_set (by simp) hi, rfl⟩, fun h => absurd h.1 hx⟩
  | eraseAt i =>
    have e : (if i < xs.length then ((.ok (), Live.vecErase n xs marks cap i) : Except Stop Unit × Live F) else (.error .ub, _)) = (r, d) := e
    split at e
    · rename_i hx
      have ok := vecErase_ok hc hx
      cases e
      refine ⟨fun h => ?_, fun h => ?_⟩
      · have h : ¬ i ≤ p := h
        exact ⟨(at_vec ok).2 ⟨m, h1, old_mark h2 (by omega)⟩, rfl⟩
      · have h : i ≤ p := h
        exact useless_vec h1 (new_mark hm (by simp; omega))
    · cases e; exact absurd rfl hr
  | clear =>
    cases e
    exact ⟨fun h => absurd trivial h, fun _ => useless_vec h1 (all_new hm)⟩
  | assign x spare =>
    have e : ((.ok (), Live.fresh n spare x) : Except Stop Unit × Live F) = (r, d) := e
    cases e
    refine ⟨fun h => absurd trivial h, fun _ => ?_⟩
    cases x with
    | arr zs => exact useless_vec h1 (all_new hm)
    | _ => cases hd

/-! ## Objects -/

theorem lookup_pos {V : Type} {ms : Map.T V} {k : List Nat} {v : V} (h : ms.lookup k = some v) : ∃ p : Nat, ms[p]? = some (k, v) :=
  List.mem_iff_getElem?.1 (lookup_mem h)

/-- The iterator is at the member with the key. -/
theorem node_points {n home : Nat} {ms : Map.T (Nat × Value F)} (hc : LiveOk ⟨n, .map home ms⟩) {k : List Nat} {id : Nat} {x : Value F} {it : LIter}
    (hk : ms.lookup k = some (id, x)) (hi : it.obj = some (.node id)) :
    ∃ p, (strip ms)[p]? = some (k, x) ∧ PointsAt ⟨n, .map home ms⟩ p it := by
  obtain ⟨p, hp⟩ := lookup_pos hk
  exact ⟨p, by rw [strip_getElem, hp]; rfl, (at_map hc).2 (.inl ⟨_, hp, hi⟩)⟩

/-- A change that keeps the member. -/
theorem member_step (fo : FloatOps F) (g : Growth) {n home : Nat} {ms : Map.T (Nat × Value F)} (hc : LiveOk ⟨n, .map home ms⟩) {k : List Nat}
    {id : Nat} {x : Value F} (hk : ms.lookup k = some (id, x)) {ch : Edit F} (hch : KeepsMember k ch) :
    ∃ r n' ms' x', Live.act fo g ch ⟨n, .map home ms⟩ = (r, ⟨n', .map home ms'⟩) ∧ (r = .ok () ∨ ∃ e, r = .error (.exn e)) ∧
      ms'.lookup k = some (id, x') := by
  obtain ⟨_, hs, _, _⟩ := hc
  cases ch with
  | put j y =>
    obtain ⟨id', ms', e, _, hl, hid, _⟩ := putMember_eq n home j y hs
    by_cases hj : k = j
    · refine ⟨_, _, ms', y, e, .inl rfl, ?_⟩
      rw [hl, if_pos hj]
      rcases hid with ⟨z, hz⟩ | ⟨hz, _⟩
      · rw [← hj, hk] at hz; cases hz; rfl
      · rw [← hj, hk] at hz; cases hz
    · exact ⟨_, _, ms', x, e, .inl rfl, by rw [hl, if_neg hj]; exact hk⟩
  | setAt i y => exact ⟨_, _, _, x, rfl, .inr ⟨_, rfl⟩, hk⟩
  | push y => exact ⟨_, _, _, x, rfl, .inr ⟨_, rfl⟩, hk⟩
  | eraseAt i => exact ⟨_, _, _, x, rfl, .inr ⟨_, rfl⟩, hk⟩
  | eraseKey j =>
    refine ⟨_, _, _, x, rfl, .inl rfl, ?_⟩
    rw [erase_lookup hs, if_neg (fun h => hch h.symm)]
    exact hk
  | clear => exact hch.elim
  | assign y sp => exact hch.elim

theorem member_all (fo : FloatOps F) (g : Growth) {home : Nat} {k : List Nat} {id : Nat} : ∀ (cs : List (Edit F)) (n : Nat) (ms : Map.T (Nat × Value F)) (x : Value F),
    LiveOk ⟨n, .map home ms⟩ → ms.lookup k = some (id, x) → (∀ ch ∈ cs, KeepsMember k ch ∧ Usual ch) →
    ∃ n' ms' x', Live.actAll fo g cs ⟨n, .map home ms⟩ = some ⟨n', .map home ms'⟩ ∧ LiveOk ⟨n', .map home ms'⟩ ∧ ms'.lookup k = some (id, x')
  | [], n, ms, x, hc, hk, _ => ⟨n, ms, x, rfl, hc, hk⟩
  | ch :: cs, n, ms, x, hc, hk, h => by
    obtain ⟨r, n', ms', x', e, hr, hk'⟩ := member_step fo g hc hk (h ch (by simp)).1
    have ok := act_ok fo g hc (h ch (by simp)).2
    rw [e] at ok
    obtain ⟨n2, ms2, x2, e2, ok2, hk2⟩ := member_all fo g cs n' ms' x' ok hk' (fun c hc => h c (by simp [hc]))
    refine ⟨n2, ms2, x2, ?_, ok2, hk2⟩
    unfold Live.actAll
    rw [e]
    rcases hr with rfl | ⟨er, rfl⟩ <;> exact e2

/-- The end of an object, under any change but a new value. -/
theorem past_step (fo : FloatOps F) (g : Growth) {n home : Nat} {ms : Map.T (Nat × Value F)} (hc : LiveOk ⟨n, .map home ms⟩) {ch : Edit F}
    (hch : ∀ x s, ch ≠ .assign x s) :
    ∃ r n' ms', Live.act fo g ch ⟨n, .map home ms⟩ = (r, ⟨n', .map home ms'⟩) ∧ (r = .ok () ∨ ∃ e, r = .error (.exn e)) := by
  obtain ⟨_, hs, _, _⟩ := hc
  cases ch with
  | put j y =>
    obtain ⟨id', ms', e, _⟩ := putMember_eq n home j y hs
    exact ⟨_, _, ms', e, .inl rfl⟩
  | setAt i y => exact ⟨_, _, _, rfl, .inr ⟨_, rfl⟩⟩
  | push y => exact ⟨_, _, _, rfl, .inr ⟨_, rfl⟩⟩
  | eraseAt i => exact ⟨_, _, _, rfl, .inr ⟨_, rfl⟩⟩
  | eraseKey j => exact ⟨_, _, _, rfl, .inl rfl⟩
  | clear => exact ⟨_, _, _, rfl, .inl rfl⟩
  | assign y sp => exact absurd rfl (hch y sp)

theorem past_all (fo : FloatOps F) (g : Growth) {home : Nat} : ∀ (cs : List (Edit F)) (n : Nat) (ms : Map.T (Nat × Value F)),
    LiveOk ⟨n, .map home ms⟩ → (∀ ch ∈ cs, (∀ x s, ch ≠ .assign x s) ∧ Usual ch) →
    ∃ n' ms', Live.actAll fo g cs ⟨n, .map home ms⟩ = some ⟨n', .map home ms'⟩ ∧ LiveOk ⟨n', .map home ms'⟩
  | [], n, ms, hc, _ => ⟨n, ms, rfl, hc⟩
  | ch :: cs, n, ms, hc, h => by
    obtain ⟨r, n', ms', e, hr⟩ := past_step fo g hc (h ch (by simp)).1
    have ok := act_ok fo g hc (h ch (by simp)).2
    rw [e] at ok
    obtain ⟨n2, ms2, e2, ok2⟩ := past_all fo g cs n' ms' ok (fun c hc => h c (by simp [hc]))
    refine ⟨n2, ms2, ?_, ok2⟩
    unfold Live.actAll
    rw [e]
    rcases hr with rfl | ⟨er, rfl⟩ <;> exact e2

/-- Removing a member gives up its iterators. -/
theorem member_gone {n home : Nat} {ms ms' : Map.T (Nat × Value F)} (hc : LiveOk ⟨n, .map home ms⟩) {k : List Nat} {id : Nat} {x : Value F} {it : LIter}
    (hk : ms.lookup k = some (id, x)) (hi : it.obj = some (.node id)) (hs : ms'.Sublist ms) (hg : ms'.lookup k = none) (n' : Nat) :
    Useless ⟨n', .map home ms'⟩ it := by
  obtain ⟨_, hs1, _, hu⟩ := hc
  refine useless_node hi fun a ha e => ?_
  have := hu a (hs.subset ha) (k, (id, x)) (lookup_mem hk) e
  subst this
  rw [(mem_lookup (hs1.sublist hs)).1 ha] at hg
  cases hg

/-! ## An iterator that was given up does not come back -/

/-- The array part of the iterator is old and not at its place. -/
def DeadArr (p m : Nat) (c : Live F) : Prop := m < c.next ∧ ∀ xs marks cap, c.shape = .vec xs marks cap → marks[p]? ≠ some m

theorem mark_take {n p m i k : Nat} {marks : List Nat} (hm : m < n) (h : marks[p]? ≠ some m) : (marks.take i ++ List.replicate k n)[p]? ≠ some m := by
  by_cases hp : p < (marks.take i).length
  · rw [List.getElem?_append_left hp]
    simp at hp
    rw [List.getElem?_take_of_lt (by omega)]
    exact h
  · exact new_mark hm (by omega)

theorem dead_append (g : Growth) {p m n : Nat} {xs : List (Value F)} {marks : List Nat} {cap : Nat} (h : m < n ∧ marks[p]? ≠ some m) (ys : List (Value F)) :
    DeadArr p m (Live.append g n xs marks cap ys) := by
  unfold Live.append
  split
  · refine ⟨Nat.lt_succ_of_lt h.1, fun _ _ _ e => ?_⟩
    cases e
    exact mark_take h.1 h.2
  · refine ⟨Nat.lt_succ_of_lt h.1, fun _ _ _ e => ?_⟩
    cases e
    exact all_new h.1

theorem dead_fresh {p m n : Nat} (h : m < n) (spare : Nat) (x : Value F) : DeadArr p m (Live.fresh n spare x) := by
  cases x with
  | arr xs => exact ⟨Nat.lt_succ_of_lt h, fun _ _ _ e => by cases e; exact all_new h⟩
  | obj ms => exact ⟨by show m < n + 1 + ms.length; omega, fun _ _ _ e => by cases e⟩
  | _ => exact ⟨h, fun _ _ _ e => by cases e⟩

theorem dead_act (fo : FloatOps F) (g : Growth) {p m : Nat} {c : Live F} (h : DeadArr p m c) (ch : Edit F) : DeadArr p m (Live.act fo g ch c).2 := by
  obtain ⟨n, sh⟩ := c
  have elem : ∀ i n (x : Value F) xs marks cap, m < n ∧ marks[p]? ≠ some m → DeadArr p m (Live.putElem g i n x xs marks cap).2 := by
    intro i n x xs marks cap h
    have ht : DeadArr p m (Live.touch g i n xs marks cap) := by
      unfold Live.touch
      split
      · exact dead_append g h _
      · exact ⟨h.1, fun _ _ _ e => by cases e; exact h.2⟩
    unfold Live.putElem
    split
    · rename_i e
      rw [e] at ht
      exact ⟨ht.1, fun _ _ _ e => by cases e; exact ht.2 _ _ _ rfl⟩
    · exact ht
  have member : ∀ n home k (x : Value F) ms, m < n → DeadArr p m (Live.putMember n home k x ms).2 := by
    intro n home k x ms h
    unfold Live.putMember
    simp only
    split <;> exact ⟨Nat.lt_succ_of_lt h, fun _ _ _ e => by cases e⟩
  cases sh with
  | vec xs marks cap =>
    have h' : m < n ∧ marks[p]? ≠ some m := ⟨h.1, h.2 _ _ _ rfl⟩
    cases ch with
    | setAt i x => exact elem i n x xs marks cap h'
    | push x => exact dead_append g h' _
    | eraseAt i =>
      show DeadArr p m (if i < xs.length then ((.ok (), Live.vecErase n xs marks cap i) : Except Stop Unit × Live F) else _).2
      split
      · exact ⟨Nat.lt_succ_of_lt h'.1, fun _ _ _ e => by cases e; exact mark_take h'.1 h'.2⟩
      · exact h
    | clear => exact ⟨Nat.lt_succ_of_lt h'.1, fun _ _ _ e => by cases e; exact all_new h'.1⟩
    | assign x spare => exact dead_fresh h'.1 _ _
    | _ => exact h
  | map home ms =>
    have hn : m < n := h.1
    cases ch with
    | put k x => exact member n home k x ms hn
    | eraseKey k => exact ⟨hn, fun _ _ _ e => by cases e⟩
    | clear => exact ⟨hn, fun _ _ _ e => by cases e⟩
    | assign x spare => exact dead_fresh hn _ _
    | _ => exact h
  | plain v =>
    have hn : m < n := h.1
    have h0 : m < n + 1 ∧ [n][p]? ≠ some m := ⟨Nat.lt_succ_of_lt hn, all_new (k := 1) hn⟩
    cases ch with
    | put k x =>
      cases v with
      | null => exact member (n + 1) n k x [] (Nat.lt_succ_of_lt hn)
      | _ => exact h
    | setAt i x =>
      cases v with
      | null => exact elem i (n + 1) x [] [n] 0 h0
      | _ => exact h
    | push x =>
      cases v with
      | null => exact dead_append g h0 [x]
      | _ => exact h
    | clear => exact ⟨hn, fun _ _ _ e => by cases e⟩
    | assign x spare => exact dead_fresh hn _ _
    | _ => exact h

theorem dead_all (fo : FloatOps F) (g : Growth) {p m : Nat} : ∀ (cs : List (Edit F)) {c d : Live F}, DeadArr p m c → Live.actAll fo g cs c = some d → DeadArr p m d
  | [], c, d, h, e => by cases e; exact h
  | ch :: cs, c, d, h, e => by
    have h' := dead_act fo g h ch
    unfold Live.actAll at e
    split at e
    · rename_i h1; rw [h1] at h'; exact dead_all fo g cs h' e
    · rename_i h1; rw [h1] at h'; exact dead_all fo g cs h' e
    · cases e

/-- No member has the number, which is old. -/
def DeadNode (id : Nat) (c : Live F) : Prop := id < c.next ∧ ∀ home ms, c.shape = .map home ms → ∀ a ∈ ms, a.2.1 ≠ id

theorem dead_fresh_node {id n : Nat} (h : id < n) (spare : Nat) (x : Value F) : DeadNode id (Live.fresh n spare x) := by
  cases x with
  | arr xs => exact ⟨Nat.lt_succ_of_lt h, fun _ _ e => by cases e⟩
  | obj ms =>
    refine ⟨by show id < n + 1 + ms.length; omega, fun _ _ e a ha => ?_⟩
    cases e
    obtain ⟨p, hp⟩ := List.mem_iff_getElem?.1 ha
    have := number_ids _ _ _ _ hp
    omega
  | _ => exact ⟨h, fun _ _ e => by cases e⟩

theorem dead_member {id n home : Nat} {k : List Nat} {x : Value F} {ms : Map.T (Nat × Value F)} (hs : Sorted ms) (hn : id < n) (h : ∀ a ∈ ms, a.2.1 ≠ id) :
    DeadNode id (Live.putMember n home k x ms).2 := by
  obtain ⟨id', ms', e, hs', hl, hid, _⟩ := putMember_eq n home k x hs
  rw [e]
  refine ⟨Nat.lt_succ_of_lt hn, fun _ _ e a ha => ?_⟩
  cases e
  rw [mem_lookup hs', hl] at ha
  split at ha
  · have ha := Option.some.inj ha
    rw [← ha]
    rcases hid with ⟨y, hy⟩ | ⟨_, rfl⟩
    · exact h _ (lookup_mem hy)
    · show id' ≠ id
      omega
  · exact h _ (lookup_mem ha)

theorem dead_act_node (fo : FloatOps F) (g : Growth) {id : Nat} {c : Live F} (hc : LiveOk c) (h : DeadNode id c) (ch : Edit F) :
    DeadNode id (Live.act fo g ch c).2 := by
  obtain ⟨n, sh⟩ := c
  have hn : id < n := h.1
  have vec : ∀ n' xs marks cap, n ≤ n' → DeadNode id (⟨n', .vec xs marks cap⟩ : Live F) := fun n' _ _ _ hh => ⟨Nat.lt_of_lt_of_le hn hh, fun _ _ e => by cases e⟩
  have app : ∀ n' xs marks cap ys, n ≤ n' → DeadNode id (Live.append g n' xs marks cap ys : Live F) := by
    intro n' xs marks cap ys hh
    obtain ⟨a, b, e⟩ := append_shape g n' xs marks cap ys
    rw [e]; exact vec _ _ _ _ (by omega)
  cases sh with
  | vec xs marks cap =>
    cases ch with
    | setAt i x =>
      obtain ⟨n', ys, marks', cap', _, hle, e, ok, _⟩ := putElem_eq g i x hc
      show DeadNode id (Live.putElem g i n x xs marks cap).2
      rw [e]; exact vec _ _ _ _ hle
    | push x => exact app _ _ _ _ _ (Nat.le_refl _)
    | eraseAt i =>
      show DeadNode id (if i < xs.length then ((.ok (), Live.vecErase n xs marks cap i) : Except Stop Unit × Live F) else _).2
      split
      · exact vec _ _ _ _ (Nat.le_succ _)
      · exact h
    | clear => exact vec _ _ _ _ (Nat.le_succ _)
    | assign x spare => exact dead_fresh_node hn _ _
    | _ => exact h
  | map home ms =>
    have h' := h.2 _ _ rfl
    cases ch with
    | put k x => exact dead_member hc.2.1 hn h'
    | eraseKey k => exact ⟨hn, fun _ _ e a ha => by cases e; exact h' a ((erase_sub k).subset ha)⟩
    | clear => exact ⟨hn, fun _ _ e a ha => by cases e; cases ha⟩
    | assign x spare => exact dead_fresh_node hn _ _
    | _ => exact h
  | plain v =>
    have hnil : LiveOk (⟨n + 1, .vec [] [n] 0⟩ : Live F) := ⟨rfl, by intro m hm; rw [List.mem_singleton.1 hm]; exact Nat.lt_succ_self n⟩
    cases ch with
    | put k x =>
      cases v with
      | null => exact dead_member .nil (Nat.lt_succ_of_lt hn) (by simp)
      | _ => exact h
    | setAt i x =>
      cases v with
      | null =>
        obtain ⟨n', ys, marks', cap', _, hle, e, ok, _⟩ := putElem_eq g i x hnil
        show DeadNode id (Live.putElem g i (n + 1) x [] [n] 0).2
        rw [e]; exact vec _ _ _ _ (by omega)
      | _ => exact h
    | push x =>
      cases v with
      | null => exact app (n + 1) [] [n] 0 [x] (Nat.le_succ _)
      | _ => exact h
    | clear => exact ⟨hn, fun _ _ e => by cases e⟩
    | assign x spare => exact dead_fresh_node hn _ _
    | _ => exact h

theorem dead_all_node (fo : FloatOps F) (g : Growth) {id : Nat} : ∀ (cs : List (Edit F)) {c d : Live F}, LiveOk c → DeadNode id c → (∀ ch ∈ cs, Usual ch) →
    Live.actAll fo g cs c = some d → DeadNode id d
  | [], c, d, _, h, _, e => by cases e; exact h
  | ch :: cs, c, d, hc, h, hu, e => by
    have h' := dead_act_node fo g hc h ch
    have hc' := act_ok fo g hc (hu ch (by simp))
    have hu' : ∀ ch ∈ cs, Usual ch := fun x hx => hu x (by simp [hx])
    unfold Live.actAll at e
    split at e
    · rename_i h1; rw [h1] at h' hc'; exact dead_all_node fo g cs hc' h' hu' e
    · rename_i h1; rw [h1] at h' hc'; exact dead_all_node fo g cs hc' h' hu' e
    · cases e

theorem all_ok (fo : FloatOps F) (g : Growth) : ∀ (cs : List (Edit F)) {c d : Live F}, LiveOk c → (∀ ch ∈ cs, Usual ch) → Live.actAll fo g cs c = some d → LiveOk d
  | [], c, d, h, _, e => by cases e; exact h
  | ch :: cs, c, d, hc, hu, e => by
    have hc' := act_ok fo g hc (hu ch (by simp))
    have hu' : ∀ ch ∈ cs, Usual ch := fun x hx => hu x (by simp [hx])
    unfold Live.actAll at e
    split at e
    · rename_i h1; rw [h1] at hc'; exact all_ok fo g cs hc' hu' e
    · rename_i h1; rw [h1] at hc'; exact all_ok fo g cs hc' hu' e
    · cases e

theorem next_all (fo : FloatOps F) (g : Growth) (cs : List (Edit F)) {c d : Live F} {m : Nat} (hm : m < c.next) (e : Live.actAll fo g cs c = some d) : m < d.next := by
  have : ∃ p, DeadArr p m c := by
    obtain ⟨n, sh⟩ := c
    cases sh with
    | vec xs marks cap => exact ⟨marks.length, hm, fun _ _ _ h => by cases h; simp⟩
    | _ => exact ⟨0, hm, fun _ _ _ h => by cases h⟩
  obtain ⟨p, h⟩ := this
  exact (dead_all fo g cs h e).1

/-! ## `erase(it)` and `*it = x` -/

theorem erase_live {c : Live F} (hc : LiveOk c) {p : Nat} {it : LIter} (hi : PointsAt c p it) (hp : p < c.content.size)
    (ht : c.content.type = .arr ∨ c.content.type = .obj) :
    ∃ jt d, Live.erase it c = (.ok jt, d) ∧ d.content = lessAt p c.content ∧ PointsAt d p jt ∧
      (∀ q kt, q < p → PointsAt c q kt → PointsAt d q kt) ∧
      (c.content.type = .obj → ∀ q kt, p < q → PointsAt c (q) kt → PointsAt d (q - 1) kt) := by
  obtain ⟨n, sh⟩ := c
  cases sh with
  | vec xs marks cap =>
    have hp : p < xs.length := hp
    obtain ⟨m, h1, h2⟩ := (at_vec hc).1 hi
    have ok := vecErase_ok hc hp
    refine ⟨_, Live.vecErase n xs marks cap p, ?_, ?_, place_at (i := ⟨some 0, some p, none, 0⟩) ok ⟨rfl, ?_, rfl⟩ Live.unset, ?_, fun h => by cases h⟩
    · unfold Live.erase
      simp only [Live.resolve, h1]
      rw [if_pos h2]
      simp only
      rw [if_pos hp]
    · show Value.arr _ = .arr _
      rw [List.eraseIdx_eq_take_drop_succ]
    · rw [elements_length]
      show p ≤ (xs.eraseIdx p).length
      rw [List.length_eraseIdx, if_pos hp]; omega
    · intro q kt hq hk
      obtain ⟨m', h3, h4⟩ := (at_vec hc).1 hk
      exact (at_vec ok).2 ⟨m', h3, old_mark h4 hq⟩
  | map home ms =>
    have hp : p < (strip ms).length := hp
    rw [strip_length] at hp
    have ok : LiveOk (⟨n, .map home (ms.eraseIdx p)⟩ : Live F) := sub_ok hc (List.eraseIdx_sublist _ _)
    obtain ⟨i, h1, h2⟩ := hi
    have h3 : i.objIt = some p := h2.2.2
    have h4 : ∃ a b, i = ⟨a, none, some p, b⟩ := by
      simp only [Live.resolve] at h1
      split at h1
      · split at h1
        · cases h1; cases h3; exact ⟨_, _, rfl⟩
        · cases h1
      · split at h1
        · cases h1; cases h3; exact ⟨_, _, rfl⟩
        · cases h1
      · cases h1
    obtain ⟨a, b, rfl⟩ := h4
    refine ⟨_, ⟨n, .map home (ms.eraseIdx p)⟩, ?_, ?_, place_at (i := ⟨some 0, none, some p, 0⟩) ok ⟨rfl, ?_, rfl⟩ Live.unset, ?_, ?_⟩
    · unfold Live.erase
      rw [h1]
      simp only
      rw [if_pos hp]
    · show Value.obj (strip _) = .obj ((strip ms).take p ++ (strip ms).drop (p + 1))
      rw [strip_eraseIdx, List.eraseIdx_eq_take_drop_succ]
    · rw [elements_length]
      show p ≤ (strip _).length
      rw [strip_length, List.length_eraseIdx, if_pos hp]; omega
    · intro q kt hq hk
      rcases (at_map hc).1 hk with ⟨m, hm, e⟩ | ⟨e, _⟩
      · exact (at_map ok).2 (.inl ⟨m, by rw [List.getElem?_eraseIdx_of_lt hq]; exact hm, e⟩)
      · omega
    · intro _ q kt hq hk
      rcases (at_map hc).1 hk with ⟨m, hm, e⟩ | ⟨e, e'⟩
      · refine (at_map ok).2 (.inl ⟨m, ?_, e⟩)
        rw [List.getElem?_eraseIdx_of_ge (by omega), show q - 1 + 1 = q by omega]; exact hm
      · exact (at_map ok).2 (.inr ⟨by rw [List.length_eraseIdx, if_pos hp]; omega, e'⟩)
  | plain v =>
    obtain ⟨h1, h2⟩ := hc
    rcases ht with ht | ht
    · exact absurd ht h1
    · exact absurd ht h2

theorem strip_modify (p : Nat) (x : Value F) : ∀ ms : Map.T (Nat × Value F),
    strip (ms.modify p fun m => (m.1, (m.2.1, x))) = (strip ms).modify p fun m => (m.1, x) := by
  intro ms
  induction ms generalizing p with
  | nil => simp [strip]
  | cons m ms ih => cases p <;> simp_all [strip]

theorem store_live {c : Live F} (hc : LiveOk c) {p : Nat} {it : LIter} (hi : PointsAt c p it) (hp : p < c.content.size)
    (ht : c.content.type = .arr ∨ c.content.type = .obj) (x : Value F) :
    ∃ d, Live.store it x c = (.ok (), d) ∧ LiveOk d ∧ d.content = withAt p x c.content ∧ ∀ q kt, PointsAt c q kt ↔ PointsAt d q kt := by
  have hx : ∃ y, (elements c.content)[p]? = some y := ⟨_, List.getElem?_eq_getElem (by rw [elements_length]; exact hp)⟩
  obtain ⟨y, hy⟩ := hx
  obtain ⟨i, h1, h2⟩ := hi
  have hd := deref_at h2 hy
  obtain ⟨n, sh⟩ := c
  cases sh with
  | vec xs marks cap =>
    have h3 : i.arrIt = some p := h2.2.2
    have ok : LiveOk (⟨n, .vec (xs.set p x) marks cap⟩ : Live F) := by
      obtain ⟨a, b⟩ := hc
      exact ⟨by simpa using a, b⟩
    refine ⟨⟨n, .vec (xs.set p x) marks cap⟩, ?_, ok, rfl, fun q kt => ?_⟩
    · unfold Live.store
      rw [h1]
      simp only
      rw [hd]
      simp only [h3]
    · rw [at_vec hc, at_vec ok]
  | map home ms =>
    have h3 : i.objIt = some p := h2.2.2
    have ok : LiveOk (⟨n, .map home (ms.modify p fun m => (m.1, (m.2.1, x)))⟩ : Live F) := pairs_ok hc (modify_keys _ _)
    refine ⟨⟨n, .map home (ms.modify p fun m => (m.1, (m.2.1, x)))⟩, ?_, ok, ?_, fun q kt => ?_⟩
    · unfold Live.store
      rw [h1]
      simp only
      rw [hd]
      simp only [h3]
    · show Value.obj (strip _) = .obj _
      rw [strip_modify]; rfl
    · rw [at_map hc, at_map ok]
      have e : ∀ q : Nat, ((ms.modify p fun m => (m.1, (m.2.1, x)))[q]?).map (fun m => m.2.1) = (ms[q]?).map fun m => m.2.1 := by
        intro q
        have := congrArg (fun l => (l[q]?).map Prod.snd) (modify_keys (ms := ms) p x)
        simpa [Function.comp_def] using this
      rw [List.length_modify]
      have : (∃ m, ms[q]? = some m ∧ kt.obj = some (.node m.2.1)) ↔
          ∃ m, (ms.modify p fun m => (m.1, (m.2.1, x)))[q]? = some m ∧ kt.obj = some (.node m.2.1) := by
        have e := e q
        constructor
        · rintro ⟨m, hm, h⟩
          rw [hm] at e
          cases h5 : (ms.modify p fun m => (m.1, (m.2.1, x)))[q]? with
          | none => rw [h5] at e; cases e
          | some m' => rw [h5] at e; have e := Option.some.inj e; simp only at e; exact ⟨m', rfl, by rw [h, e]⟩
        · rintro ⟨m, hm, h⟩
          rw [hm] at e
          cases h5 : ms[q]? with
          | none => rw [h5] at e; cases e
          | some m' => rw [h5] at e; have e := Option.some.inj e; simp only at e; exact ⟨m', rfl, by rw [h, e]⟩
      rw [this]
  | plain v =>
    obtain ⟨h1, h2⟩ := hc
    rcases ht with ht | ht
    · exact absurd ht h1
    · exact absurd ht h2

end Configor
