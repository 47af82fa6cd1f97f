import Verif.Spec.Live
import Verif.Proofs.Iter
import Verif.Proofs.Map
import Verif.Proofs.Portable
/-! Iterators of a value that changes. -/
namespace Configor
open Spec

variable {F : Type}

/-! ## Maps of pairs -/

/-- The members without their numbers. -/
def strip (ms : Map.T (Nat × Value F)) : Map.T (Value F) := ms.map fun m => (m.1, m.2.2)

theorem strip_cons (k : List Nat) (v : Nat × Value F) (ms : Map.T (Nat × Value F)) : strip ((k, v) :: ms) = (k, v.2) :: strip ms := rfl

theorem strip_emplace (k : List Nat) (v : Nat × Value F) : ∀ ms, strip (Map.emplace k v ms) = Map.emplace k v.2 (strip ms)
  | [] => rfl
  | (k', v') :: ms => by
    simp only [Map.emplace, strip_cons]
    split
    · rfl
    · split
      · rw [strip_cons, strip_emplace k v ms]
      · rfl

theorem strip_assign (k : List Nat) (v : Nat × Value F) : ∀ ms, strip (Map.assign k v ms) = Map.assign k v.2 (strip ms)
  | [] => rfl
  | (k', v') :: ms => by
    simp only [Map.assign, strip_cons]
    split
    · rfl
    · split
      · rw [strip_cons, strip_assign k v ms]
      · rfl

theorem strip_erase (k : List Nat) : ∀ ms : Map.T (Nat × Value F), strip (Map.erase k ms) = Map.erase k (strip ms)
  | [] => rfl
  | (k', v') :: ms => by
    simp only [Map.erase, strip_cons]
    split
    · rfl
    · split
      · rw [strip_cons, strip_erase k ms]
      · rfl

theorem strip_find (k : List Nat) : ∀ ms : Map.T (Nat × Value F), Map.find k (strip ms) = (Map.find k ms).map Prod.snd
  | [] => rfl
  | (k', v') :: ms => by
    simp only [Map.find, strip_cons]
    split
    · rfl
    · split
      · rw [strip_find k ms]
      · rfl

theorem strip_eraseIdx (ms : Map.T (Nat × Value F)) (p : Nat) : strip (ms.eraseIdx p) = (strip ms).eraseIdx p := by
  unfold strip; simp [List.eraseIdx_eq_take_drop_succ, List.map_take, List.map_drop]

theorem strip_length (ms : Map.T (Nat × Value F)) : (strip ms).length = ms.length := by simp [strip]

theorem strip_getElem (ms : Map.T (Nat × Value F)) (p : Nat) : (strip ms)[p]? = ms[p]?.map fun m => (m.1, m.2.2) := by simp [strip]

theorem strip_sorted {ms : Map.T (Nat × Value F)} (h : Sorted ms) : Sorted (strip ms) := by
  rw [sorted_keys] at h ⊢; simpa [strip, Function.comp_def] using h

theorem number_strip : ∀ (n : Nat) (ms : List (List Nat × Value F)), strip (Live.number n ms) = ms
  | _, [] => rfl
  | n, (k, x) :: ms => by rw [Live.number, strip_cons, number_strip (n + 1) ms]

theorem number_ids : ∀ (n : Nat) (ms : List (List Nat × Value F)) (p : Nat) m, (Live.number n ms)[p]? = some m → m.2.1 = n + p
  | _, [], p, m, h => by simp [Live.number] at h
  | n, (k, x) :: ms, 0, m, h => by simp [Live.number] at h; rw [← h]; rfl
  | n, (k, x) :: ms, p + 1, m, h => by
    simp only [Live.number, List.getElem?_cons_succ] at h
    have := number_ids (n + 1) ms p m h
    omega

theorem number_length (n : Nat) (ms : List (List Nat × Value F)) : (Live.number n ms).length = ms.length := by
  rw [← strip_length, number_strip]

theorem number_sorted {n : Nat} {ms : List (List Nat × Value F)} (h : Sorted ms) : Sorted (Live.number n ms) := by
  rw [sorted_keys] at h ⊢
  have : (Live.number n ms).map Prod.fst = (strip (Live.number n ms)).map Prod.fst := by simp [strip, Function.comp_def]
  rw [this, number_strip]; exact h

/-! ## What is true of every variable -/

/-- Marks and numbers are old, and no two members have one number. -/
def LiveOk (c : Live F) : Prop :=
  match c.shape with
  | .vec xs marks _ => marks.length = xs.length + 1 ∧ ∀ m ∈ marks, m < c.next
  | .map home ms => home < c.next ∧ Sorted ms ∧ (∀ a ∈ ms, a.2.1 < c.next) ∧ (∀ a ∈ ms, ∀ b ∈ ms, a.2.1 = b.2.1 → a = b)
  | .plain v => v.type ≠ .arr ∧ v.type ≠ .obj

theorem sorted_pos {V : Type} {ms : Map.T V} (h : Sorted ms) {p q : Nat} {m : List Nat × V} (hp : ms[p]? = some m) (hq : ms[q]? = some m) : p = q := by
  have hn := sorted_nodup h
  obtain ⟨p1, p2⟩ := List.getElem?_eq_some_iff.1 hp
  obtain ⟨q1, q2⟩ := List.getElem?_eq_some_iff.1 hq
  refine (List.getElem_inj (i := p) (j := q) (xs := ms.map Prod.fst) (h₀ := by simpa using p1) (h₁ := by simpa using q1) hn).1 ?_
  simp [p2, q2]

theorem mem_lookup {V : Type} {ms : Map.T V} (h : Sorted ms) {m : List Nat × V} : m ∈ ms ↔ ms.lookup m.1 = some m.2 :=
  ⟨sorted_lookup_mem h, fun e => lookup_mem e⟩

/-- Where an iterator to the member at `p` is found. -/
theorem find_node {ms : Map.T (Nat × Value F)} (hs : Sorted ms) (hu : ∀ a ∈ ms, ∀ b ∈ ms, a.2.1 = b.2.1 → a = b) {p : Nat} {m : List Nat × Nat × Value F}
    (hp : ms[p]? = some m) : ms.findIdx? (fun x => x.2.1 == m.2.1) = some p := by
  obtain ⟨p1, p2⟩ := List.getElem?_eq_some_iff.1 hp
  rw [List.findIdx?_eq_some_iff_getElem]
  refine ⟨p1, by simp [p2], fun j hj => ?_⟩
  intro e
  have e : ms[j].2.1 = m.2.1 := by simpa using e
  have := hu _ (List.getElem_mem _) _ (List.mem_of_getElem? hp) e
  have := sorted_pos hs (p := j) (q := p) (by rw [List.getElem?_eq_getElem (by omega), this]) hp
  omega

theorem found_node {ms : Map.T (Nat × Value F)} {id p : Nat} (h : ms.findIdx? (fun x => x.2.1 == id) = some p) :
    ∃ m, ms[p]? = some m ∧ m.2.1 = id := by
  rw [List.findIdx?_eq_some_iff_getElem] at h
  obtain ⟨h1, h2, _⟩ := h
  exact ⟨_, List.getElem?_eq_getElem h1, by simpa using h2⟩

/-! ## Positions -/

theorem at_vec {n : Nat} {xs : List (Value F)} {marks : List Nat} {cap p : Nat} {it : LIter} (hc : LiveOk ⟨n, .vec xs marks cap⟩) :
    PointsAt ⟨n, .vec xs marks cap⟩ p it ↔ ∃ m, it.arr = some (p, m) ∧ marks[p]? = some m := by
  constructor
  · rintro ⟨i, h1, h2⟩
    simp only [Live.resolve] at h1
    split at h1
    · rename_i q m e
      split at h1
      · rename_i hm
        cases h1
        obtain ⟨_, _, h3⟩ := h2
        cases h3
        exact ⟨m, e, hm⟩
      · cases h1
    · cases h1
  · rintro ⟨m, e, hm⟩
    refine ⟨⟨some 0, some p, none, it.prim⟩, by simp only [Live.resolve, e]; rw [if_pos hm], rfl, ?_, rfl⟩
    have := (List.getElem?_eq_some_iff.1 hm).1
    have hl : marks.length = xs.length + 1 := hc.1
    show p ≤ xs.length
    omega

theorem at_map {n home : Nat} {ms : Map.T (Nat × Value F)} {p : Nat} {it : LIter} (hc : LiveOk ⟨n, .map home ms⟩) :
    PointsAt ⟨n, .map home ms⟩ p it ↔ (∃ m, ms[p]? = some m ∧ it.obj = some (.node m.2.1)) ∨ (p = ms.length ∧ it.obj = some (.past home)) := by
  obtain ⟨_, hs, _, hu⟩ := hc
  constructor
  · rintro ⟨i, h1, h2⟩
    simp only [Live.resolve] at h1
    split at h1
    · rename_i id e
      split at h1
      · rename_i q hq
        cases h1
        obtain ⟨_, _, h3⟩ := h2
        cases h3
        obtain ⟨m, hm, rfl⟩ := found_node hq
        exact .inl ⟨m, hm, e⟩
      · cases h1
    · rename_i h e
      split at h1
      · rename_i hh
        cases h1
        obtain ⟨_, _, h3⟩ := h2
        cases h3
        exact .inr ⟨rfl, by rw [e, hh]⟩
      · cases h1
    · cases h1
  · rintro (⟨m, hm, e⟩ | ⟨rfl, e⟩)
    · refine ⟨⟨some 0, none, some p, it.prim⟩, by simp only [Live.resolve, e]; rw [find_node hs hu hm], rfl, ?_, rfl⟩
      have := (List.getElem?_eq_some_iff.1 hm).1
      rw [elements_length]
      show p ≤ (ms.map _).length
      simp; omega
    · refine ⟨⟨some 0, none, some ms.length, it.prim⟩, by simp [Live.resolve, e], rfl, ?_, rfl⟩
      rw [elements_length]
      show ms.length ≤ (ms.map _).length
      simp

theorem at_plain {n : Nat} {v : Value F} {p : Nat} {it : LIter} (hc : LiveOk ⟨n, .plain v⟩) :
    PointsAt ⟨n, .plain v⟩ p it ↔ p ≤ v.size ∧ it.prim = p := by
  obtain ⟨h1, h2⟩ := hc
  constructor
  · rintro ⟨i, e, h⟩
    cases e
    obtain ⟨_, h3, h4⟩ := h
    rw [elements_length] at h3
    refine ⟨h3, ?_⟩
    cases v <;> first | exact h4 | exact absurd rfl h1 | exact absurd rfl h2
  · rintro ⟨h3, h4⟩
    refine ⟨_, rfl, rfl, by rw [elements_length]; exact h3, ?_⟩
    cases v <;> first | exact h4 | exact absurd rfl h1 | exact absurd rfl h2

theorem place_at {c : Live F} (hc : LiveOk c) {p : Nat} {i : Iter} (h : IterAt 0 c.content p i) (old : LIter) : PointsAt c p (c.place old i) := by
  obtain ⟨n, sh⟩ := c
  cases sh with
  | vec xs marks cap =>
    rw [at_vec hc]
    obtain ⟨_, h2, h3⟩ := h
    have h2 : p ≤ xs.length := h2
    have h3 : i.arrIt = some p := h3
    have hl : marks.length = xs.length + 1 := hc.1
    have hp : p < marks.length := by omega
    exact ⟨marks[p], by simp [Live.place, h3, List.getElem?_eq_getElem hp], List.getElem?_eq_getElem hp⟩
  | map home ms =>
    rw [at_map hc]
    obtain ⟨_, h2, h3⟩ := h
    rw [elements_length] at h2
    have h2 : p ≤ (strip ms).length := h2
    rw [strip_length] at h2
    have h3 : i.objIt = some p := h3
    cases hm : ms[p]? with
    | some m => exact .inl ⟨m, rfl, by simp [Live.place, h3, hm]⟩
    | none =>
      have := List.getElem?_eq_none_iff.1 hm
      exact .inr ⟨by omega, by simp [Live.place, h3, hm]⟩
  | plain v =>
    rw [at_plain hc]
    obtain ⟨_, h2, h3⟩ := h
    rw [elements_length] at h2
    refine ⟨h2, ?_⟩
    obtain ⟨h4, h5⟩ := hc
    show i.prim = p
    cases v <;> first | exact h3 | exact absurd rfl h4 | exact absurd rfl h5

theorem begin_live {c : Live F} (hc : LiveOk c) : ∃ it, c.begin = .ok it ∧ PointsAt c 0 it := by
  obtain ⟨i, h1, h2⟩ := begin_at 0 c.content
  exact ⟨_, by simp [Live.begin, h1]; rfl, place_at hc h2 _⟩

theorem fin_live {c : Live F} (hc : LiveOk c) : ∃ it, c.fin = .ok it ∧ PointsAt c c.content.size it := by
  obtain ⟨i, h1, h2⟩ := fin_at 0 c.content
  exact ⟨_, by simp [Live.fin, h1]; rfl, place_at hc h2 _⟩

theorem deref_live {c : Live F} {p : Nat} {it : LIter} {x : Value F} (h : PointsAt c p it) (hp : (elements c.content)[p]? = some x) :
    c.deref it = .ok x := by
  obtain ⟨i, h1, h2⟩ := h
  unfold Live.deref; rw [h1]; exact deref_at h2 hp

theorem key_live {c : Live F} {p : Nat} {it : LIter} {ms} {m : List Nat × Value F} (h : PointsAt c p it) (hc : c.content = .obj ms) (hp : ms[p]? = some m) :
    c.key it = .ok m.1 := by
  obtain ⟨i, h1, h2⟩ := h
  unfold Live.key; rw [h1, hc]
  rw [hc] at h2
  exact key_at h2 hp

theorem incr_live {c : Live F} (hc : LiveOk c) {p : Nat} {it : LIter} (h : PointsAt c p it) (hp : p < c.content.size) :
    ∃ jt, c.incr it = .ok jt ∧ PointsAt c (p + 1) jt := by
  obtain ⟨i, h1, h2⟩ := h
  obtain ⟨j, h3, h4⟩ := incr_at h2 hp
  refine ⟨_, ?_, place_at hc h4 it⟩
  unfold Live.incr; rw [h1]
  show (do .ok (c.place it (← i.incr c.content))) = _
  rw [h3]; rfl

theorem ne_live {c : Live F} {p q : Nat} {it jt : LIter} (h : PointsAt c p it) (h' : PointsAt c q jt) : c.ne it jt = .ok (decide (p ≠ q)) := by
  obtain ⟨i, h1, h2⟩ := h
  obtain ⟨j, h3, h4⟩ := h'
  unfold Live.ne; rw [h1, h3]
  show i.ne c.content j = _
  unfold Iter.ne
  rw [eq_at h2 h4]
  show Except.ok (!decide (p = q)) = _
  simp

/-! ## The changes keep what is true of every variable -/

theorem newVec_ok (n : Nat) (xs : List (Value F)) (cap : Nat) : LiveOk (Live.newVec n xs cap) := by
  refine ⟨by simp, fun m hm => ?_⟩
  have := List.eq_of_mem_replicate hm
  show m < n + 1
  omega

theorem fresh_ok (n spare : Nat) {v : Value F} (hv : KeysSorted v) : LiveOk (Live.fresh n spare v) := by
  cases v with
  | arr xs => exact newVec_ok _ _ _
  | obj ms =>
    have hs := number_sorted (n := n + 1) (sorted_obj.1 hv).1
    refine ⟨?_, hs, fun a ha => ?_, fun a ha b hb e => ?_⟩
    · show n < n + 1 + ms.length
      omega
    · obtain ⟨p, hp⟩ := List.mem_iff_getElem?.1 ha
      have h1 := number_ids _ _ _ _ hp
      have h2 := (List.getElem?_eq_some_iff.1 hp).1
      rw [number_length] at h2
      show a.2.1 < n + 1 + ms.length
      omega
    · obtain ⟨p, hp⟩ := List.mem_iff_getElem?.1 ha
      obtain ⟨q, hq⟩ := List.mem_iff_getElem?.1 hb
      have h1 := number_ids _ _ _ _ hp
      have h2 := number_ids _ _ _ _ hq
      have : p = q := by omega
      subst this
      rw [hp] at hq; cases hq; rfl
  | _ => exact ⟨by simp [Value.type], by simp [Value.type]⟩

theorem append_ok (g : Growth) {n : Nat} {xs : List (Value F)} {marks : List Nat} {cap : Nat} (h : LiveOk ⟨n, .vec xs marks cap⟩)
    (ys : List (Value F)) : LiveOk (Live.append g n xs marks cap ys) := by
  unfold Live.append
  split
  · obtain ⟨h1, h2⟩ := h
    refine ⟨by simp; omega, fun m hm => ?_⟩
    show m < n + 1
    rcases List.mem_append.1 hm with hm | hm
    · have : m < n := h2 m (List.mem_of_mem_take hm)
      omega
    · have := List.eq_of_mem_replicate hm
      omega
  · exact newVec_ok _ _ _

theorem vecErase_ok {n : Nat} {xs : List (Value F)} {marks : List Nat} {cap : Nat} (h : LiveOk ⟨n, .vec xs marks cap⟩) {p : Nat}
    (hp : p < xs.length) : LiveOk (Live.vecErase n xs marks cap p) := by
  obtain ⟨h1, h2⟩ := h
  refine ⟨by simp [List.length_eraseIdx, hp]; omega, fun m hm => ?_⟩
  show m < n + 1
  rcases List.mem_append.1 hm with hm | hm
  · have : m < n := h2 m (List.mem_of_mem_take hm)
    omega
  · have := List.eq_of_mem_replicate hm
    omega

theorem append_content (g : Growth) (n : Nat) (xs : List (Value F)) (marks : List Nat) (cap : Nat) (ys : List (Value F)) :
    (Live.append g n xs marks cap ys).content = .arr (xs ++ ys) := by
  unfold Live.append; split <;> rfl

theorem append_shape (g : Growth) (n : Nat) (xs : List (Value F)) (marks : List Nat) (cap : Nat) (ys : List (Value F)) :
    ∃ marks' cap', Live.append g n xs marks cap ys = ⟨n + 1, .vec (xs ++ ys) marks' cap'⟩ := by
  unfold Live.append; split <;> exact ⟨_, _, rfl⟩

/-- `c[i] = x` on an array. -/
theorem putElem_eq (g : Growth) (i : Nat) {n : Nat} (x : Value F) {xs : List (Value F)} {marks : List Nat} {cap : Nat}
    (h : LiveOk ⟨n, .vec xs marks cap⟩) :
    ∃ n' ys marks' cap', Live.touch g i n xs marks cap = ⟨n', .vec ys marks' cap'⟩ ∧ n ≤ n' ∧
      Live.putElem g i n x xs marks cap = (.ok (), ⟨n', .vec (ys.set i x) marks' cap'⟩) ∧ LiveOk ⟨n', .vec (ys.set i x) marks' cap'⟩ ∧
      ys = (if i ≥ xs.length then xs ++ List.replicate (i - xs.length + 1) .null else xs) := by
  by_cases hi : i ≥ xs.length
  · obtain ⟨marks', cap', e⟩ := append_shape g n xs marks cap (List.replicate (i - xs.length + 1) .null)
    have ok := append_ok g h (List.replicate (i - xs.length + 1) .null)
    rw [e] at ok
    have ht : Live.touch g i n xs marks cap = ⟨n + 1, .vec (xs ++ List.replicate (i - xs.length + 1) .null) marks' cap'⟩ := by
      unfold Live.touch; rw [if_pos hi, e]
    refine ⟨_, _, _, _, ht, by omega, ?_, ?_, by rw [if_pos hi]⟩
    · unfold Live.putElem; rw [ht]
    · obtain ⟨h1, h2⟩ := ok
      exact ⟨by simpa using h1, h2⟩
  · have ht : Live.touch g i n xs marks cap = ⟨n, .vec xs marks cap⟩ := by unfold Live.touch; rw [if_neg hi]
    refine ⟨_, _, _, _, ht, Nat.le_refl _, ?_, ?_, by rw [if_neg hi]⟩
    · unfold Live.putElem; rw [ht]
    · obtain ⟨h1, h2⟩ := h
      exact ⟨by simpa using h1, h2⟩

/-- `c[k] = x` on an object. -/
theorem putMember_eq (n home : Nat) (k : List Nat) (x : Value F) {ms : Map.T (Nat × Value F)} (hs : Sorted ms) :
    ∃ id ms', Live.putMember n home k x ms = (.ok (), ⟨n + 1, .map home ms'⟩) ∧ Sorted ms' ∧
      (∀ j, ms'.lookup j = if j = k then some (id, x) else ms.lookup j) ∧
      ((∃ y, ms.lookup k = some (id, y)) ∨ (ms.lookup k = none ∧ id = n)) ∧
      strip ms' = Map.assign k x (Map.emplace k .null (strip ms)) := by
  have hs1 := emplace_sorted (k := k) (v := (n, (.null : Value F))) hs
  have hl := emplace_lookup (k := k) (v := (n, (.null : Value F))) hs
  have key : ∃ m, Map.find k (Map.emplace k (n, (.null : Value F)) ms) = some m ∧
      ((∃ y, ms.lookup k = some (m.1, y)) ∨ (ms.lookup k = none ∧ m.1 = n)) := by
    rw [find_lookup hs1, hl]
    cases h : ms.lookup k with
    | some m => exact ⟨m, by simp, .inl ⟨m.2, rfl⟩⟩
    | none => exact ⟨(n, .null), by simp, .inr ⟨rfl, rfl⟩⟩
  obtain ⟨m, hm, hk⟩ := key
  refine ⟨m.1, Map.assign k (m.1, x) (Map.emplace k (n, .null) ms), ?_, assign_sorted hs1, fun j => ?_, hk, ?_⟩
  · unfold Live.putMember
    simp only [hm]
  · rw [assign_lookup hs1]
    have : List.lookup k (Map.emplace k (n, (.null : Value F)) ms) ≠ none := by rw [← find_lookup hs1, hm]; simp
    by_cases hj : j = k
    · simp [hj, this]
    · simp [hj, hl]
  · rw [strip_assign, strip_emplace]

theorem putMember_ok {n n' home : Nat} (hn : n ≤ n') {k : List Nat} {x : Value F} {ms : Map.T (Nat × Value F)} (hh : home < n') (hs : Sorted ms)
    (hi : ∀ a ∈ ms, a.2.1 < n') (hu : ∀ a ∈ ms, ∀ b ∈ ms, a.2.1 = b.2.1 → a = b) : LiveOk (Live.putMember n' home k x ms).2 := by
  obtain ⟨id, ms', e, hs', hl, hid, _⟩ := putMember_eq n' home k x hs
  rw [e]
  have hid' : id < n' + 1 := by
    rcases hid with ⟨y, hy⟩ | ⟨_, rfl⟩
    · have := hi _ (lookup_mem hy)
      simp only at this; omega
    · omega
  have old : ∀ a ∈ ms', a.1 ≠ k → a ∈ ms := by
    intro a ha hk
    rw [mem_lookup hs', hl, if_neg hk] at ha
    exact lookup_mem ha
  have new : ∀ a ∈ ms', a.1 = k → a.2 = (id, x) := by
    intro a ha hk
    rw [mem_lookup hs', hl, if_pos hk] at ha
    exact (Option.some.inj ha).symm
  have clash : ∀ a ∈ ms, a.1 ≠ k → a.2.1 ≠ id := by
    intro a ha hk e
    rcases hid with ⟨y, hy⟩ | ⟨_, rfl⟩
    · have := hu a ha (k, (id, y)) (lookup_mem hy) e
      exact hk (by rw [this])
    · have := hi a ha
      omega
  refine ⟨Nat.lt_succ_of_lt hh, hs', fun a ha => ?_, fun a ha b hb e => ?_⟩
  · show a.2.1 < n' + 1
    by_cases hk : a.1 = k
    · rw [new a ha hk]; exact hid'
    · have := hi a (old a ha hk)
      omega
  · by_cases ka : a.1 = k <;> by_cases kb : b.1 = k
    · exact Prod.ext (ka.trans kb.symm) ((new a ha ka).trans (new b hb kb).symm)
    · rw [new a ha ka] at e
      exact absurd e.symm (clash b (old b hb kb) kb)
    · rw [new b hb kb] at e
      exact absurd e (clash a (old a ha ka) ka)
    · exact hu a (old a ha ka) b (old b hb kb) e

theorem sub_ok {n home : Nat} {ms ms' : Map.T (Nat × Value F)} (h : LiveOk ⟨n, .map home ms⟩) (hs : ms'.Sublist ms) : LiveOk ⟨n, .map home ms'⟩ := by
  obtain ⟨h1, h2, h3, h4⟩ := h
  exact ⟨h1, h2.sublist hs, fun a ha => h3 a (hs.subset ha), fun a ha b hb => h4 a (hs.subset ha) b (hs.subset hb)⟩

theorem act_ok (fo : FloatOps F) (g : Growth) {c : Live F} (hc : LiveOk c) {ch : Edit F} (hu : Usual ch) : LiveOk (Live.act fo g ch c).2 := by
  obtain ⟨n, sh⟩ := c
  cases sh with
  | vec xs marks cap =>
    cases ch with
    | setAt i x =>
      obtain ⟨n', ys, marks', cap', _, _, e, ok, _⟩ := putElem_eq g i x hc
      show LiveOk (Live.putElem g i n x xs marks cap).2
      rw [e]; exact ok
    | push x => exact append_ok g hc _
    | eraseAt i =>
      show LiveOk (if i < xs.length then ((.ok (), Live.vecErase n xs marks cap i) : Except Stop Unit × Live F) else _).2
      split
      · rename_i hi; exact vecErase_ok hc hi
      · exact hc
    | clear => exact newVec_ok _ _ _
    | assign x spare => exact fresh_ok _ _ hu
    | _ => exact hc
  | map home ms =>
    cases ch with
    | put k x =>
      obtain ⟨h1, h2, h3, h4⟩ := hc
      exact putMember_ok (Nat.le_refl n) h1 h2 h3 h4
    | eraseKey k => exact sub_ok hc (erase_sub k)
    | clear => exact sub_ok hc (List.nil_sublist _)
    | assign x spare => exact fresh_ok _ _ hu
    | _ => exact hc
  | plain v =>
    have hnil : LiveOk (⟨n + 1, .vec [] [n] 0⟩ : Live F) := ⟨rfl, by intro m hm; rw [List.mem_singleton.1 hm]; exact Nat.lt_succ_self n⟩
    cases ch with
    | put k x =>
      cases v with
      | null => exact putMember_ok (Nat.le_refl (n + 1)) (Nat.lt_succ_self n) .nil (by simp) (by simp)
      | _ => exact hc
    | setAt i x =>
      cases v with
      | null =>
        obtain ⟨n', ys, marks', cap', _, _, e, ok, _⟩ := putElem_eq g i x hnil
        show LiveOk (Live.putElem g i (n + 1) x [] [n] 0).2
        rw [e]; exact ok
      | _ => exact hc
    | push x =>
      cases v with
      | null => exact append_ok g hnil [x]
      | _ => exact hc
    | clear =>
      obtain ⟨h1, h2⟩ := hc
      cases v with
      | arr => exact absurd rfl h1
      | obj => exact absurd rfl h2
      | _ => exact ⟨by simp [ValueOps.clear, Value.type], by simp [ValueOps.clear, Value.type]⟩
    | assign x spare => exact fresh_ok _ _ hu
    | _ => exact hc

theorem erase_ok (it : LIter) {c : Live F} (hc : LiveOk c) : LiveOk (Live.erase it c).2 := by
  obtain ⟨n, sh⟩ := c
  unfold Live.erase
  split
  · exact hc
  · split
    · rename_i h1 _
      have h1 : sh = _ := h1
      subst h1
      split
      · rename_i hp; exact vecErase_ok hc hp
      · exact hc
    · rename_i h1 _
      have h1 : sh = _ := h1
      subst h1
      split
      · exact sub_ok hc (List.eraseIdx_sublist _ _)
      · exact hc
    · exact hc
    · exact hc

theorem modify_keys {ms : Map.T (Nat × Value F)} (p : Nat) (x : Value F) :
    (ms.modify p fun m => (m.1, (m.2.1, x))).map (fun m => (m.1, m.2.1)) = ms.map fun m => (m.1, m.2.1) := by
  induction ms generalizing p with
  | nil => simp
  | cons m ms ih => cases p <;> simp [ih]

theorem pairs_ok {n home : Nat} {ms ms' : Map.T (Nat × Value F)} (h : LiveOk ⟨n, .map home ms⟩)
    (he : ms'.map (fun m => (m.1, m.2.1)) = ms.map fun m => (m.1, m.2.1)) : LiveOk ⟨n, .map home ms'⟩ := by
  obtain ⟨h1, h2, h3, h4⟩ := h
  have hk : ms'.map Prod.fst = ms.map Prod.fst := by
    have := congrArg (List.map Prod.fst) he
    simpa [Function.comp_def] using this
  have hs : Sorted ms' := by rw [sorted_keys] at h2 ⊢; rw [hk]; exact h2
  have back : ∀ a ∈ ms', ∃ b ∈ ms, b.1 = a.1 ∧ b.2.1 = a.2.1 := by
    intro a ha
    have : (a.1, a.2.1) ∈ ms'.map (fun m => (m.1, m.2.1)) := List.mem_map_of_mem ha
    rw [he] at this
    obtain ⟨b, hb, e⟩ := List.mem_map.1 this
    exact ⟨b, hb, (Prod.mk.inj e).1, (Prod.mk.inj e).2⟩
  refine ⟨h1, hs, fun a ha => ?_, fun a ha b hb e => ?_⟩
  · obtain ⟨b, hb, _, e⟩ := back a ha
    rw [← e]; exact h3 b hb
  · obtain ⟨a', ha', e1, e2⟩ := back a ha
    obtain ⟨b', hb', e3, e4⟩ := back b hb
    have := h4 a' ha' b' hb' (by rw [e2, e4, e])
    have hab : a.1 = b.1 := by rw [← e1, ← e3, this]
    have l1 := (mem_lookup hs).1 ha
    rw [hab, (mem_lookup hs).1 hb] at l1
    exact Prod.ext hab (Option.some.inj l1).symm

theorem store_ok (it : LIter) {x : Value F} (hx : KeysSorted x) {c : Live F} (hc : LiveOk c) : LiveOk (Live.store it x c).2 := by
  obtain ⟨n, sh⟩ := c
  unfold Live.store
  split
  · exact hc
  · split
    · exact hc
    · split
      · rename_i h1 _
        have h1 : sh = _ := h1
        subst h1
        obtain ⟨h2, h3⟩ := hc
        exact ⟨by simpa using h2, h3⟩
      · rename_i h1 _
        have h1 : sh = _ := h1
        subst h1
        exact pairs_ok hc (modify_keys _ _)
      · exact fresh_ok _ _ hx
      · exact hc

theorem vecEraseRange_ok {n : Nat} {xs : List (Value F)} {marks : List Nat} {cap : Nat} (h : LiveOk ⟨n, .vec xs marks cap⟩) {p q : Nat}
    (hp : p ≤ q) (hq : q ≤ xs.length) : LiveOk (Live.vecEraseRange n xs marks cap p q) := by
  obtain ⟨h1, h2⟩ := h
  refine ⟨by simp; omega, fun m hm => ?_⟩
  show m < n + 1
  rcases List.mem_append.1 hm with hm | hm
  · have : m < n := h2 m (List.mem_of_mem_take hm)
    omega
  · have := List.eq_of_mem_replicate hm
    omega

theorem take_drop_sublist {α : Type} (l : List α) {p q : Nat} (h : p ≤ q) : (l.take p ++ l.drop q).Sublist l := by
  have : (l.take p ++ l.drop q).Sublist (l.take p ++ l.drop p) := by
    refine List.Sublist.append (List.Sublist.refl _) ?_
    rw [show q = p + (q - p) by omega, ← List.drop_drop]
    exact List.drop_sublist _ _
  rwa [List.take_append_drop] at this

theorem resolve_vec {n : Nat} {xs : List (Value F)} {marks : List Nat} {cap : Nat} {it : LIter} {a : Option Nat} {p : Nat} {b : Option Nat} {d : Int}
    (hl : marks.length = xs.length + 1) (h : (⟨n, .vec xs marks cap⟩ : Live F).resolve it = .ok ⟨a, some p, b, d⟩) : p ≤ xs.length := by
  simp only [Live.resolve] at h
  split at h
  · split at h
    · rename_i hm
      cases h
      have := (List.getElem?_eq_some_iff.1 hm).1
      omega
    · cases h
  · cases h

theorem eraseRange_ok (it jt : LIter) {c : Live F} (hc : LiveOk c) : LiveOk (Live.eraseRange it jt c).2 := by
  obtain ⟨n, sh⟩ := c
  cases sh with
  | plain v => exact hc
  | vec xs marks cap =>
    simp only [Live.eraseRange]
    split
    · rename_i h1 h2
      split
      · rename_i hpq
        exact vecEraseRange_ok hc hpq (resolve_vec hc.1 h2)
      · exact hc
    · exact hc
  | map home ms =>
    simp only [Live.eraseRange]
    split
    · split
      · rename_i hpq
        exact sub_ok hc (take_drop_sublist ms hpq)
      · exact hc
    · exact hc

theorem lived_ok {fo : FloatOps F} {g : Growth} {c : Live F} (h : Lived fo g c) : LiveOk c := by
  induction h with
  | start hv => exact fresh_ok _ _ hv
  | act _ hu e ih => have := act_ok fo g ih hu; rw [e] at this; exact this
  | @erase _ it _ _ _ e ih => have := erase_ok it ih; rw [e] at this; exact this
  | @store _ it _ _ _ _ hx e ih => have := store_ok it hx ih; rw [e] at this; exact this
  | @eraseRange _ it jt _ _ _ e ih => have := eraseRange_ok it jt ih; rw [e] at this; exact this

end Configor
