import Verif.Spec.Convert
import Verif.Proofs.Path
import Verif.Proofs.Iter
/-! # Lemmas about conversions -/
namespace Configor
open Spec ValueOps Conv

variable {F T S : Type}

/-- Two lists of the same length, related element by element. -/
inductive All2 {A B : Type} (R : A → B → Prop) : List A → List B → Prop
  | nil : All2 R [] []
  | cons {a : A} {b : B} {as : List A} {bs : List B} : R a b → All2 R as bs → All2 R (a :: as) (b :: bs)

theorem All2.length_eq {A B : Type} {R : A → B → Prop} {as : List A} {bs : List B} (h : All2 R as bs) : as.length = bs.length := by
  induction h with
  | nil => rfl
  | cons _ _ ih => simp [ih]

/-! ## Sequences -/

/-- All elements convert. -/
def ToAll (E : Conv F T) (xs : List T) (vs : List (Value F)) : Prop := All2 (fun x v => E.toValue x = .ok v) xs vs

theorem toAll_of {E : Conv F T} {xs : List T} (h : ∀ x ∈ xs, ∃ v, E.toValue x = .ok v) : ∃ vs, ToAll E xs vs := by
  induction xs with
  | nil => exact ⟨[], .nil⟩
  | cons x xs ih =>
    obtain ⟨v, hv⟩ := h x (by simp)
    obtain ⟨vs, hs⟩ := ih fun y hy => h y (by simp [hy])
    exact ⟨v :: vs, .cons hv hs⟩

theorem setAt_end (ys : List (Value F)) (v : Value F) : setAt ys ys.length v = ys ++ [v] := by
  apply List.ext_getElem?
  intro j
  rw [setAt_get, List.getElem?_append]
  by_cases h1 : j = ys.length
  · subst h1; simp
  · rw [if_neg h1]
    by_cases h2 : j < ys.length
    · rw [if_pos (by omega), if_pos h2, List.getElem?_eq_getElem h2]; rfl
    · rw [if_neg (by omega), if_neg h2, List.getElem?_eq_none]
      simp; omega

theorem toLoop_eq {E : Conv F T} {xs : List T} {vs : List (Value F)} (h : ToAll E xs vs) :
    ∀ ys : List (Value F), ys.length + xs.length ≤ vectorMax → toLoop E ys.length xs (.arr ys) = .ok (.arr (ys ++ vs)) := by
  induction h with
  | nil => intro ys _; simp [toLoop]
  | @cons x v xs vs hx _ ih =>
    intro ys hl
    rw [List.length_cons] at hl
    have := withIndex_arr (F := F) (i := ys.length) (by omega) (assign v) ys
    unfold toLoop
    rw [hx]
    show (match withIndex ys.length (assign v) (.arr ys) with | (.ok _, c) => _ | (.error e, _) => _) = _
    rw [this]
    show toLoop E (ys.length + 1) xs (.arr (setAt ys ys.length v)) = _
    rw [setAt_end]
    have h2 := ih (ys ++ [v]) (by simp; omega)
    rw [List.length_append] at h2
    rw [show ys.length + 1 = ys.length + [v].length from rfl, h2]
    simp

theorem item_eq (E : Conv F T) (vs : List (Value F)) {i : Nat} {v : Value F} (h : vs[i]? = some v) : E.item (.arr vs) i = E.get v := by
  unfold Conv.item
  rw [atIndex_read h]

/-- All elements convert back. -/
def GetAll (E : Conv F T) (vs : List (Value F)) (xs : List T) : Prop := All2 (fun v x => E.get v = .ok x) vs xs

theorem getAll_item {E : Conv F T} {vs : List (Value F)} {xs : List T} (h : GetAll E vs xs) {i : Nat} {x : T} (hx : xs[i]? = some x) :
    E.item (.arr vs) i = .ok x := by
  have : ∃ v, vs[i]? = some v ∧ E.get v = .ok x := by
    induction h generalizing i with
    | nil => cases hx
    | cons h1 _ ih =>
      cases i with
      | zero => cases hx; exact ⟨_, rfl, h1⟩
      | succ i => exact ih (by simpa using hx)
  obtain ⟨v, h1, h2⟩ := this
  rw [item_eq E vs h1, h2]

theorem getAll_length {E : Conv F T} {vs : List (Value F)} {xs : List T} (h : GetAll E vs xs) : vs.length = xs.length := h.length_eq

/-- Items of all the indices. -/
theorem fill_ok {E : Conv F T} {c : Value F} {is : List Nat} {t r : List T} (h : fill E c is t = (.ok (), r)) :
    ∃ g : Nat → T, (∀ i ∈ is, E.item c i = .ok (g i)) ∧ r = is.foldl (fun t i => t.set i (g i)) t := by
  induction is generalizing t with
  | nil =>
    cases h
    exact ⟨fun _ => E.zero, by simp, rfl⟩
  | cons i is ih =>
    unfold fill at h
    cases hi : E.item c i with
    | error e => rw [hi] at h; cases h
    | ok x =>
      rw [hi] at h
      obtain ⟨g, h1, h2⟩ := ih h
      by_cases hm : i ∈ is
      · have : g i = x := by have := h1 i hm; rw [hi] at this; cases this; rfl
        refine ⟨g, ?_, ?_⟩
        · intro j hj
          rcases List.mem_cons.1 hj with rfl | hj
          · rw [hi, this]
          · exact h1 j hj
        · rw [List.foldl_cons, this]; exact h2
      · refine ⟨fun j => if j = i then x else g j, ?_, ?_⟩
        · intro j hj
          rcases List.mem_cons.1 hj with rfl | hj
          · simp [hi]
          · have : j ≠ i := fun e => hm (e ▸ hj)
            simp [this, h1 j hj]
        · rw [List.foldl_cons]
          simp only [if_true]
          rw [h2]
          have : ∀ (l : List Nat) (u : List T), i ∉ l → l.foldl (fun t i => t.set i (g i)) u = l.foldl (fun t j => t.set j (if j = i then x else g j)) u := by
            intro l
            induction l with
            | nil => intro u _; rfl
            | cons k l ih =>
              intro u hk
              rw [List.foldl_cons, List.foldl_cons]
              have : k ≠ i := fun e => hk (by simp [e])
              rw [if_neg this]
              exact ih _ fun h => hk (by simp [h])
          exact this is _ hm

theorem foldl_set_get (g : Nat → T) : ∀ (is : List Nat) (t : List T) (j : Nat),
    (is.foldl (fun t i => t.set i (g i)) t)[j]? = if j ∈ is ∧ j < t.length then some (g j) else t[j]? := by
  intro is
  induction is with
  | nil => intro t j; simp
  | cons i is ih =>
    intro t j
    rw [List.foldl_cons, ih, List.length_set, List.getElem?_set]
    by_cases h1 : j ∈ is ∧ j < t.length
    · rw [if_pos h1, if_pos ⟨by simp [h1.1], h1.2⟩]
    · rw [if_neg h1]
      by_cases h2 : i = j
      · subst h2
        by_cases h3 : i < t.length
        · simp [h3]
        · simp [h3]
      · rw [if_neg h2]
        have : ¬ (j ∈ i :: is ∧ j < t.length) := by
          rintro ⟨h3, h4⟩
          rcases List.mem_cons.1 h3 with h | h
          · exact h2 h.symm
          · exact h1 ⟨h, h4⟩
        rw [if_neg this]

theorem fill_run {E : Conv F T} {c : Value F} : ∀ (is : List Nat) (t : List T) (g : Nat → T), (∀ i ∈ is, E.item c i = .ok (g i)) →
    fill E c is t = (.ok (), is.foldl (fun t i => t.set i (g i)) t) := by
  intro is
  induction is with
  | nil => intro t g _; rfl
  | cons i is ih =>
    intro t g h
    unfold fill
    rw [h i (by simp)]
    exact ih _ g fun j hj => h j (by simp [hj])

theorem resize_length (z : T) (n : Nat) (t : List T) : (resize z n t).length = n := by
  unfold resize; simp; omega

theorem foldl_set_all (g : Nat → T) {n : Nat} {t u : List T} (ht : t.length = n) (hu : u.length = n) :
    (List.range n).foldl (fun t i => t.set i (g i)) t = (List.range n).foldl (fun t i => t.set i (g i)) u := by
  apply List.ext_getElem?
  intro j
  rw [foldl_set_get, foldl_set_get, ht, hu]
  by_cases h : j < n
  · simp [h]
  · rw [if_neg (by simp [h]), if_neg (by simp [h]), List.getElem?_eq_none (by omega), List.getElem?_eq_none (by omega)]

theorem fill_all {E : Conv F T} {vs : List (Value F)} {xs : List T} (h : GetAll E vs xs) {t : List T} (ht : t.length = xs.length) :
    fill E (.arr vs) (List.range xs.length) t = (.ok (), xs) := by
  by_cases hx : xs = []
  · subst hx
    cases t with
    | nil => rfl
    | cons _ _ => cases ht
  · have hn : Nonempty T := ⟨E.zero⟩
    let g : Nat → T := fun i => (xs[i]?).getD (Classical.choice hn)
    have hg : ∀ i < xs.length, xs[i]? = some (g i) := by
      intro i hi
      simp [g, List.getElem?_eq_getElem hi]
    rw [fill_run _ t g fun i hi => getAll_item h (hg i (List.mem_range.1 hi))]
    congr 1
    apply List.ext_getElem?
    intro j
    rw [foldl_set_get]
    by_cases hj : j < xs.length
    · rw [if_pos ⟨List.mem_range.2 hj, by omega⟩, hg j hj]
    · rw [if_neg (fun h => hj (List.mem_range.1 h.1)), List.getElem?_eq_none (by omega), List.getElem?_eq_none (by omega)]

theorem push_run {E : Conv F T} {c : Value F} (g : Nat → T) : ∀ (is : List Nat) (t : List T), (∀ i ∈ is, E.item c i = .ok (g i)) →
    push E c is t = (.ok (), t ++ is.map g) := by
  intro is
  induction is with
  | nil => intro t _; simp [push]
  | cons i is ih =>
    intro t h
    unfold push
    rw [h i (by simp)]
    show push E c is (t ++ [g i]) = _
    rw [ih _ fun j hj => h j (by simp [hj])]
    simp

theorem pushFront_run {E : Conv F T} {c : Value F} (g : Nat → T) : ∀ (is : List Nat) (t : List T), (∀ i ∈ is, E.item c i = .ok (g i)) →
    pushFront E c is t = (.ok (), (is.map g).reverse ++ t) := by
  intro is
  induction is with
  | nil => intro t _; simp [pushFront]
  | cons i is ih =>
    intro t h
    unfold pushFront
    rw [h i (by simp)]
    show pushFront E c is (g i :: t) = _
    rw [ih _ fun j hj => h j (by simp [hj])]
    simp

theorem insertAll_run {E : Conv F T} {c : Value F} (ins : T → List T → List T) (g : Nat → T) : ∀ (is : List Nat) (t : List T),
    (∀ i ∈ is, E.item c i = .ok (g i)) → insertAll E ins c is t = (.ok (), (is.map g).foldl (fun t x => ins x t) t) := by
  intro is
  induction is with
  | nil => intro t _; rfl
  | cons i is ih =>
    intro t h
    unfold insertAll
    rw [h i (by simp)]
    exact ih _ fun j hj => h j (by simp [hj])

/-- A function that gives the elements by index. -/
theorem getAll_fun {E : Conv F T} {vs : List (Value F)} {xs : List T} (h : GetAll E vs xs) :
    ∃ g : Nat → T, (∀ i < vs.length, E.item (.arr vs) i = .ok (g i)) ∧ (List.range vs.length).map g = xs := by
  have hl := getAll_length h
  by_cases hx : xs = []
  · subst hx
    exact ⟨fun _ => E.zero, fun i hi => absurd hi (by rw [hl]; simp), by rw [hl]; rfl⟩
  · have hn : Nonempty T := ⟨E.zero⟩
    refine ⟨fun i => (xs[i]?).getD (Classical.choice hn), fun i hi => ?_, ?_⟩
    · exact getAll_item h (by rw [hl] at hi; simp [List.getElem?_eq_getElem hi])
    · apply List.ext_getElem?
      intro j
      rw [List.getElem?_map]
      by_cases hj : j < xs.length
      · rw [List.getElem?_range (by omega)]
        simp [List.getElem?_eq_getElem hj]
      · rw [List.getElem?_eq_none (by simp; omega), List.getElem?_eq_none (by omega)]
        rfl

/-! ## Sets -/

theorem setInsert_mem (lt : T → T → Bool) {x y : T} {l : List T} (h : y ∈ setInsert lt x l) : y = x ∨ y ∈ l := by
  induction l with
  | nil => simpa [setInsert] using h
  | cons z l ih =>
    unfold setInsert at h
    split at h
    · simpa using h
    · split at h
      · rcases List.mem_cons.1 h with h | h
        · exact .inr (by simp [h])
        · exact (ih h).imp id (by intro h; simp [h])
      · exact .inr h

theorem setInsert_end (lt : T → T → Bool) (hlt : Total lt) {x : T} {l : List T} (h : ∀ y ∈ l, lt y x = true) : setInsert lt x l = l ++ [x] := by
  induction l with
  | nil => rfl
  | cons y l ih =>
    have h1 : lt y x = true := h y (by simp)
    have h2 : lt x y = false := by
      cases e : lt x y with
      | false => rfl
      | true => rw [← hlt.irrefl x, hlt.trans x y x e h1]
    unfold setInsert
    rw [h2, h1, ih fun z hz => h z (by simp [hz])]
    rfl

theorem foldl_setInsert (lt : T → T → Bool) (hlt : Total lt) : ∀ (xs ys : List T), (ys ++ xs).Pairwise (fun a b => lt a b = true) →
    xs.foldl (fun t x => setInsert lt x t) ys = ys ++ xs := by
  intro xs
  induction xs with
  | nil => intro ys _; simp
  | cons x xs ih =>
    intro ys h
    rw [List.foldl_cons, setInsert_end lt hlt]
    · rw [ih]
      · simp
      · simpa using h
    · intro y hy
      rw [List.pairwise_append] at h
      exact h.2.2 y hy x (by simp)

/-- Inserting into a set keeps its order and adds at most the element. -/
theorem setInsert_sorted (lt : T → T → Bool) (hlt : Total lt) (x : T) (l : List T) (h : l.Pairwise fun a b => lt a b = true) :
    (setInsert lt x l).Pairwise (fun a b => lt a b = true) ∧ ∀ y, y ∈ setInsert lt x l ↔ y = x ∨ y ∈ l := by
  induction l with
  | nil => simp [setInsert]
  | cons z l ih =>
    rw [List.pairwise_cons] at h
    unfold setInsert
    by_cases h1 : lt x z = true
    · rw [if_pos h1]
      refine ⟨List.pairwise_cons.2 ⟨fun y hy => ?_, List.pairwise_cons.2 h⟩, by simp⟩
      rcases List.mem_cons.1 hy with rfl | hy
      · exact h1
      · exact hlt.trans _ _ _ h1 (h.1 y hy)
    · rw [if_neg h1]
      by_cases h2 : lt z x = true
      · rw [if_pos h2]
        refine ⟨List.pairwise_cons.2 ⟨fun y hy => ?_, (ih h.2).1⟩, fun y => ?_⟩
        · rcases setInsert_mem lt hy with rfl | hy
          · exact h2
          · exact h.1 y hy
        · rw [List.mem_cons, (ih h.2).2, List.mem_cons]
          constructor
          · rintro (h | h | h)
            · exact .inr (.inl h)
            · exact .inl h
            · exact .inr (.inr h)
          · rintro (h | h | h)
            · exact .inr (.inl h)
            · exact .inl h
            · exact .inr (.inr h)
      · rw [if_neg h2]
        have : x = z := hlt.total x z (by simpa using h1) (by simpa using h2)
        subst this
        exact ⟨List.pairwise_cons.2 h, fun y => by simp⟩

theorem foldl_setInsert_sorted (lt : T → T → Bool) (hlt : Total lt) (xs : List T) : ∀ l : List T, l.Pairwise (fun a b => lt a b = true) →
    (xs.foldl (fun t x => setInsert lt x t) l).Pairwise (fun a b => lt a b = true) ∧
    ∀ y, y ∈ xs.foldl (fun t x => setInsert lt x t) l ↔ y ∈ xs ∨ y ∈ l := by
  induction xs with
  | nil => intro l h; exact ⟨h, by simp⟩
  | cons x xs ih =>
    intro l h
    obtain ⟨h1, h2⟩ := setInsert_sorted lt hlt x l h
    obtain ⟨h3, h4⟩ := ih _ h1
    refine ⟨h3, fun y => ?_⟩
    rw [List.foldl_cons, h4, h2, List.mem_cons]
    constructor
    · rintro (h | h | h)
      · exact .inl (.inr h)
      · exact .inl (.inl h)
      · exact .inr h
    · rintro ((h | h) | h)
      · exact .inr (.inl h)
      · exact .inl h
      · exact .inr (.inr h)

theorem hashInsert_perm [BEq T] [LawfulBEq T] (place : List T → T → Nat) {x : T} {t : List T} (h : x ∉ t) :
    (hashInsert place x t).Perm (x :: t) := by
  unfold hashInsert
  rw [if_neg (by simpa using h)]
  have := List.perm_middle (a := x) (l₁ := t.take (place t x)) (l₂ := t.drop (place t x))
  rwa [List.take_append_drop] at this

theorem foldl_hashInsert [BEq T] [LawfulBEq T] (place : List T → T → Nat) : ∀ (xs ys : List T), (ys ++ xs).Nodup →
    (xs.foldl (fun t x => hashInsert place x t) ys).Perm (ys ++ xs) := by
  intro xs
  induction xs with
  | nil => intro ys _; simp
  | cons x xs ih =>
    intro ys h
    have hx : x ∉ ys := by
      rw [List.nodup_append] at h
      intro hy
      exact h.2.2 x hy x (by simp) rfl
    have hp := hashInsert_perm place hx
    rw [List.foldl_cons]
    have e : (x :: ys ++ xs).Perm (ys ++ x :: xs) := List.perm_middle.symm
    have : (hashInsert place x ys ++ xs).Perm (ys ++ x :: xs) := (hp.append_right xs).trans e
    exact (ih _ (this.symm.nodup h)).trans this

/-- Inserting into an unordered set: no element twice, at most the element is added. -/
theorem foldl_hashInsert_nodup [BEq T] [LawfulBEq T] (place : List T → T → Nat) (xs : List T) : ∀ l : List T, l.Nodup →
    (xs.foldl (fun t x => hashInsert place x t) l).Nodup ∧ ∀ y, y ∈ xs.foldl (fun t x => hashInsert place x t) l ↔ y ∈ xs ∨ y ∈ l := by
  induction xs with
  | nil => intro l h; exact ⟨h, by simp⟩
  | cons x xs ih =>
    intro l h
    have h12 : (hashInsert place x l).Nodup ∧ ∀ y, y ∈ hashInsert place x l ↔ y = x ∨ y ∈ l := by
      by_cases hx : x ∈ l
      · have : hashInsert place x l = l := by unfold hashInsert; rw [if_pos (by simpa using hx)]
        rw [this]
        exact ⟨h, fun y => ⟨.inr, fun h => h.elim (fun h => h ▸ hx) id⟩⟩
      · have hp := hashInsert_perm place hx
        exact ⟨hp.symm.nodup (List.nodup_cons.2 ⟨hx, h⟩), fun y => by rw [hp.mem_iff, List.mem_cons]⟩
    obtain ⟨h1, h2⟩ := h12
    obtain ⟨h3, h4⟩ := ih _ h1
    refine ⟨h3, fun y => ?_⟩
    rw [List.foldl_cons, h4, h2, List.mem_cons]
    constructor
    · rintro (h | h | h)
      · exact .inl (.inr h)
      · exact .inl (.inl h)
      · exact .inr h
    · rintro ((h | h) | h)
      · exact .inr (.inl h)
      · exact .inl h
      · exact .inr (.inr h)

theorem getAll_map {E : Conv F T} {vs : List (Value F)} {xs : List T} (h : vs.map E.get = xs.map .ok) : GetAll E vs xs := by
  induction vs generalizing xs with
  | nil =>
    cases xs with
    | nil => exact .nil
    | cons => cases h
  | cons v vs ih =>
    cases xs with
    | nil => cases h
    | cons x xs =>
      simp only [List.map_cons, List.cons.injEq] at h
      exact .cons h.1 (ih h.2)

/-! ## Maps -/

theorem toMembers_eq {E : Conv F T} : ∀ (xs : List (List Nat × T)) (vs : List (List Nat × Value F)),
    All2 (fun x v => x.1 = v.1 ∧ E.toValue x.2 = .ok v.2) xs vs → ∀ ms, Sorted ms →
    toMembers E xs (.obj ms) = .ok (.obj (vs.foldl (fun ms v => put v.1 v.2 ms) ms)) := by
  intro xs vs h
  induction h with
  | nil => intro ms _; rfl
  | @cons x v xs vs hx _ ih =>
    intro ms hm
    obtain ⟨k, x⟩ := x
    obtain ⟨hk, hx⟩ := hx
    simp only at hk hx
    unfold toMembers
    rw [hx]
    show (match withKey k (assign v.2) (.obj ms) with | (.ok _, c) => _ | (.error e, _) => _) = _
    rw [withKey_obj hm]
    show toMembers E xs (.obj (put k v.2 ms)) = _
    rw [ih _ (put_sorted hm), List.foldl_cons, hk]

theorem put_sorted_all (vs : List (List Nat × Value F)) : ∀ ms, Sorted ms → Sorted (vs.foldl (fun ms v => put v.1 v.2 ms) ms) := by
  induction vs with
  | nil => intro ms h; exact h
  | cons v vs ih => intro ms h; exact ih _ (put_sorted h)

theorem put_lookup_all (vs : List (List Nat × Value F)) (hn : (vs.map Prod.fst).Nodup) : ∀ ms, Sorted ms → ∀ k,
    (vs.foldl (fun ms v => put v.1 v.2 ms) ms).lookup k = (vs.lookup k).or (ms.lookup k) := by
  induction vs with
  | nil => intro ms _ k; rfl
  | cons v vs ih =>
    intro ms hm k
    rw [List.map_cons, List.nodup_cons] at hn
    rw [List.foldl_cons, ih hn.2 _ (put_sorted hm), put_lookup hm, List.lookup_cons]
    by_cases hk : k = v.1
    · subst hk
      have : vs.lookup v.1 = none := by
        cases e : vs.lookup v.1 with
        | none => rfl
        | some y => exact absurd ((lookup_keys v.1).1 (by rw [e]; simp)) hn.1
      rw [this]; simp
    · have : (k == v.1) = false := by simp [hk]
      rw [this, if_neg hk]

/-- Members that are in order come back as they are. -/
theorem put_all_sorted (vs : List (List Nat × Value F)) (h : Sorted vs) : vs.foldl (fun ms v => put v.1 v.2 ms) [] = vs := by
  have hs : Sorted ([] : List (List Nat × Value F)) := by simp [Sorted]
  apply sorted_ext (put_sorted_all vs [] hs) h
  intro k
  rw [put_lookup_all vs (sorted_nodup h) [] hs]
  simp

theorem emplaceAll_run {E : Conv F T} (em : List Nat → T → List (List Nat × T) → List (List Nat × T)) {ms : List (List Nat × Value F)}
    {xs : List (List Nat × T)} (h : All2 (fun v x => x.1 = v.1 ∧ E.get v.2 = .ok x.2) ms xs) {last : Iter}
    (hl : IterAt 0 (.obj ms) ms.length last) : ∀ d p it n t, IterAt 0 (.obj ms) p it → p + d = ms.length → d < n →
    emplaceAll E em (.obj ms) n it last t = (.ok (), (xs.drop p).foldl (fun t x => em x.1 x.2 t) t) := by
  have hlen := h.length_eq
  intro d
  induction d with
  | zero =>
    intro p it n t hi hp hn
    obtain ⟨n, rfl⟩ : ∃ k, n = k + 1 := ⟨n - 1, by omega⟩
    unfold emplaceAll
    rw [eq_at hi hl, decide_eq_true (by omega)]
    rw [List.drop_of_length_le (by omega)]
    rfl
  | succ d ih =>
    intro p it n t hi hp hn
    obtain ⟨n, rfl⟩ : ∃ k, n = k + 1 := ⟨n - 1, by omega⟩
    have hpm : p < ms.length := by omega
    have hpx : p < xs.length := by omega
    have hxx : xs[p].1 = ms[p].1 ∧ E.get ms[p].2 = .ok xs[p].2 := by
      clear hl ih hi hn hp
      induction h generalizing p with
      | nil => simp at hpm
      | cons h1 _ ih =>
        cases p with
        | zero => exact h1
        | succ p => simpa using ih (by simpa using hlen) p (by simpa using hpm) (by simpa using hpx)
    have hg : ms[p]? = some ms[p] := List.getElem?_eq_getElem hpm
    obtain ⟨jt, h1, h2⟩ := incr_at hi (show p < (Value.obj ms).size from hpm)
    unfold emplaceAll
    rw [eq_at hi hl, decide_eq_false (by omega)]
    dsimp only
    rw [key_at hi hg, deref_at hi (x := ms[p].2) (by show (ms.map Prod.snd)[p]? = _; rw [List.getElem?_map, hg]; rfl), h1]
    dsimp only
    rw [hxx.2]
    dsimp only
    rw [ih (p + 1) jt n _ h2 (by omega) (by omega), List.drop_eq_getElem_cons hpx, List.foldl_cons, hxx.1]

theorem emplace_end {k : List Nat} {x : T} {ms : Map.T T} (h : ∀ m ∈ ms, m.1 < k) : Map.emplace k x ms = ms ++ [(k, x)] := by
  induction ms with
  | nil => rfl
  | cons m ms ih =>
    obtain ⟨k', x'⟩ := m
    have h1 : k' < k := h (k', x') (by simp)
    unfold Map.emplace
    rw [(ltKey_false k k').2 (List.lt_asymm h1), (ltKey_iff k' k).2 h1, ih fun m hm => h m (by simp [hm])]
    rfl

theorem foldl_emplace : ∀ (xs ys : Map.T T), Sorted (ys ++ xs) → xs.foldl (fun t x => Map.emplace x.1 x.2 t) ys = ys ++ xs := by
  intro xs
  induction xs with
  | nil => intro ys _; simp
  | cons x xs ih =>
    intro ys h
    rw [List.foldl_cons, emplace_end]
    · rw [ih]
      · simp
      · simpa using h
    · intro m hm
      unfold Sorted at h
      rw [List.pairwise_append] at h
      exact h.2.2 m hm x (by simp)

theorem hashEmplace_perm (place : List (List Nat × T) → List Nat → Nat) {k : List Nat} {x : T} {t : List (List Nat × T)}
    (h : k ∉ t.map Prod.fst) : (hashEmplace place k x t).Perm ((k, x) :: t) := by
  unfold hashEmplace
  rw [if_neg]
  · have := List.perm_middle (a := (k, x)) (l₁ := t.take (place t k)) (l₂ := t.drop (place t k))
    rwa [List.take_append_drop] at this
  · intro ha
    rw [List.any_eq_true] at ha
    obtain ⟨p, hp, he⟩ := ha
    exact h (List.mem_map.2 ⟨p, hp, by simpa using he⟩)

theorem foldl_hashEmplace (place : List (List Nat × T) → List Nat → Nat) : ∀ (xs ys : List (List Nat × T)),
    ((ys ++ xs).map Prod.fst).Nodup → (xs.foldl (fun t x => hashEmplace place x.1 x.2 t) ys).Perm (ys ++ xs) := by
  intro xs
  induction xs with
  | nil => intro ys _; simp
  | cons x xs ih =>
    intro ys h
    have hx : x.1 ∉ ys.map Prod.fst := by
      rw [List.map_append, List.nodup_append] at h
      intro hy
      exact h.2.2 x.1 hy x.1 (by simp) rfl
    have hp := hashEmplace_perm place (x := x.2) hx
    rw [List.foldl_cons]
    have e : (x :: ys ++ xs).Perm (ys ++ x :: xs) := List.perm_middle.symm
    have : (hashEmplace place x.1 x.2 ys ++ xs).Perm (ys ++ x :: xs) := (hp.append_right xs).trans e
    exact (ih _ ((this.map Prod.fst).symm.nodup h)).trans this

end Configor
