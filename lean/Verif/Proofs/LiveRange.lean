import Verif.Model.LiveRange
import Verif.Proofs.LiveMore
/-!
# Arithmetic with iterators of a value that changes, and ranges
-/
set_option autoImplicit false
namespace Configor
open Spec

variable {F : Type}

theorem decr_live {c : Live F} (hc : LiveOk c) {p : Nat} {it : LIter} (h : PointsAt c (p + 1) it) : ∃ jt, c.decr it = .ok jt ∧ PointsAt c p jt := by
  obtain ⟨i, h1, h2⟩ := h
  obtain ⟨j, h3, h4⟩ := decr_at h2
  refine ⟨_, ?_, place_at hc h4 it⟩
  unfold Live.decr; rw [h1]
  show (do .ok (c.place it (← i.decr c.content))) = _
  rw [h3]; rfl

theorem plus_live {c : Live F} (hc : LiveOk c) {xs : List (Value F)} (hx : c.content = .arr xs) {p q : Nat} {it : LIter} (h : PointsAt c p it) {off : Int}
    (hq : (q : Int) = p + off) (hl : q ≤ xs.length) : ∃ jt, c.plus off it = .ok jt ∧ PointsAt c q jt := by
  obtain ⟨i, h1, h2⟩ := h
  rw [hx] at h2
  obtain ⟨j, h3, h4⟩ := (plus_at (off := off) h2).1 q hq hl
  rw [← hx] at h4
  refine ⟨_, ?_, place_at hc h4 it⟩
  have e : c.plus off it = (do .ok (c.place it (← (← c.resolve it).plus off c.content))) := by
    obtain ⟨n, sh⟩ := c
    cases sh with
    | map home ms => cases hx
    | vec => rfl
    | plain => rfl
  rw [e, h1]
  show (do .ok (c.place it (← i.plus off c.content))) = _
  rw [hx, h3]; rfl

theorem plus_out {c : Live F} {xs : List (Value F)} (hx : c.content = .arr xs) {p : Nat} {it : LIter} (h : PointsAt c p it) {off : Int}
    (hq : ¬ (0 ≤ p + off ∧ p + off ≤ xs.length)) : c.plus off it = .error .ub := by
  obtain ⟨i, h1, h2⟩ := h
  rw [hx] at h2
  have h3 := (plus_at (off := off) h2).2 hq
  have e : c.plus off it = (do .ok (c.place it (← (← c.resolve it).plus off c.content))) := by
    obtain ⟨n, sh⟩ := c
    cases sh with
    | map home ms => cases hx
    | vec => rfl
    | plain => rfl
  rw [e, h1]
  show (do .ok (c.place it (← i.plus off c.content))) = _
  rw [hx, h3]; rfl

theorem diff_live {c : Live F} (hc : LiveOk c) {xs : List (Value F)} (hx : c.content = .arr xs) {p q : Nat} {it jt : LIter} (h : PointsAt c p it)
    (h' : PointsAt c q jt) : c.diff it jt = .ok ((p : Int) - q) ∧ c.lt it jt = .ok (decide (p < q)) := by
  obtain ⟨i, h1, h2⟩ := h
  obtain ⟨j, h3, h4⟩ := h'
  rw [hx] at h2 h4
  obtain ⟨n, sh⟩ := c
  cases sh with
  | map home ms => cases hx
  | plain v =>
    have hx : v = .arr xs := hx
    subst hx
    exact absurd rfl hc.1
  | vec ys marks cap =>
    have e1 : (⟨n, .vec ys marks cap⟩ : Live F).diff it jt =
      (do (← (⟨n, .vec ys marks cap⟩ : Live F).resolve it).diff (.arr ys) (← (⟨n, .vec ys marks cap⟩ : Live F).resolve jt)) := rfl
    have e2 : (⟨n, .vec ys marks cap⟩ : Live F).lt it jt =
      (do (← (⟨n, .vec ys marks cap⟩ : Live F).resolve it).lt (.arr ys) (← (⟨n, .vec ys marks cap⟩ : Live F).resolve jt)) := rfl
    have hy : Value.arr ys = .arr xs := hx
    rw [e1, e2, h1, h3, hy]
    exact ⟨diff_at h2 h4, lt_at h2 h4⟩

theorem resolved_vec {n : Nat} {xs : List (Value F)} {marks : List Nat} {cap p : Nat} {it : LIter} (h : PointsAt ⟨n, .vec xs marks cap⟩ p it) :
    ∃ a b d, (⟨n, .vec xs marks cap⟩ : Live F).resolve it = .ok ⟨a, some p, b, d⟩ := by
  obtain ⟨⟨a, s, b, d⟩, h1, h2⟩ := h
  have h3 : s = some p := h2.2.2
  subst h3
  exact ⟨a, b, d, h1⟩

theorem resolved_map {n home : Nat} {ms : Map.T (Nat × Value F)} {p : Nat} {it : LIter} (h : PointsAt ⟨n, .map home ms⟩ p it) :
    ∃ a b d, (⟨n, .map home ms⟩ : Live F).resolve it = .ok ⟨a, b, some p, d⟩ := by
  obtain ⟨⟨a, b, s, d⟩, h1, h2⟩ := h
  have h3 : s = some p := h2.2.2
  subst h3
  exact ⟨a, b, d, h1⟩

theorem strip_take (p : Nat) (ms : Map.T (Nat × Value F)) : strip (ms.take p) = (strip ms).take p := by simp [strip]
theorem strip_drop (p : Nat) (ms : Map.T (Nat × Value F)) : strip (ms.drop p) = (strip ms).drop p := by simp [strip]
theorem strip_append (ms ns : Map.T (Nat × Value F)) : strip (ms ++ ns) = strip ms ++ strip ns := by simp [strip]

theorem eraseRange_live {c : Live F} (hc : LiveOk c) {p q : Nat} {it jt : LIter} (hi : PointsAt c p it) (hj : PointsAt c q jt) (hpq : p ≤ q)
    (ht : c.content.type = .arr ∨ c.content.type = .obj) :
    ∃ kt d, Live.eraseRange it jt c = (.ok kt, d) ∧ d.content = lessRange p q c.content ∧ PointsAt d p kt ∧
      (∀ r lt, r < p → PointsAt c r lt → PointsAt d r lt) ∧
      (c.content.type = .arr → ∀ r lt, p ≤ r → PointsAt c r lt → Useless d lt) ∧
      (c.content.type = .obj → (∀ r lt, p ≤ r → r < q → PointsAt c r lt → Useless d lt) ∧
        ∀ r lt, q ≤ r → PointsAt c r lt → PointsAt d (r - (q - p)) lt) := by
  obtain ⟨n, sh⟩ := c
  cases sh with
  | vec xs marks cap =>
    obtain ⟨a, b, d, h1⟩ := resolved_vec hi
    obtain ⟨a', b', d', h2⟩ := resolved_vec hj
    have hq := resolve_vec hc.1 h2
    have ok := vecEraseRange_ok hc hpq hq
    refine ⟨_, Live.vecEraseRange n xs marks cap p q, ?_, rfl, place_at (i := ⟨some 0, some p, none, 0⟩) ok ⟨rfl, ?_, rfl⟩ Live.unset, ?_, ?_, fun h => by cases h⟩
    · simp only [Live.eraseRange, h1, h2, if_pos hpq]
    · rw [elements_length]
      show p ≤ (xs.take p ++ xs.drop q).length
      simp; omega
    · intro r lt hr hl
      obtain ⟨m, h3, h4⟩ := (at_vec hc).1 hl
      exact (at_vec ok).2 ⟨m, h3, old_mark h4 hr⟩
    · intro _ r lt hr hl
      obtain ⟨m, h3, h4⟩ := (at_vec hc).1 hl
      refine useless_vec h3 fun h => ?_
      have hm : m < n := hc.2 m (List.mem_of_getElem? h4)
      have hlen : (marks.take p).length ≤ r := by simp; omega
      rw [List.getElem?_append_right hlen] at h
      exact all_new hm h
  | map home ms =>
    obtain ⟨a, b, d, h1⟩ := resolved_map hi
    obtain ⟨a', b', d', h2⟩ := resolved_map hj
    have hq : q ≤ ms.length := by
      rcases (at_map hc).1 hj with ⟨m, hm, _⟩ | ⟨e, _⟩
      · have := (List.getElem?_eq_some_iff.1 hm).1; omega
      · omega
    have ok : LiveOk (⟨n, .map home (ms.take p ++ ms.drop q)⟩ : Live F) := sub_ok hc (take_drop_sublist ms hpq)
    refine ⟨_, ⟨n, .map home (ms.take p ++ ms.drop q)⟩, ?_, ?_, place_at (i := ⟨some 0, none, some p, 0⟩) ok ⟨rfl, ?_, rfl⟩ Live.unset, ?_, (fun h => by cases h), fun _ => ⟨?_, ?_⟩⟩
    · simp only [Live.eraseRange, h1, h2, if_pos hpq]
    · show Value.obj (strip _) = .obj ((strip ms).take p ++ (strip ms).drop q)
      rw [strip_append, strip_take, strip_drop]
    · rw [elements_length]
      show p ≤ (strip _).length
      rw [strip_length]; simp; omega
    · intro r lt hr hl
      rcases (at_map hc).1 hl with ⟨m, hm, e⟩ | ⟨e, _⟩
      · have := (List.getElem?_eq_some_iff.1 hm).1
        refine (at_map ok).2 (.inl ⟨m, ?_, e⟩)
        rw [List.getElem?_append_left (by simp; omega), List.getElem?_take_of_lt hr]; exact hm
      · omega
    · intro r lt hr hrq hl
      rcases (at_map hc).1 hl with ⟨m, hm, e⟩ | ⟨e, _⟩
      · refine useless_node e fun x hx he => ?_
        have hmm := List.mem_of_getElem? hm
        have hxm := (take_drop_sublist ms hpq).subset hx
        have hxe : x = m := hc.2.2.2 x hxm m hmm he
        subst hxe
        rcases List.mem_append.1 hx with hx | hx
        · obtain ⟨s, hs⟩ := List.mem_iff_getElem?.1 hx
          have hsp : s < p := by have := (List.getElem?_eq_some_iff.1 hs).1; simp at this; omega
          rw [List.getElem?_take_of_lt hsp] at hs
          have := sorted_pos hc.2.1 hs hm
          omega
        · obtain ⟨s, hs⟩ := List.mem_iff_getElem?.1 hx
          rw [List.getElem?_drop] at hs
          have := sorted_pos hc.2.1 hs hm
          omega
      · omega
    · intro r lt hr hl
      rcases (at_map hc).1 hl with ⟨m, hm, e⟩ | ⟨e, e'⟩
      · have := (List.getElem?_eq_some_iff.1 hm).1
        refine (at_map ok).2 (.inl ⟨m, ?_, e⟩)
        rw [List.getElem?_append_right (by simp; omega), List.getElem?_drop]
        simp only [List.length_take]
        rw [show q + (r - (q - p) - min p ms.length) = r by omega]; exact hm
      · exact (at_map ok).2 (.inr ⟨by simp; omega, e'⟩)
  | plain v =>
    obtain ⟨h1, h2⟩ := hc
    rcases ht with ht | ht
    · exact absurd ht h1
    · exact absurd ht h2

theorem eraseRange_backwards {c : Live F} {p q : Nat} {it jt : LIter} (hi : PointsAt c p it) (hj : PointsAt c q jt) (hpq : q < p)
    (ht : c.content.type = .arr ∨ c.content.type = .obj) (hc : LiveOk c) : Live.eraseRange it jt c = (.error .ub, c) := by
  obtain ⟨n, sh⟩ := c
  cases sh with
  | vec xs marks cap =>
    obtain ⟨a, b, d, h1⟩ := resolved_vec hi
    obtain ⟨a', b', d', h2⟩ := resolved_vec hj
    simp only [Live.eraseRange, h1, h2, if_neg (show ¬ p ≤ q by omega)]
  | map home ms =>
    obtain ⟨a, b, d, h1⟩ := resolved_map hi
    obtain ⟨a', b', d', h2⟩ := resolved_map hj
    simp only [Live.eraseRange, h1, h2, if_neg (show ¬ p ≤ q by omega)]
  | plain v =>
    obtain ⟨h1, h2⟩ := hc
    rcases ht with ht | ht
    · exact absurd ht h1
    · exact absurd ht h2

theorem size_lessAt {v : Value F} {p : Nat} (h : p < v.size) (ht : v.type = .arr ∨ v.type = .obj) : (lessAt p v).size + 1 = v.size := by
  cases v with
  | arr xs => simp only [lessAt, Value.size, List.length_append, List.length_take, List.length_drop] at h ⊢; omega
  | obj ms => simp only [lessAt, Value.size, List.length_append, List.length_take, List.length_drop] at h ⊢; omega
  | _ => simp [Value.type] at ht

theorem lessAt_type (p : Nat) (v : Value F) : (lessAt p v).type = v.type := by cases v <;> rfl

theorem lessRange_lessAt {v : Value F} {p k : Nat} (h : p < v.size) : lessRange p (p + k) (lessAt p v) = lessRange p (p + (k + 1)) v := by
  have aux : ∀ {α : Type} (l : List α), p < l.length →
      (l.take p ++ l.drop (p + 1)).take p ++ (l.take p ++ l.drop (p + 1)).drop (p + k) = l.take p ++ l.drop (p + (k + 1)) := by
    intro α l hl
    have e : (l.take p).length = p := by simp; omega
    rw [List.take_append_of_le_length (by omega), List.take_of_length_le (by omega), List.drop_append, e,
      List.drop_of_length_le (by omega), List.drop_drop]
    simp only [List.nil_append]
    congr 2
    omega
  cases v with
  | arr xs => show Value.arr _ = Value.arr _; exact congrArg _ (aux xs h)
  | obj ms => show Value.obj _ = Value.obj _; exact congrArg _ (aux ms h)
  | _ => rfl

theorem lessRange_nil (p : Nat) (v : Value F) : lessRange p p v = v := by cases v <;> simp [lessRange]

theorem eraseTimes_live {fo : FloatOps F} {g : Growth} {p k : Nat} : ∀ {c : Live F} {it : LIter}, Lived fo g c → PointsAt c p it →
    p + k ≤ c.content.size → (c.content.type = .arr ∨ c.content.type = .obj) →
    ∃ d kt, eraseTimes k it c = (.ok kt, d) ∧ d.content = lessRange p (p + k) c.content ∧ PointsAt d p kt := by
  induction k with
  | zero => exact fun {c it} _ hi _ _ => ⟨c, it, rfl, (lessRange_nil p _).symm, hi⟩
  | succ k ih =>
    intro c it hc hi hk ht
    obtain ⟨jt, d, h1, h2, h3, _⟩ := erase_live (lived_ok hc) hi (by omega) ht
    have hs := size_lessAt (p := p) (v := c.content) (by omega) ht
    obtain ⟨e, kt, h4, h5, h6⟩ := ih (.erase hc h1) h3 (by rw [h2]; omega) (by rw [h2, lessAt_type]; exact ht)
    refine ⟨e, kt, by simp only [eraseTimes, h1, h4], ?_, h6⟩
    rw [h5, h2, lessRange_lessAt (by omega)]

end Configor
