import Verif.Props.Convert
import Verif.Props.Value
/-!
# Exactly what erasing and reading do where they report nothing
-/
set_option autoImplicit false
namespace Configor.Props
open Spec Configor.ValueOps Conv

variable {F T S : Type}

/-! ## C43 -/

/-- C43, partial: exactly which assignments `c[i] = x` to a null value or an array are undefined, throw and end normally, for all indices of `size_t`. -/
theorem C43_exactly_partial (v : Value F) (xs : List (Value F)) (hv : arrayOf v = some xs) (hs : xs.length ≤ vectorMax) (i : Nat)
    (hi : i < 18446744073709551616) (x : Value F) :
    ((withIndex i (assign x) v).1 = .error .ub ↔ xs = [] ∧ i = 18446744073709551615) ∧
    ((withIndex i (assign x) v).1 = .ok () ↔ i < vectorMax) ∧
    (∀ e, (withIndex i (assign x) v).1 = .error (.exn e) ↔ e = .lengthError ∧ vectorMax ≤ i ∧ ¬ (xs = [] ∧ i = 18446744073709551615)) := by
  have hm : vectorMax = 576460752303423487 := rfl
  by_cases h : i < vectorMax
  · obtain ⟨v', e, _⟩ := C43_element_assignment_partial v xs hv i h x
    rw [e]
    exact ⟨⟨nofun, fun h' => absurd h'.2 (by omega)⟩, ⟨fun _ => h, fun _ => rfl⟩, fun _ => ⟨nofun, fun h' => absurd h'.2.1 (by omega)⟩⟩
  · by_cases hw : xs = [] ∧ i = 18446744073709551615
    · obtain ⟨rfl, rfl⟩ := hw
      have e : (withIndex 18446744073709551615 (assign x) v).1 = .error .ub := by
        cases v <;> cases hv
        · exact congrArg Prod.fst (C43_violated x).1
        · exact congrArg Prod.fst (C43_violated x).2
      rw [e]
      exact ⟨⟨fun _ => ⟨rfl, rfl⟩, fun _ => rfl⟩, ⟨nofun, fun h' => absurd h' h⟩, fun _ => ⟨nofun, fun h' => absurd ⟨rfl, rfl⟩ h'.2.2⟩⟩
    · have e := C43_too_large v xs hv hs i (by omega) hi (fun a b => hw ⟨a, b⟩) (assign x)
      rw [e]
      refine ⟨⟨nofun, fun h' => absurd h' hw⟩, ⟨nofun, fun h' => absurd h' h⟩, fun e' => ⟨fun h' => ?_, fun h' => by rw [h'.1]⟩⟩
      cases h'
      exact ⟨rfl, by omega, hw⟩

example : (withIndex 18446744073709551615 (assign (.int 1)) (.arr [.null] : Value Unit)).1 = .error (.exn .lengthError) :=
  ((C43_exactly_partial _ [.null] rfl (by decide) _ (by decide) _).2.2 _).2 ⟨rfl, by decide, by simp⟩

/-! ## C48 -/

/-- C48, partial: `erase(index)` throws exactly if the value is no array, and is undefined exactly for arrays that have no such element. -/
theorem C48_exactly_partial (v : Value F) (i : Nat) :
    ((eraseIndex i v).1 = .error .ub ↔ v.type = .arr ∧ v.size ≤ i) ∧
    (∀ e, (eraseIndex i v).1 = .error (.exn e) ↔ v.type ≠ .arr ∧ e = .invalidKey) ∧
    ((eraseIndex i v).1 = .ok () ↔ v.type = .arr ∧ i < v.size) ∧
    ((eraseIndex i v).1 ≠ .ok () → (eraseIndex i v).2 = v) := by
  cases v with
  | arr xs =>
    by_cases h : i < xs.length
    · have e : eraseIndex i (.arr xs) = (.ok (), .arr (xs.eraseIdx i)) := if_pos h
      rw [e]
      show (_ ↔ _ ∧ xs.length ≤ i) ∧ (_) ∧ (_ ↔ _ ∧ i < xs.length) ∧ _
      exact ⟨⟨nofun, fun h' => absurd h (by omega)⟩, fun _ => ⟨nofun, fun h' => absurd rfl h'.1⟩, ⟨fun _ => ⟨rfl, h⟩, fun _ => rfl⟩, fun h' => absurd rfl h'⟩
    · have e : eraseIndex i (.arr xs) = (.error .ub, .arr xs) := if_neg h
      rw [e]
      show (_ ↔ _ ∧ xs.length ≤ i) ∧ (_) ∧ (_ ↔ _ ∧ i < xs.length) ∧ _
      exact ⟨⟨fun _ => ⟨rfl, by omega⟩, fun _ => rfl⟩, fun _ => ⟨nofun, fun h' => absurd rfl h'.1⟩, ⟨nofun, fun h' => absurd h'.2 h⟩, fun _ => rfl⟩
  | _ => simp [eraseIndex, Value.type, eq_comm]

example : (eraseIndex 7 (.arr [.int 1]) : _ × Value Unit).1 = .error .ub := (C48_exactly_partial _ 7).1.2 ⟨rfl, by decide⟩

/-! ## C109 -/

/-- The iterator is at position `p` of the value at the address `a`. -/
def ItAt (a : Nat) (v : Value F) (it : Iter) (p : Nat) : Prop :=
  it.target = some a ∧ (match v with | .obj _ => it.objIt | _ => it.arrIt) = some p

/-- C109, partial: `erase(pos)` on an array or object never throws: it removes the element at `pos`, or is undefined if there is none. -/
theorem C109_exactly_partial (a : Nat) (v : Value F) (hv : v.type = .arr ∨ v.type = .obj) (it : Iter) :
    ((eraseIter a it v).1 = .error .ub ↔ ¬ ∃ p, ItAt a v it p ∧ p < v.size) ∧
    (∀ p, ItAt a v it p → p < v.size → ∃ jt, (eraseIter a it v).1 = .ok jt ∧ ItAt a v jt p ∧ (eraseIter a it v).2.size + 1 = v.size) ∧
    (∀ e, (eraseIter a it v).1 ≠ .error (.exn e)) := by
  cases v with
  | arr xs =>
    have e : eraseIter a it (.arr xs) = match it.arrIt with
        | some p => if it.target = some a ∧ p < xs.length then (.ok ⟨some a, some p, none, 0⟩, .arr (xs.eraseIdx p)) else (.error .ub, .arr xs)
        | none => (.error .ub, .arr xs) := rfl
    have hi : ∀ p, ItAt a (.arr xs) it p ↔ it.target = some a ∧ it.arrIt = some p := fun _ => Iff.rfl
    simp only [hi]
    rw [e]
    cases hp : it.arrIt with
    | none => exact ⟨⟨fun _ => fun ⟨_, h, _⟩ => (by cases h.2), fun _ => rfl⟩, fun _ h => (by cases h.2), nofun⟩
    | some p =>
      by_cases h : it.target = some a ∧ p < xs.length
      · dsimp only; rw [if_pos h]
        refine ⟨⟨nofun, fun h' => absurd ⟨p, ⟨h.1, rfl⟩, h.2⟩ h'⟩, fun q h1 _ => ?_, nofun⟩
        cases h1.2
        refine ⟨_, rfl, ⟨rfl, rfl⟩, ?_⟩
        show (xs.eraseIdx p).length + 1 = xs.length
        rw [List.length_eraseIdx_of_lt h.2]
        omega
      · dsimp only; rw [if_neg h]
        refine ⟨⟨fun _ => fun ⟨q, h1, h2⟩ => ?_, fun _ => rfl⟩, fun q h1 h2 => ?_, nofun⟩
        · cases h1.2; exact h ⟨h1.1, h2⟩
        · cases h1.2; exact absurd ⟨h1.1, h2⟩ h
  | obj ms =>
    have e : eraseIter a it (.obj ms) = match it.objIt with
        | some p => if it.target = some a ∧ p < ms.length then (.ok ⟨some a, none, some p, 0⟩, .obj (ms.eraseIdx p)) else (.error .ub, .obj ms)
        | none => (.error .ub, .obj ms) := rfl
    have hi : ∀ p, ItAt a (.obj ms) it p ↔ it.target = some a ∧ it.objIt = some p := fun _ => Iff.rfl
    simp only [hi]
    rw [e]
    cases hp : it.objIt with
    | none => exact ⟨⟨fun _ => fun ⟨_, h, _⟩ => (by cases h.2), fun _ => rfl⟩, fun _ h => (by cases h.2), nofun⟩
    | some p =>
      by_cases h : it.target = some a ∧ p < ms.length
      · dsimp only; rw [if_pos h]
        refine ⟨⟨nofun, fun h' => absurd ⟨p, ⟨h.1, rfl⟩, h.2⟩ h'⟩, fun q h1 _ => ?_, nofun⟩
        cases h1.2
        refine ⟨_, rfl, ⟨rfl, rfl⟩, ?_⟩
        show (ms.eraseIdx p).length + 1 = ms.length
        rw [List.length_eraseIdx_of_lt h.2]
        omega
      · dsimp only; rw [if_neg h]
        refine ⟨⟨fun _ => fun ⟨q, h1, h2⟩ => ?_, fun _ => rfl⟩, fun q h1 h2 => ?_, nofun⟩
        · cases h1.2; exact h ⟨h1.1, h2⟩
        · cases h1.2; exact absurd ⟨h1.1, h2⟩ h
  | _ => rcases hv with h | h <;> cases h

/-- C109, partial: `erase(first, last)` on an array or object never throws either: it is undefined unless both are positions in the
value, the first not behind the last. -/
theorem C109_range_exactly_partial (a : Nat) (v : Value F) (hv : v.type = .arr ∨ v.type = .obj) (it jt : Iter) :
    ((eraseRange a it jt v).1 = .error .ub ↔ ¬ ∃ p q, ItAt a v it p ∧ ItAt a v jt q ∧ p ≤ q ∧ q ≤ v.size) ∧
    (∀ p q, ItAt a v it p → ItAt a v jt q → p ≤ q → q ≤ v.size →
      ∃ kt, (eraseRange a it jt v).1 = .ok kt ∧ ItAt a v kt p ∧ (eraseRange a it jt v).2.size + (q - p) = v.size) ∧
    (∀ e, (eraseRange a it jt v).1 ≠ .error (.exn e)) := by
  cases v with
  | arr xs =>
    have e : eraseRange a it jt (.arr xs) = match it.arrIt, jt.arrIt with
        | some p, some q =>
          if it.target = some a ∧ jt.target = some a ∧ p ≤ q ∧ q ≤ xs.length then (.ok ⟨some a, some p, none, 0⟩, .arr (xs.take p ++ xs.drop q)) else (.error .ub, .arr xs)
        | _, _ => (.error .ub, .arr xs) := rfl
    have hi : ∀ it p, ItAt a (.arr xs) it p ↔ it.target = some a ∧ it.arrIt = some p := fun _ _ => Iff.rfl
    simp only [hi]
    rw [e]
    cases hp : it.arrIt with
    | none => exact ⟨⟨fun _ => fun ⟨_, _, h, _⟩ => (by cases h.2), fun _ => rfl⟩, fun _ _ h => (by cases h.2), nofun⟩
    | some p =>
      cases hq : jt.arrIt with
      | none => exact ⟨⟨fun _ => fun ⟨_, _, _, h, _⟩ => (by cases h.2), fun _ => rfl⟩, fun _ _ _ h => (by cases h.2), nofun⟩
      | some q =>
        by_cases h : it.target = some a ∧ jt.target = some a ∧ p ≤ q ∧ q ≤ xs.length
        · dsimp only; rw [if_pos h]
          obtain ⟨h1, h2, h3, h4⟩ := h
          refine ⟨⟨nofun, fun h' => absurd ⟨p, q, ⟨h1, rfl⟩, ⟨h2, rfl⟩, h3, h4⟩ h'⟩, fun p' q' k1 k2 _ _ => ?_, nofun⟩
          cases k1.2
          cases k2.2
          refine ⟨_, rfl, ⟨rfl, rfl⟩, ?_⟩
          show (xs.take p ++ xs.drop q).length + (q - p) = xs.length
          rw [List.length_append, List.length_take, List.length_drop]
          omega
        · dsimp only; rw [if_neg h]
          refine ⟨⟨fun _ => fun ⟨p', q', k1, k2, k3, k4⟩ => ?_, fun _ => rfl⟩, fun p' q' k1 k2 k3 k4 => ?_, nofun⟩
          · cases k1.2; cases k2.2; exact h ⟨k1.1, k2.1, k3, k4⟩
          · cases k1.2; cases k2.2; exact absurd ⟨k1.1, k2.1, k3, k4⟩ h
  | obj ms =>
    have e : eraseRange a it jt (.obj ms) = match it.objIt, jt.objIt with
        | some p, some q =>
          if it.target = some a ∧ jt.target = some a ∧ p ≤ q ∧ q ≤ ms.length then (.ok ⟨some a, none, some p, 0⟩, .obj (ms.take p ++ ms.drop q)) else (.error .ub, .obj ms)
        | _, _ => (.error .ub, .obj ms) := rfl
    have hi : ∀ it p, ItAt a (.obj ms) it p ↔ it.target = some a ∧ it.objIt = some p := fun _ _ => Iff.rfl
    simp only [hi]
    rw [e]
    cases hp : it.objIt with
    | none => exact ⟨⟨fun _ => fun ⟨_, _, h, _⟩ => (by cases h.2), fun _ => rfl⟩, fun _ _ h => (by cases h.2), nofun⟩
    | some p =>
      cases hq : jt.objIt with
      | none => exact ⟨⟨fun _ => fun ⟨_, _, _, h, _⟩ => (by cases h.2), fun _ => rfl⟩, fun _ _ _ h => (by cases h.2), nofun⟩
      | some q =>
        by_cases h : it.target = some a ∧ jt.target = some a ∧ p ≤ q ∧ q ≤ ms.length
        · dsimp only; rw [if_pos h]
          obtain ⟨h1, h2, h3, h4⟩ := h
          refine ⟨⟨nofun, fun h' => absurd ⟨p, q, ⟨h1, rfl⟩, ⟨h2, rfl⟩, h3, h4⟩ h'⟩, fun p' q' k1 k2 _ _ => ?_, nofun⟩
          cases k1.2
          cases k2.2
          refine ⟨_, rfl, ⟨rfl, rfl⟩, ?_⟩
          show (ms.take p ++ ms.drop q).length + (q - p) = ms.length
          rw [List.length_append, List.length_take, List.length_drop]
          omega
        · dsimp only; rw [if_neg h]
          refine ⟨⟨fun _ => fun ⟨p', q', k1, k2, k3, k4⟩ => ?_, fun _ => rfl⟩, fun p' q' k1 k2 k3 k4 => ?_, nofun⟩
          · cases k1.2; cases k2.2; exact h ⟨k1.1, k2.1, k3, k4⟩
          · cases k1.2; cases k2.2; exact absurd ⟨k1.1, k2.1, k3, k4⟩ h
  | _ => rcases hv with h | h <;> cases h

/-- The iterator `begin()` of an array of one element is at its position `0`. -/
example : ∃ it, Value.begin 1 (.arr [.int 5] : Value Unit) = .ok it ∧ ItAt 1 (.arr [.int 5] : Value Unit) it 0 := ⟨_, rfl, rfl, rfl⟩

/-! ## C89 -/

/-- C89, partial: exactly what is read into an array of fixed length: the first elements as far as there is room, and zeros behind them. A
length that differs is never reported. -/
theorem C89_exactly_partial (n : Nat) (E : Conv F T) (vs : List (Value F)) (xs : List T) :
    (array n E).get (.arr vs) = .ok xs ↔ ∃ ys, (vs.take n).map E.get = ys.map .ok ∧ xs = ys ++ List.replicate (n - ys.length) E.zero := by
  rw [get_ok]
  show fill E (.arr vs) (List.range (min vs.length n)) (List.replicate n E.zero) = _ ↔ _
  constructor
  · intro h
    obtain ⟨g, h1, h2⟩ := fill_ok h
    refine ⟨(List.range (min vs.length n)).map g, ?_, ?_⟩
    · apply List.ext_getElem (by simp; omega)
      intro i hi _
      simp only [List.length_map, List.length_take] at hi
      have hl : i < vs.length := by omega
      have := h1 i (List.mem_range.2 (by omega))
      rw [item_eq E vs (List.getElem?_eq_getElem hl)] at this
      simpa using this
    · rw [h2]
      apply List.ext_getElem?
      intro j
      rw [foldl_set_get, List.getElem?_append]
      simp only [List.mem_range, List.length_replicate, List.length_map, List.length_range]
      by_cases hj : j < min vs.length n
      · rw [if_pos ⟨hj, by omega⟩, if_pos hj]
        simp [hj]
      · rw [if_neg (fun h => hj h.1), if_neg hj, List.getElem?_replicate, List.getElem?_replicate]
        by_cases hn : j < n
        · rw [if_pos hn, if_pos (by omega)]
        · rw [if_neg hn, if_neg (by omega)]
  · rintro ⟨ys, h1, rfl⟩
    have hl : ys.length = min vs.length n := by
      have := congrArg List.length h1
      simp only [List.length_map, List.length_take] at this
      omega
    rw [fill_run _ _ (fun i => ys[i]?.getD E.zero)]
    · congr 1
      apply List.ext_getElem?
      intro j
      rw [foldl_set_get, List.getElem?_append]
      simp only [List.mem_range, List.length_replicate, hl]
      by_cases hj : j < min vs.length n
      · rw [if_pos ⟨hj, by omega⟩, if_pos hj, List.getElem?_eq_getElem (hl ▸ hj)]
        rfl
      · rw [if_neg (fun h => hj h.1), if_neg hj, List.getElem?_replicate, List.getElem?_replicate]
        by_cases hn : j < n
        · rw [if_pos hn, if_pos (by omega)]
        · rw [if_neg hn, if_neg (by omega)]
    · intro i hi
      have hi := List.mem_range.1 hi
      have hv : i < vs.length := by omega
      have hy : i < ys.length := by omega
      rw [item_eq E vs (List.getElem?_eq_getElem hv), List.getElem?_eq_getElem hy]
      have := congrArg (fun l => l[i]?) h1
      simp only [List.getElem?_map, List.getElem?_take, List.getElem?_eq_getElem hv, List.getElem?_eq_getElem hy, if_pos (show i < n by omega)] at this
      simpa using this

example : (array 3 (int true 32 : Conv Unit Int)).get (.arr [.int 7]) = .ok [7, 0, 0] := (C89_exactly_partial 3 _ _ _).2 ⟨[7], rfl, rfl⟩

/-! ## C75, C92 -/

theorem readAll_exact {ms : Map.T (Value F)} (hm : Sorted ms) : ∀ (fs : List (Field F S)), (∀ f ∈ fs, Safe f.conv) →
    (∀ f ∈ fs, f.optional = false → ms.lookup f.name ≠ none) → ∀ s, ∃ s', readAll (.obj ms) fs s = (.ok (), s') := by
  intro fs
  induction fs with
  | nil => intro _ _ s; exact ⟨s, rfl⟩
  | cons g fs ih =>
    intro hs hr s
    rw [readAll_cons]
    have hc : Shape (.obj ms) := .inr ⟨ms, rfl, hm⟩
    have hs' := fun f hf => hs f (List.mem_cons_of_mem _ hf)
    have hr' := fun f hf => hr f (List.mem_cons_of_mem _ hf)
    cases hg : ms.lookup g.name with
    | none =>
      cases hgo : g.optional with
      | true =>
        rw [read_none_optional g hc hg hgo]
        exact ih hs' hr' s
      | false => exact absurd hg (hr g (by simp) hgo)
    | some y =>
      rw [read_some g hc hg]
      obtain ⟨b, t, hb⟩ := hs g (by simp) y (g.get s)
      rw [hb]
      exact ih hs' hr' _

/-- C75, partial: exactly which objects a struct is read from: those that have all required members, whatever the members are. Otherwise
`std::out_of_range` is thrown. The fields' own types may not have undefined behaviour (`Safe`). -/
theorem C75_exactly_partial (fs : List (Field F S)) (zero : S) (hs : ∀ f ∈ fs, Safe f.conv) (ms : Map.T (Value F)) (hm : Sorted ms) :
    ((∃ s, (Conv.bind fs zero).get (.obj ms) = .ok s) ↔ ∀ f ∈ fs, f.optional = false → ms.lookup f.name ≠ none) ∧
    (∀ e, (Conv.bind fs zero).get (.obj ms) = .error e ↔ e = .exn .outOfRange ∧ ∃ f ∈ fs, f.optional = false ∧ ms.lookup f.name = none) := by
  by_cases h : ∀ f ∈ fs, f.optional = false → ms.lookup f.name ≠ none
  · obtain ⟨s, hr⟩ := readAll_exact hm fs hs h zero
    have hg : (Conv.bind fs zero).get (.obj ms) = .ok s := get_ok.2 hr
    exact ⟨⟨fun _ => h, fun _ => ⟨s, hg⟩⟩, fun e => ⟨fun h' => (by rw [hg] at h'; cases h'), fun ⟨_, f, h1, h2, h3⟩ => absurd h3 (h f h1 h2)⟩⟩
  · have : ∃ f ∈ fs, f.optional = false ∧ ms.lookup f.name = none := by
      simp only [Classical.not_forall] at h
      obtain ⟨f, h1, h2, h3⟩ := h
      exact ⟨f, h1, h2, Classical.not_not.1 h3⟩
    obtain ⟨f, h1, h2, h3⟩ := this
    have hg := (C74_missing_field fs zero ms hm f h1 h3).1 hs h2
    refine ⟨⟨fun ⟨s, h'⟩ => (by rw [hg] at h'; cases h'), fun h' => absurd h' h⟩, fun e => ?_⟩
    rw [hg]
    exact ⟨fun h' => (by cases h'; exact ⟨rfl, f, h1, h2, h3⟩), fun h' => (by rw [h'.1])⟩

/-- C92, partial: whether a struct is read from an object depends on its keys only, so that a required member missing further inside is never
reported. -/
theorem C92_never_partial (fs : List (Field F S)) (zero : S) (hs : ∀ f ∈ fs, Safe f.conv) (ms ns : Map.T (Value F)) (hm : Sorted ms) (hn : Sorted ns)
    (hk : ms.map Prod.fst = ns.map Prod.fst) :
    (∃ s, (Conv.bind fs zero).get (.obj ms) = .ok s) ↔ ∃ s, (Conv.bind fs zero).get (.obj ns) = .ok s := by
  rw [(C75_exactly_partial fs zero hs ms hm).1, (C75_exactly_partial fs zero hs ns hn).1]
  have key : ∀ (ms ns : Map.T (Value F)), ms.map Prod.fst = ns.map Prod.fst → ∀ k, ms.lookup k = none ↔ ns.lookup k = none := by
    intro ms
    induction ms with
    | nil =>
      intro ns h k
      cases ns with
      | nil => exact Iff.rfl
      | cons _ _ => cases h
    | cons x ms ih =>
      intro ns h k
      cases ns with
      | nil => cases h
      | cons y ns =>
        obtain ⟨a, b⟩ := x
        obtain ⟨c, d⟩ := y
        simp only [List.map_cons, List.cons.injEq] at h
        obtain ⟨rfl, h⟩ := h
        simp only [List.lookup_cons]
        split
        · simp
        · exact ih ns h k
  simp only [ne_eq, key ms ns hk]

theorem pair_safe : ∀ f ∈ (pairFields : List (Field F _)), Safe f.conv := by
  intro g hg
  simp [pairFields] at hg
  rcases hg with rfl | rfl <;> exact int_safe _ _

theorem outer_safe : ∀ f ∈ (outerFields : List (Field F _)), Safe f.conv := by
  intro g hg
  simp only [outerFields, List.mem_singleton] at hg
  subst hg
  exact (C95_reads_are_safe (Conv.bool : Conv F Bool) (by intro v t; cases v <;> exact ⟨_, _, rfl⟩) List.cons (fun _ _ t => t) 0 true 32
    pairFields (0, 0) pair_safe).2.2.2.2.2.2.2.2.2.2.2.2.2

/-- A struct is read although its member lacks a required member of its own, or is no object at all, and from `{}` it is not read. -/
example : (∃ s, (Conv.bind outerFields (0, 0)).get (.obj [([0x70], .obj [])] : Value Unit) = .ok s) ∧
    (∃ s, (Conv.bind outerFields (0, 0)).get (.obj [([0x70], .int 1)] : Value Unit) = .ok s) ∧
    ¬ ∃ s, (Conv.bind outerFields (0, 0)).get (.obj [] : Value Unit) = .ok s := by
  have h1 : ∃ s, (Conv.bind outerFields (0, 0)).get (.obj [([0x70], .obj [])] : Value Unit) = .ok s :=
    (C75_exactly_partial _ _ outer_safe _ (by simp [Sorted])).1.2 (by simp [outerFields])
  refine ⟨h1, (C92_never_partial _ _ outer_safe _ _ (by simp [Sorted]) (by simp [Sorted]) rfl).1 h1, fun h => ?_⟩
  exact (C75_exactly_partial _ _ outer_safe _ (by simp [Sorted])).1.1 h _ (List.mem_singleton.2 rfl) rfl rfl

/-! ## C71, C72 -/

/-- What the loop over elements leaves: all are stored, or those before the first that does not convert. -/
theorem fill_cases (E : Conv F T) (vs : List (Value F)) : ∀ (m k : Nat) (t : List T), k + m ≤ vs.length → k + m ≤ t.length →
    (∃ ys, ys.length = m ∧ ((vs.drop k).take m).map E.get = ys.map .ok ∧
      fill E (.arr vs) (List.range' k m) t = (.ok (), t.take k ++ ys ++ t.drop (k + m))) ∨
    ∃ j v e ys, j < m ∧ ys.length = j ∧ vs[k + j]? = some v ∧ E.get v = .error e ∧ ((vs.drop k).take j).map E.get = ys.map .ok ∧
      fill E (.arr vs) (List.range' k m) t = (.error e, t.take k ++ ys ++ t.drop (k + j)) := by
  intro m
  induction m with
  | zero => intro k t _ _; exact .inl ⟨[], rfl, rfl, by simp [fill]⟩
  | succ m ih =>
    intro k t h1 h2
    have hk : k < vs.length := by omega
    have hd : vs.drop k = vs[k] :: vs.drop (k + 1) := List.drop_eq_getElem_cons hk
    have hi := item_eq E vs (List.getElem?_eq_getElem hk)
    cases hg : E.get vs[k] with
    | error e =>
      refine .inr ⟨0, vs[k], e, [], by omega, rfl, List.getElem?_eq_getElem hk, hg, rfl, ?_⟩
      rw [List.range'_succ, fill, hi, hg]
      simp
    | ok x =>
      have hf : fill E (.arr vs) (List.range' k (m + 1)) t = fill E (.arr vs) (List.range' (k + 1) m) (t.set k x) := by
        rw [List.range'_succ, fill, hi, hg]
      have ht : (t.set k x).take (k + 1) = t.take k ++ [x] := by
        rw [List.take_set, List.take_succ_eq_append_getElem (by omega : k < t.length), List.set_append]
        simp [List.length_take, Nat.min_eq_left (by omega : k ≤ t.length)]
      have hdr : ∀ j, (t.set k x).drop (k + 1 + j) = t.drop (k + (j + 1)) := by
        intro j
        rw [List.drop_set, if_pos (by omega)]
        congr 1
        omega
      rcases ih (k + 1) (t.set k x) (by omega) (by rw [List.length_set]; omega) with ⟨ys, l1, l2, l3⟩ | ⟨j, v, e, ys, l1, l2, l3, l4, l5, l6⟩
      · refine .inl ⟨x :: ys, by simp [l1], ?_, ?_⟩
        · rw [hd, List.take_succ_cons, List.map_cons, hg, l2]; rfl
        · rw [hf, l3, ht, hdr]
          simp
      · refine .inr ⟨j + 1, v, e, x :: ys, by omega, by simp [l2], ?_, l4, ?_, ?_⟩
        · rw [← l3]; congr 1; omega
        · rw [hd, List.take_succ_cons, List.map_cons, hg, l5]; rfl
        · rw [hf, l6, ht, hdr]
          simp

/-- C71, partial: exactly what `get(x)` leaves in an array of fixed length: the elements read, and behind them what `x` had. -/
theorem C71_array_exactly_partial (n : Nat) (E : Conv F T) (vs : List (Value F)) (t t' : List T) (ht : t.length = n)
    (h : (array n E).getInto (.arr vs) t = (.ok true, t')) :
    ∃ ys, (vs.take n).map E.get = ys.map .ok ∧ t' = ys ++ t.drop ys.length := by
  have h : fill E (.arr vs) (List.range (min vs.length n)) t = (.ok (), t') := getInto_true.1 h
  rw [List.range_eq_range'] at h
  rcases fill_cases E vs (min vs.length n) 0 t (by omega) (by omega) with ⟨ys, l1, l2, l3⟩ | ⟨j, v, e, ys, l1, l2, l3, l4, l5, l6⟩
  · rw [l3] at h
    cases h
    refine ⟨ys, ?_, by simp [l1]⟩
    rw [← l2, List.drop_zero, Nat.min_comm, List.take_eq_take_min]
  · rw [l6] at h; cases h

/-- C72, partial: exactly what a failed `get(x)` leaves in an array of fixed length: the elements before the first that does not convert, and behind them what
`x` had. -/
theorem C72_array_exactly_partial (n : Nat) (E : Conv F T) (vs : List (Value F)) (t t' : List T) (ht : t.length = n)
    (h : (array n E).getInto (.arr vs) t = (.ok false, t')) :
    ∃ i v e ys, i < n ∧ vs[i]? = some v ∧ E.get v = .error (.exn e) ∧ (vs.take i).map E.get = ys.map .ok ∧ t' = ys ++ t.drop i := by
  obtain ⟨x, h⟩ := getInto_false.1 h
  have h : fill E (.arr vs) (List.range (min vs.length n)) t = (.error (.exn x), t') := h
  rw [List.range_eq_range'] at h
  rcases fill_cases E vs (min vs.length n) 0 t (by omega) (by omega) with ⟨ys, l1, l2, l3⟩ | ⟨j, v, e, ys, l1, l2, l3, l4, l5, l6⟩
  · rw [l3] at h; cases h
  · rw [l6] at h
    cases h
    exact ⟨j, v, x, ys, by omega, by simpa using l3, l4, by simpa using l5, by simp⟩

/-- C72, partial: exactly what a failed `get(x)` leaves in a vector or deque: as many elements as the array has, first those before the one that does not
convert, then what `x` had there, then zeros. -/
theorem C72_vector_exactly_partial (E : Conv F T) (vs : List (Value F)) (t t' : List T) (h : (vector E).getInto (.arr vs) t = (.ok false, t')) :
    ∃ i v e ys, vs[i]? = some v ∧ E.get v = .error (.exn e) ∧ (vs.take i).map E.get = ys.map .ok ∧
      t' = ys ++ (t.take vs.length ++ List.replicate (vs.length - t.length) E.zero).drop i := by
  obtain ⟨x, h⟩ := getInto_false.1 h
  have h : fill E (.arr vs) (List.range vs.length) (resize E.zero vs.length t) = (.error (.exn x), t') := h
  rw [List.range_eq_range'] at h
  rcases fill_cases E vs vs.length 0 (resize E.zero vs.length t) (by omega) (by rw [resize_length]; omega) with
    ⟨ys, l1, l2, l3⟩ | ⟨j, v, e, ys, l1, l2, l3, l4, l5, l6⟩
  · rw [l3] at h; cases h
  · rw [l6] at h
    cases h
    exact ⟨j, v, x, ys, by simpa using l3, l4, by simpa using l5, by simp [resize]⟩

/-- Three elements, of which the second does not convert, read into four and into two. -/
example : (vector (int true 32 : Conv Unit Int)).getInto (.arr [.int 1, .null, .int 3]) [6, 7, 8, 9] = (.ok false, [1, 7, 8]) ∧
    (vector (int true 32 : Conv Unit Int)).getInto (.arr [.int 1, .null, .int 3]) [6, 7] = (.ok false, [1, 7, 0]) ∧
    (array 4 (int true 32 : Conv Unit Int)).getInto (.arr [.int 1, .null, .int 3]) [6, 7, 8, 9] = (.ok false, [1, 7, 8, 9]) ∧
    (array 4 (int true 32 : Conv Unit Int)).getInto (.arr [.int 1, .int 2, .int 3]) [6, 7, 8, 9] = (.ok true, [1, 2, 3, 9]) := ⟨rfl, rfl, rfl, rfl⟩

/-- A loop that reads the elements at the indices `is` and puts each into the container with `put`. -/
theorem loop_cases {loop : List Nat → M (List T) Unit} {put : T → List T → List T} (E : Conv F T) (c : Value F)
    (h0 : ∀ t, loop [] t = (.ok (), t))
    (h1 : ∀ i is t, loop (i :: is) t = match E.item c i with | .error e => (.error e, t) | .ok x => loop is (put x t)) :
    ∀ (is : List Nat) (t : List T) (e : Stop) (t' : List T), loop is t = (.error e, t') →
      ∃ (l : List Nat) (i : Nat) (r : List Nat) (ys : List T), is = l ++ i :: r ∧ l.map (E.item c) = ys.map .ok ∧ E.item c i = .error e ∧
        t' = ys.foldl (fun t y => put y t) t := by
  intro is
  induction is with
  | nil => intro t e t' h; rw [h0] at h; cases h
  | cons i is ih =>
    intro t e t' h
    rw [h1] at h
    cases hi : E.item c i with
    | error e' =>
      rw [hi] at h
      cases h
      exact ⟨[], i, is, [], rfl, rfl, hi, rfl⟩
    | ok x =>
      rw [hi] at h
      obtain ⟨l, j, r, ys, a, b, d, f⟩ := ih _ _ _ h
      exact ⟨i :: l, j, r, x :: ys, by rw [a]; rfl, by simp [hi, b], d, f⟩

theorem range_split {n i : Nat} {l r : List Nat} (h : List.range n = l ++ i :: r) : i < n ∧ l = List.range i := by
  have hl : l.length < n := by
    have := congrArg List.length h
    simp at this; omega
  have hi : i = l.length := by
    have := congrArg (·[l.length]?) h
    simp [hl] at this; omega
  refine ⟨by omega, ?_⟩
  have := congrArg (List.take l.length) h
  rw [List.take_left, List.take_range, Nat.min_eq_left (by omega)] at this
  rw [← this, hi]

theorem items_take (E : Conv F T) (vs : List (Value F)) {i : Nat} (h : i ≤ vs.length) :
    (List.range i).map (E.item (.arr vs)) = (vs.take i).map E.get := by
  apply List.ext_getElem
  · simp; omega
  · intro n h1 h2
    simp at h1
    simp only [List.getElem_map, List.getElem_range, List.getElem_take]
    exact item_eq E vs (List.getElem?_eq_getElem (by omega))

/-- C72, partial: exactly what a failed `get(x)` leaves in a list: the elements before the first that does not convert, and nothing of what `x` had. -/
theorem C72_list_exactly_partial (E : Conv F T) (vs : List (Value F)) (t t' : List T) (h : (list E).getInto (.arr vs) t = (.ok false, t')) :
    ∃ i v e ys, vs[i]? = some v ∧ E.get v = .error (.exn e) ∧ (vs.take i).map E.get = ys.map .ok ∧ t' = ys := by
  obtain ⟨x, h⟩ := getInto_false.1 h
  have h : push E (.arr vs) (List.range vs.length) [] = (.error (.exn x), t') := h
  obtain ⟨l, i, r, ys, a, b, d, f⟩ := loop_cases (loop := push E (.arr vs)) (put := fun x t => t ++ [x]) E (.arr vs) (fun _ => rfl) (fun _ _ _ => rfl) _ _ _ _ h
  obtain ⟨hi, hl⟩ := range_split a
  subst hl
  rw [items_take E vs (by omega)] at b
  rw [item_eq E vs (List.getElem?_eq_getElem hi)] at d
  refine ⟨i, _, x, ys, List.getElem?_eq_getElem hi, d, b, ?_⟩
  have g : ∀ (ys t : List T), ys.foldl (fun t y => t ++ [y]) t = t ++ ys := by
    intro ys
    induction ys with
    | nil => intro t; simp
    | cons y ys ih => intro t; simp [ih]
  rw [f, g]; rfl

/-- C72, partial: exactly what a failed `get(x)` leaves in a set: the elements before the first that does not convert, inserted into an empty set. -/
theorem C72_set_exactly_partial (E : Conv F T) (insert : T → List T → List T) (vs : List (Value F)) (t t' : List T)
    (h : (Conv.set E insert).getInto (.arr vs) t = (.ok false, t')) :
    ∃ (i : Nat) (v : Value F) (e : Err) (ys : List T), vs[i]? = some v ∧ E.get v = .error (.exn e) ∧ (vs.take i).map E.get = ys.map .ok ∧
      t' = ys.foldl (fun t y => insert y t) [] := by
  obtain ⟨x, h⟩ := getInto_false.1 h
  have h : insertAll E insert (.arr vs) (List.range vs.length) [] = (.error (.exn x), t') := h
  obtain ⟨l, i, r, ys, a, b, d, f⟩ := loop_cases (loop := insertAll E insert (.arr vs)) (put := insert) E (.arr vs) (fun _ => rfl) (fun _ _ _ => rfl) _ _ _ _ h
  obtain ⟨hi, hl⟩ := range_split a
  subst hl
  rw [items_take E vs (by omega)] at b
  rw [item_eq E vs (List.getElem?_eq_getElem hi)] at d
  exact ⟨i, _, x, ys, List.getElem?_eq_getElem hi, d, b, f⟩

/-- C72, partial: exactly what a failed `get(x)` leaves in a `forward_list`, which is read from the back: the elements behind the last that does not convert. -/
theorem C72_forward_exactly_partial (E : Conv F T) (vs : List (Value F)) (t t' : List T) (h : (forwardList E).getInto (.arr vs) t = (.ok false, t')) :
    ∃ i v e, vs[i]? = some v ∧ E.get v = .error (.exn e) ∧ (vs.drop (i + 1)).map E.get = t'.map .ok := by
  obtain ⟨x, h⟩ := getInto_false.1 h
  have h : pushFront E (.arr vs) ((List.range vs.length).map fun i => vs.length - i - 1) [] = (.error (.exn x), t') := h
  obtain ⟨l, i, r, ys, a, b, d, f⟩ := loop_cases (loop := pushFront E (.arr vs)) (put := List.cons) E (.arr vs) (fun _ => rfl) (fun _ _ _ => rfl) _ _ _ _ h
  have hl : l.length < vs.length := by
    have := congrArg List.length a
    simp at this; omega
  have hi : i = vs.length - l.length - 1 := by
    have := congrArg (·[l.length]?) a
    simp [hl] at this; omega
  have hil : i < vs.length := by omega
  rw [item_eq E vs (List.getElem?_eq_getElem hil)] at d
  refine ⟨i, _, x, List.getElem?_eq_getElem hil, d, ?_⟩
  have g : ∀ (ys t : List T), ys.foldl (fun t y => y :: t) t = ys.reverse ++ t := by
    intro ys
    induction ys with
    | nil => intro t; simp
    | cons y ys ih => intro t; simp [ih]
  rw [f, g, List.append_nil, List.map_reverse, ← b]
  apply List.ext_getElem
  · simp; omega
  · intro n h1 h2
    simp at h1 h2
    have hk : ∀ k (hk : k < l.length), l[k] = vs.length - k - 1 := by
      intro k hk
      have := congrArg (·[k]?) a
      simp [List.getElem?_append_left hk, show k < vs.length by omega, hk] at this
      omega
    simp only [List.getElem_map, List.getElem_drop, List.getElem_reverse, List.length_map]
    rw [hk _ (by omega)]
    have e : vs.length - (l.length - 1 - n) - 1 = i + 1 + n := by omega
    rw [e]
    exact (item_eq E vs (List.getElem?_eq_getElem (by omega))).symm

/-- Three elements, of which the second does not convert. -/
example : (list (int true 32 : Conv Unit Int)).getInto (.arr [.int 1, .null, .int 3]) [6, 7] = (.ok false, [1]) ∧
    (forwardList (int true 32 : Conv Unit Int)).getInto (.arr [.int 1, .null, .int 3]) [6, 7] = (.ok false, [3]) ∧
    (Conv.set (int true 32 : Conv Unit Int) (setInsert fun a b => decide (a < b))).getInto (.arr [.int 2, .int 1, .int 2, .null]) [6, 7] =
      (.ok false, [1, 2]) := by decide +kernel

theorem members_all2 {E : Conv F T} : ∀ (ms : List (List Nat × Value F)) (xs : List (List Nat × T)),
    ms.map (fun m => (m.1, E.get m.2)) = xs.map (fun x => (x.1, .ok x.2)) → All2 (fun v x => x.1 = v.1 ∧ E.get v.2 = .ok x.2) ms xs
  | [], [], _ => .nil
  | [], _ :: _, h => by cases h
  | _ :: _, [], h => by cases h
  | m :: ms, x :: xs, h => by
    simp only [List.map_cons, List.cons.injEq, Prod.mk.injEq] at h
    exact .cons ⟨h.1.1.symm, h.1.2⟩ (members_all2 ms xs h.2)

theorem emplace_all_lookup : ∀ (xs t : List (List Nat × T)), Sorted t → ∀ k,
    (xs.foldl (fun t x => Map.emplace x.1 x.2 t) t).lookup k = (t.lookup k).or (xs.lookup k)
  | [], t, _, k => by simp
  | x :: xs, t, ht, k => by
    obtain ⟨a, b⟩ := x
    rw [List.foldl_cons, emplace_all_lookup xs _ (emplace_sorted ht), emplace_lookup ht, List.lookup_cons, Option.or_assoc]
    congr 1
    by_cases h : k = a
    · subst h; simp
    · rw [if_neg h, show (k == a) = false by simpa using h]; simp

/-- C71, partial: exactly what `get(x)` leaves in a `std::map`: what `x` had, and of the members read those whose keys `x` did not have. -/
theorem C71_map_exactly_partial (E : Conv F T) (ms : List (List Nat × Value F)) (xs t : List (List Nat × T)) (ht : Sorted t)
    (hx : ms.map (fun m => (m.1, E.get m.2)) = xs.map (fun x => (x.1, .ok x.2))) :
    ∃ t', (Conv.map E Map.emplace).getInto (.obj ms) t = (.ok true, t') ∧ ∀ k, t'.lookup k = (t.lookup k).or (xs.lookup k) :=
  ⟨_, getInto_true.2 (fromMap _ (members_all2 ms xs hx) t), emplace_all_lookup xs t ht⟩

example : ∃ t', (Conv.map (int true 32 : Conv Unit Int) Map.emplace).getInto (.obj [([0x61], .int 1), ([0x63], .int 2)]) [([0x61], 5), ([0x62], 6)] = (.ok true, t') ∧
    t'.lookup [0x61] = some 5 ∧ t'.lookup [0x62] = some 6 ∧ t'.lookup [0x63] = some 2 := by
  obtain ⟨t', h1, h2⟩ := C71_map_exactly_partial (int true 32 : Conv Unit Int) [([0x61], .int 1), ([0x63], .int 2)] [([0x61], 1), ([0x63], 2)]
    [([0x61], 5), ([0x62], 6)] (by simp [Sorted]; decide) rfl
  exact ⟨t', h1, h2 _, h2 _, h2 _⟩

/-! ## C73 -/

/-- C73, partial: exactly what a struct comes back as. If the conversion of each field brings it back over its initializer, then the fields that
were written are as before and the omitted ones (optional and zero) have their initializers; so the struct survives exactly if each omitted field
is equal to its initializer. -/
theorem C73_exactly_partial (fs : List (Field F S)) (zero s : S) (hl : Lenses fs) (hn : (fs.map Field.name).Nodup)
    (hr : ∀ f ∈ fs, ∃ y, f.conv.toValue (f.get s) = .ok y ∧ f.conv.getInto y (f.get zero) = (.ok true, f.get s)) :
    ∃ v s', (Conv.bind fs zero).toValue s = .ok v ∧ (Conv.bind fs zero).get v = .ok s' ∧
      (∀ f ∈ fs, (Omitted f s → f.get s' = f.get zero) ∧ (¬ Omitted f s → f.get s' = f.get s)) ∧
      (Agree fs s s' ↔ ∀ f ∈ fs, f.optional = true → f.isZero (f.get s) = true → f.get s = f.get zero) := by
  obtain ⟨v, h1, h2, h3, _, _⟩ := writeAll_spec s fs hn (fun f hf => ⟨_, (hr f hf).choose_spec.1⟩) .null (.inl rfl)
  have hget : ∀ f ∈ fs, ¬ Omitted f s → ∃ y, member v f.name = some y ∧ f.conv.getInto y (f.get zero) = (.ok true, f.get s) := by
    intro f hf ho
    obtain ⟨y, hy, hm⟩ := (h3 f hf).1 ho
    obtain ⟨y', hy', hg⟩ := hr f hf
    rw [hy] at hy'
    cases hy'
    exact ⟨y, hm, hg⟩
  have hok : ∃ s', readAll v fs zero = (.ok (), s') := by
    refine readAll_ok h2 fs hl zero fun f hf => ?_
    by_cases ho : Omitted f s
    · exact .inl ⟨by rw [(h3 f hf).2 ho]; rfl, ho.1⟩
    · obtain ⟨y, hm, hg⟩ := hget f hf ho
      exact .inr ⟨y, true, _, hm, hg⟩
  obtain ⟨s', hs⟩ := hok
  have hall : ∀ f ∈ fs, (Omitted f s → f.get s' = f.get zero) ∧ (¬ Omitted f s → f.get s' = f.get s) := by
    intro f hf
    have hf' := readAll_fields h2 fs hl zero s' hs f hf
    refine ⟨fun ho => ?_, fun ho => ?_⟩
    · have hm : member v f.name = none := by rw [(h3 f hf).2 ho]; rfl
      exact hf'.2.1 hm
    · obtain ⟨y, hm, hg⟩ := hget f hf ho
      obtain ⟨b, hb⟩ := hf'.2.2 y hm
      rw [hg] at hb
      exact (congrArg Prod.snd hb).symm
  refine ⟨v, s', h1, get_ok.2 hs, hall, fun h f hf h1 h2 => ?_, fun h f hf => ?_⟩
  · rw [h f hf, (hall f hf).1 ⟨h1, h2⟩]
  · by_cases ho : Omitted f s
    · rw [h f hf ho.1 ho.2, (hall f hf).1 ho]
    · exact ((hall f hf).2 ho).symm

/-- The struct of `C73_violated`, and one that survives although it has the same initializer. -/
example : ∀ b : Int, b = 0 ∨ b = 9 → ∃ (v : Value Unit) (s' : Int × Int), (Conv.bind pairFields (0, 7)).toValue (1, b) = .ok v ∧
    (Conv.bind pairFields (0, 7)).get v = .ok s' ∧ (Agree (pairFields : List (Field Unit _)) (1, b) s' ↔ b = 9) := by
  intro b hb
  obtain ⟨v, s', h1, h2, _, h4⟩ := C73_exactly_partial (pairFields : List (Field Unit _)) (0, 7) (1, b) pairFields_lenses (by decide) (by
    intro f hf
    simp [pairFields] at hf
    rcases hb with rfl | rfl <;> rcases hf with rfl | rfl <;> exact ⟨_, rfl, rfl⟩)
  refine ⟨v, s', h1, h2, h4.trans ?_⟩
  rcases hb with rfl | rfl <;> simp [pairFields]

/-! ## C84 -/

/-- C84, partial: exactly what can be changed through `at()` and the subscript operator of a constant array: any existing element, to any value,
and nothing else. -/
theorem C84_array_exactly_partial (v v' : Value F) (i : Nat) :
    (∃ f : V F Unit, (atIndex i f v).2 = v') ↔ v' = v ∨ ∃ xs x, v = .arr xs ∧ i < xs.length ∧ v' = .arr (xs.set i x) := by
  constructor
  · rintro ⟨f, rfl⟩
    cases v with
    | arr xs =>
      by_cases h : i < xs.length
      · have e : atIndex i f (.arr xs) = onElem i f xs := if_neg (by omega)
        rw [e]
        unfold onElem
        rw [List.getElem?_eq_getElem h]
        exact .inr ⟨xs, _, rfl, h, rfl⟩
      · have e : atIndex i f (.arr xs) = (.error (.exn .outOfRange), .arr xs) := if_pos (by omega)
        rw [e]
        exact .inl rfl
    | _ => exact .inl rfl
  · rintro (rfl | ⟨xs, x, rfl, h, rfl⟩)
    · refine ⟨fun u => (.ok (), u), ?_⟩
      cases v' with
      | arr xs =>
        show (if i ≥ xs.length then (.error (.exn .outOfRange), .arr xs) else onElem i _ xs : Except Stop Unit × Value F).2 = _
        split
        · rfl
        · unfold onElem
          rw [List.getElem?_eq_getElem (by omega)]
          simp
      | _ => rfl
    · refine ⟨assign x, ?_⟩
      have e : atIndex i (assign x) (.arr xs) = onElem i (assign x) xs := if_neg (by omega)
      rw [e]
      unfold onElem
      rw [List.getElem?_eq_getElem h]
      rfl

/-- C84, partial: exactly what can be changed through `at()` and the subscript operator of a constant object: the value of an existing member. -/
theorem C84_object_exactly_partial (ms : Map.T (Value F)) (hm : Sorted ms) (k : List Nat) :
    (∀ f : V F Unit, ∃ ms', (atKey k f (.obj ms)).2 = .obj ms' ∧ ms'.map Prod.fst = ms.map Prod.fst ∧ ∀ l, l ≠ k → ms'.lookup l = ms.lookup l) ∧
    (ms.lookup k = none → ∀ f : V F Unit, atKey k f (.obj ms) = (.error (.exn .outOfRange), .obj ms)) ∧
    (ms.lookup k ≠ none → ∀ x, ∃ ms', atKey k (assign x) (.obj ms) = (.ok (), .obj ms') ∧ ms'.lookup k = some x) := by
  have e : ∀ f : V F Unit, atKey k f (.obj ms) = if (ms.lookup k).isNone then (.error (.exn .outOfRange), .obj ms) else
      (match ms.lookup k with | none => (.error .ub, .obj ms) | some x => ((f x).1, .obj (Map.assign k (f x).2 ms))) := by
    intro f
    rw [← find_lookup hm k]
    rfl
  refine ⟨fun f => ?_, fun h f => ?_, fun h x => ?_⟩
  · rw [e]
    cases h : ms.lookup k with
    | none => exact ⟨ms, rfl, rfl, fun _ _ => rfl⟩
    | some y =>
      refine ⟨_, rfl, assign_keys _ _, fun l hl => ?_⟩
      rw [assign_lookup hm, if_neg (fun h => hl h.1)]
  · rw [e, h]; rfl
  · rw [e]
    cases h' : ms.lookup k with
    | none => exact absurd h' h
    | some y =>
      refine ⟨_, rfl, ?_⟩
      rw [assign_lookup hm]
      simp [h', assign]

example : atKey [0x61] (assign (.int 2)) (.obj [([0x61], .int 1), ([0x62], .null)] : Value Unit) = (.ok (), .obj [([0x61], .int 2), ([0x62], .null)]) := by
  decide +kernel

/-! ## C91 -/

/-- C91, partial: a pointer to something that survives by itself survives exactly if that does not convert to null. -/
theorem C91_exactly_partial (E : Conv F T) (x : T) (hx : RoundTrip E x) : RoundTrip (ptr E) (some x) ↔ E.toValue x ≠ .ok .null := by
  refine ⟨fun ⟨v, h1, h2⟩ hn => ?_, (C91_ptr_round_trip_partial E).2 x hx⟩
  have h1 : E.toValue x = .ok v := h1
  rw [hn] at h1
  cases h1
  cases h2

example : RoundTrip (ptr (int true 32 : Conv Unit Int)) (some 5) :=
  (C91_exactly_partial _ 5 (C66_int_round_trip true 32 (by decide) (by decide) _ ⟨by decide, by decide⟩)).2 (by intro h; cases h)

end Configor.Props
