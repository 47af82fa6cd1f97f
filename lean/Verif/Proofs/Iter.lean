import Verif.Proofs.ValueOps
/-! Iterators. -/
namespace Configor
open Spec ValueOps

variable {F : Type}

theorem elements_length (v : Value F) : (elements v).length = v.size := by
  cases v <;> simp [elements, Value.size]

theorem begin_at (a : Nat) (v : Value F) : ∃ it, v.begin a = .ok it ∧ IterAt a v 0 it := by
  cases v <;> exact ⟨_, rfl, rfl, Nat.zero_le _, rfl⟩

theorem fin_at (a : Nat) (v : Value F) : ∃ it, v.fin a = .ok it ∧ IterAt a v v.size it := by
  cases v with
  | obj ms => exact ⟨_, rfl, rfl, by rw [elements_length]; exact Nat.le_refl _, rfl⟩
  | arr ms => exact ⟨_, rfl, rfl, by rw [elements_length]; exact Nat.le_refl _, rfl⟩
  | _ => exact ⟨_, rfl, rfl, by rw [elements_length]; exact Nat.le_refl _, rfl⟩

theorem checkData_ok {it : Iter} {a : Nat} (h : it.target = some a) : it.checkData = .ok () := by
  unfold Iter.checkData; rw [h]; rfl

theorem eq_at {a : Nat} {v : Value F} {p q : Nat} {it jt : Iter} (h1 : IterAt a v p it) (h2 : IterAt a v q jt) :
    it.eq v jt = .ok (decide (p = q)) := by
  obtain ⟨t1, _, e1⟩ := h1
  obtain ⟨t2, _, e2⟩ := h2
  unfold Iter.eq
  rw [t1, t2]
  cases v with
  | arr xs =>
    simp only at e1 e2
    simp [Iter.sameIt, e1, e2, BEq.beq]
  | obj xs =>
    simp only at e1 e2
    simp [Iter.sameIt, e1, e2, BEq.beq]
  | _ =>
    simp only at e1 e2
    simp [e1, e2, BEq.beq, Int.ofNat_inj]

theorem deref_end {a : Nat} {v : Value F} {it : Iter} (h : IterAt a v v.size it) :
    it.deref v = .error (.exn .outOfRange) := by
  obtain ⟨t, hp, e⟩ := h
  unfold Iter.deref
  rw [checkData_ok t]
  cases v with
  | arr xs => simp only [Value.size] at e; simp [Iter.checkIterator, Iter.sameIt, e, bind, Except.bind]
  | obj xs => simp only [Value.size] at e; simp [Iter.checkIterator, Iter.sameIt, e, bind, Except.bind]
  | null => simp [Iter.checkIterator, bind, Except.bind]
  | _ => simp only [Value.size] at e; simp [Iter.checkIterator, e, bind, Except.bind]

theorem checkIterator_ok {a : Nat} {v : Value F} {p : Nat} {it : Iter} (h : IterAt a v p it) (hp : p < v.size) :
    it.checkIterator v = .ok () := by
  obtain ⟨t, _, e⟩ := h
  cases v with
  | arr xs =>
    simp only [Value.size] at e hp
    simp only [Iter.checkIterator, Iter.sameIt, e, bind, Except.bind]
    rw [if_neg (by simp; omega)]
  | obj xs =>
    simp only [Value.size] at e hp
    simp only [Iter.checkIterator, Iter.sameIt, e, bind, Except.bind]
    rw [if_neg (by simp; omega)]
  | null => cases hp
  | _ =>
    simp only [Value.size] at e hp
    have : p = 0 := by omega
    subst this
    simp [Iter.checkIterator, e]

theorem deref_at {a : Nat} {v : Value F} {p : Nat} {it : Iter} {x : Value F} (h : IterAt a v p it) (hp : (elements v)[p]? = some x) :
    it.deref v = .ok x := by
  have hlt : p < v.size := by rw [← elements_length]; exact (List.getElem?_eq_some_iff.1 hp).1
  unfold Iter.deref
  rw [checkData_ok h.1, checkIterator_ok h hlt]
  obtain ⟨t, _, e⟩ := h
  cases v with
  | arr xs =>
    simp only [elements] at e hp
    simp [e, bind, Except.bind, hp]
  | obj xs =>
    simp only [elements, List.getElem?_map] at e hp
    cases hx : xs[p]? with
    | none => rw [hx] at hp; cases hp
    | some m => rw [hx] at hp; simp only [bind, Except.bind, Iter.member, e, hx]; cases hp; rfl
  | null => cases hlt
  | _ =>
    simp only [Value.size] at hlt
    have : p = 0 := by omega
    subst this
    cases hp
    rfl

theorem key_at {a : Nat} {ms : List (List Nat × Value F)} {p : Nat} {it : Iter} {m : List Nat × Value F} (h : IterAt a (.obj ms) p it)
    (hp : ms[p]? = some m) : it.key (.obj ms) = .ok m.1 := by
  have hlt : p < (Value.obj ms).size := (List.getElem?_eq_some_iff.1 hp).1
  unfold Iter.key
  rw [checkData_ok h.1, checkIterator_ok h hlt]
  obtain ⟨t, _, e⟩ := h
  simp only at e
  simp [e, Iter.member, hp, bind, Except.bind]

theorem key_end {a : Nat} {v : Value F} {it : Iter} (h : IterAt a v v.size it) :
    it.key v = .error (.exn .outOfRange) := by
  obtain ⟨t, hp, e⟩ := h
  unfold Iter.key
  rw [checkData_ok t]
  cases v with
  | arr xs => simp only [Value.size] at e; simp [Iter.checkIterator, Iter.sameIt, e, bind, Except.bind]
  | obj xs => simp only [Value.size] at e; simp [Iter.checkIterator, Iter.sameIt, e, bind, Except.bind]
  | null => simp [Iter.checkIterator, bind, Except.bind]
  | _ => simp only [Value.size] at e; simp [Iter.checkIterator, e, bind, Except.bind]

theorem key_other {a : Nat} {v : Value F} {p : Nat} {it : Iter} (h : IterAt a v p it) (hp : p < v.size) (hv : v.type ≠ .obj) :
    it.key v = .error (.exn .invalidIterator) := by
  unfold Iter.key
  rw [checkData_ok h.1, checkIterator_ok h hp]
  cases v with
  | obj => exact absurd rfl hv
  | _ => rfl

/-- Stepping by `off` (1 or -1) moves the position. -/
theorem step_at {a : Nat} {v : Value F} {p q : Nat} {it : Iter} {off : Int} (h : IterAt a v p it) (hq : q ≤ v.size)
    (e : (q : Int) = p + off) (hv : v.type ≠ .null) : ∃ jt, it.step off v = .ok jt ∧ IterAt a v q jt := by
  obtain ⟨t, hp, ei⟩ := h
  rw [elements_length] at hp
  unfold Iter.step
  rw [checkData_ok t]
  cases v with
  | arr xs =>
    simp only [Value.size] at ei hp hq
    refine ⟨{ it with arrIt := some q }, ?_, t, by rw [elements_length]; exact hq, rfl⟩
    simp only [bind, Except.bind, Iter.advance, ei]
    rw [if_pos (by omega), show ((p : Int) + off).toNat = q by omega]
  | obj xs =>
    simp only [Value.size] at ei hp hq
    refine ⟨{ it with objIt := some q }, ?_, t, by rw [elements_length]; exact hq, rfl⟩
    simp only [bind, Except.bind, Iter.advance, ei]
    rw [if_pos (by omega), show ((p : Int) + off).toNat = q by omega]
  | null => exact absurd rfl hv
  | _ =>
    simp only [Value.size] at ei hp hq
    refine ⟨{ it with prim := q }, ?_, t, by rw [elements_length]; exact hq, rfl⟩
    simp only [bind, Except.bind, Iter.primAdd, ei, ← e]
    rw [if_pos]
    simp only [inPtrdiff, Bool.and_eq_true, decide_eq_true_eq]
    omega

theorem incr_at {a : Nat} {v : Value F} {p : Nat} {it : Iter} (h : IterAt a v p it) (hp : p < v.size) :
    ∃ jt, it.incr v = .ok jt ∧ IterAt a v (p + 1) jt :=
  step_at h (by omega) (by omega) (by rintro hv; cases v <;> cases hv; cases hp)

theorem decr_at {a : Nat} {v : Value F} {p : Nat} {it : Iter} (h : IterAt a v (p + 1) it) :
    ∃ jt, it.decr v = .ok jt ∧ IterAt a v p jt := by
  have := h.2.1
  rw [elements_length] at this
  exact step_at h (by omega) (by omega) (by rintro hv; cases v <;> cases hv; cases this)

theorem loop_at {a : Nat} {v : Value F} {last : Iter} (hl : IterAt a v v.size last) (d : Nat) :
    ∀ p it n, IterAt a v p it → p + d = v.size → d < n → loop v n it last = .ok ((elements v).drop p) := by
  induction d with
  | zero =>
    intro p it n hi hp hn
    cases n with
    | zero => omega
    | succ n =>
      unfold loop
      rw [eq_at hi hl, decide_eq_true (by omega)]
      rw [List.drop_eq_nil_of_le (by rw [elements_length]; omega)]
  | succ d ih =>
    intro p it n hi hp hn
    cases n with
    | zero => omega
    | succ n =>
      have hlt : p < (elements v).length := by rw [elements_length]; omega
      obtain ⟨jt, h1, h2⟩ := incr_at hi (by omega)
      unfold loop
      rw [eq_at hi hl, decide_eq_false (by omega)]
      simp only [deref_at hi (List.getElem?_eq_getElem hlt), h1, ih (p + 1) jt n h2 (by omega) (by omega)]
      rw [List.drop_eq_getElem_cons hlt]

theorem loop_short {a : Nat} {v : Value F} {last : Iter} (hl : IterAt a v v.size last) :
    ∀ n p it, IterAt a v p it → p + n ≤ v.size → loop v n it last = .error .fuel := by
  intro n
  induction n with
  | zero => intro p it _ _; rfl
  | succ n ih =>
    intro p it hi hn
    obtain ⟨jt, h1, h2⟩ := incr_at hi (by omega)
    have hp : p < (elements v).length := by rw [elements_length]; omega
    unfold loop
    rw [eq_at hi hl, decide_eq_false (by omega)]
    dsimp only
    rw [deref_at hi (List.getElem?_eq_getElem hp), h1]
    dsimp only
    rw [ih (p + 1) jt h2 (by omega)]

theorem keyLoop_at {a : Nat} {ms : List (List Nat × Value F)} {last : Iter} (hl : IterAt a (.obj ms) ms.length last) (d : Nat) :
    ∀ p it n, IterAt a (.obj ms) p it → p + d = ms.length → d < n → keyLoop (.obj ms) n it last = .ok ((ms.map Prod.fst).drop p) := by
  induction d with
  | zero =>
    intro p it n hi hp hn
    cases n with
    | zero => omega
    | succ n =>
      unfold keyLoop
      rw [eq_at hi hl, decide_eq_true (by omega)]
      rw [List.drop_eq_nil_of_le (by simp; omega)]
  | succ d ih =>
    intro p it n hi hp hn
    cases n with
    | zero => omega
    | succ n =>
      have hlt : p < ms.length := by omega
      obtain ⟨jt, h1, h2⟩ := incr_at hi hlt
      unfold keyLoop
      rw [eq_at hi hl, decide_eq_false (by omega)]
      simp only [key_at hi (List.getElem?_eq_getElem hlt), h1, ih (p + 1) jt n h2 (by omega) (by omega)]
      rw [List.drop_eq_getElem_cons (i := p) (by simpa using hlt)]
      simp

theorem reverseLoop_at {a : Nat} {v : Value F} {last : RIter} (hl : IterAt a v 0 last.current) :
    ∀ p it n, IterAt a v p it → p < n → reverseLoop v n ⟨it⟩ last = .ok ((elements v).take p).reverse := by
  intro p
  induction p with
  | zero =>
    intro it n hi hn
    cases n with
    | zero => omega
    | succ n =>
      unfold reverseLoop
      have e1 : RIter.eq v ⟨it⟩ last = .ok true := by
        show Iter.eq v it last.current = _
        rw [eq_at hi hl]; rfl
      rw [e1]
      simp
  | succ p ih =>
    intro it n hi hn
    cases n with
    | zero => omega
    | succ n =>
      have hlt : p < (elements v).length := hi.2.1
      obtain ⟨jt, h1, h2⟩ := decr_at hi
      unfold reverseLoop
      have e1 : RIter.eq v ⟨it⟩ last = .ok false := by
        show Iter.eq v it last.current = _
        rw [eq_at hi hl, decide_eq_false (by omega)]
      have e2 : RIter.deref v ⟨it⟩ = .ok (elements v)[p] := by
        unfold RIter.deref
        simp only [h1, bind, Except.bind]
        exact deref_at h2 (List.getElem?_eq_getElem hlt)
      have e3 : RIter.incr v ⟨it⟩ = .ok ⟨jt⟩ := by
        unfold RIter.incr
        simp only [h1, bind, Except.bind]
      rw [e1]
      simp only [e2, e3, ih jt n h2 (by omega)]
      rw [List.take_succ_eq_append_getElem hlt, List.reverse_append]
      rfl

/-- Moving within an array. -/
theorem plus_at {a : Nat} {xs : List (Value F)} {p : Nat} {it : Iter} {off : Int} (h : IterAt a (.arr xs) p it) :
    (∀ q : Nat, (q : Int) = p + off → q ≤ xs.length → ∃ jt, it.plus off (.arr xs) = .ok jt ∧ IterAt a (.arr xs) q jt) ∧
    (¬ (0 ≤ p + off ∧ p + off ≤ xs.length) → it.plus off (.arr xs) = .error .ub) := by
  obtain ⟨t, hp, ei⟩ := h
  simp only at ei
  unfold Iter.plus
  rw [checkData_ok t]
  refine ⟨fun q hq hl => ⟨{ it with arrIt := some q }, ?_, t, hl, rfl⟩, fun hn => ?_⟩
  · simp only [bind, Except.bind, Iter.advance, ei]
    rw [if_pos (by omega), show ((p : Int) + off).toNat = q by omega]
  · simp only [bind, Except.bind, Iter.advance, ei]
    rw [if_neg hn]

theorem diff_at {a : Nat} {xs : List (Value F)} {p q : Nat} {it jt : Iter} (h1 : IterAt a (.arr xs) p it) (h2 : IterAt a (.arr xs) q jt) :
    it.diff (.arr xs) jt = .ok ((p : Int) - q) := by
  obtain ⟨t1, _, e1⟩ := h1
  obtain ⟨t2, _, e2⟩ := h2
  simp only at e1 e2
  unfold Iter.diff
  rw [checkData_ok t1, checkData_ok t2]
  simp [bind, Except.bind, t1, t2, e1, e2]

theorem lt_at {a : Nat} {xs : List (Value F)} {p q : Nat} {it jt : Iter} (h1 : IterAt a (.arr xs) p it) (h2 : IterAt a (.arr xs) q jt) :
    it.lt (.arr xs) jt = .ok (decide (p < q)) := by
  obtain ⟨t1, _, e1⟩ := h1
  obtain ⟨t2, _, e2⟩ := h2
  simp only at e1 e2
  unfold Iter.lt
  rw [checkData_ok t1, checkData_ok t2]
  simp [bind, Except.bind, t1, t2, e1, e2]

/-! ## `find` -/

theorem position_spec {ms : List (List Nat × Value F)} (hm : Sorted ms) (k : List Nat) :
    (∀ x, ms.lookup k = some x → ms[Value.position k ms]? = some (k, x)) ∧
    (ms.lookup k = none → Value.position k ms = ms.length) := by
  induction ms with
  | nil => exact ⟨fun x h => (by cases h), fun _ => rfl⟩
  | cons y ms ih =>
    obtain ⟨l, u⟩ := y
    have hy := List.pairwise_cons.1 hm
    have ih := ih hy.2
    unfold Value.position
    rw [lookup_if]
    by_cases h1 : ltKey k l = true
    · rw [if_pos h1]
      rw [ltKey_iff] at h1
      have : List.lookup k ms = none := lookup_of_lt fun z hz => key_trans h1 (hy.1 z hz)
      rw [if_neg (by rintro rfl; exact List.lt_irrefl _ h1), this]
      exact ⟨fun x h => (by cases h), fun _ => rfl⟩
    · rw [if_neg h1]
      by_cases h2 : ltKey l k = true
      · rw [if_pos h2]
        rw [ltKey_iff] at h2
        rw [if_neg (by rintro rfl; exact List.lt_irrefl _ h2)]
        refine ⟨fun x h => ?_, fun h => ?_⟩
        · rw [List.getElem?_cons_succ]; exact ih.1 x h
        · rw [ih.2 h]; rfl
      · rw [if_neg h2]
        rw [ltKey_iff] at h1 h2
        have e := key_total h1 h2
        subst e
        rw [if_pos rfl]
        exact ⟨fun x h => (by cases h; rfl), fun h => (by cases h)⟩

theorem find_at {a : Nat} {ms : List (List Nat × Value F)} (hm : Sorted ms) (k : List Nat) :
    ∃ it, (Value.obj ms).find a k = .ok it ∧ IterAt a (.obj ms) (Value.position k ms) it := by
  refine ⟨_, rfl, rfl, ?_, rfl⟩
  rw [elements_length]
  show _ ≤ ms.length
  cases h : ms.lookup k with
  | none => rw [(position_spec hm k).2 h]; exact Nat.le_refl _
  | some x => exact Nat.le_of_lt (List.getElem?_eq_some_iff.1 ((position_spec hm k).1 x h)).1

end Configor
