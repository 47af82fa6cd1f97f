import Verif.Proofs.ConvertMessage
/-! Lemmas for `Props/ConvertMessage`: which message a failed read has. -/
set_option autoImplicit false
namespace Configor
open Spec ValueOps

variable {F T S : Type}

/-- Either all elements are good, or there is a first one that is not. -/
theorem first_unsuited {α : Type} {P : α → Prop} {Q : α → Err → List Nat → Prop} (h : ∀ x, P x ∨ ∃ e m, Q x e m) :
    ∀ xs : List α, (∀ x ∈ xs, P x) ∨ ∃ pre x post e m, xs = pre ++ x :: post ∧ (∀ y ∈ pre, P y) ∧ Q x e m
  | [] => .inl (by simp)
  | x :: xs => by
    rcases h x with hx | ⟨e, m, hx⟩
    · rcases first_unsuited h xs with hs | ⟨pre, y, post, e, m, h1, h2, h3⟩
      · exact .inl (by simpa using ⟨hx, hs⟩)
      · exact .inr ⟨x :: pre, y, post, e, m, by rw [h1]; rfl, by simpa using ⟨hx, h2⟩, h3⟩
    · exact .inr ⟨[], x, xs, e, m, rfl, by simp, hx⟩

/-- Either all elements are good, or there is a last one that is not. -/
theorem last_bad {α : Type} {P : α → Prop} {Q : α → Err → List Nat → Prop} (h : ∀ x, P x ∨ ∃ e m, Q x e m) (xs : List α) :
    (∀ x ∈ xs, P x) ∨ ∃ pre x post e m, xs = pre ++ x :: post ∧ (∀ y ∈ post, P y) ∧ Q x e m := by
  rcases first_unsuited h xs.reverse with hs | ⟨pre, y, post, e, m, h1, h2, h3⟩
  · exact .inl (by simpa using hs)
  · refine .inr ⟨post.reverse, y, pre.reverse, e, m, ?_, by simpa using h2, h3⟩
    have := congrArg List.reverse h1
    simpa using this

theorem type_arr {v : Value F} (h : v.type = .arr) : ∃ xs, v = .arr xs := by cases v <;> first | exact ⟨_, rfl⟩ | cases h
theorem type_obj {v : Value F} (h : v.type = .obj) : ∃ ms, v = .obj ms := by cases v <;> first | exact ⟨_, rfl⟩ | cases h

theorem size_elements (v : Value F) (h : v.size ≠ 0) : ∃ x xs, elements v = x :: xs := by
  rw [← elements_length] at h
  cases he : elements v with
  | nil => rw [he] at h; exact absurd rfl h
  | cons x xs => exact ⟨x, xs, rfl⟩

/-- A value can be read, or there is a message. -/
theorem suits_or (vf : Bool) : ∀ (w : Want) (v : Value F), Suits w v ∨ ∃ e m, Objection vf w v e m
  | .exact t, v => by
    by_cases h : v.type = t
    · exact .inl h
    · exact .inr ⟨_, _, .exact h⟩
  | .any, _ => .inl trivial
  | .orNull t, v => by
    by_cases h : v.type = t
    · exact .inl (.inl h)
    · by_cases h' : v.type = .null
      · exact .inl (.inr h')
      · exact .inr ⟨_, _, .orNull h h'⟩
  | .fixed n w, v => by
    by_cases hn : n = 0
    · exact .inl (.inl hn)
    by_cases hz : v.size = 0
    · exact .inl (.inr (.inl hz))
    by_cases ht : v.type = .arr
    · obtain ⟨xs, rfl⟩ := type_arr ht
      rcases first_unsuited (suits_or vf w) (xs.take n) with h | ⟨pre, x, post, e, m, h1, h2, h3⟩
      · exact .inl (.inr (.inr ⟨rfl, h⟩))
      · exact .inr ⟨e, m, .fixed h1 h2 h3⟩
    · exact .inr ⟨_, _, .fixedOther hn hz ht⟩
  | .seq w, v => by
    by_cases hz : v.size = 0
    · exact .inl (.inl hz)
    by_cases ht : v.type = .arr
    · obtain ⟨xs, rfl⟩ := type_arr ht
      rcases first_unsuited (suits_or vf w) xs with h | ⟨pre, x, post, e, m, rfl, h2, h3⟩
      · exact .inl (.inr ⟨rfl, h⟩)
      · exact .inr ⟨e, m, .seq h2 h3⟩
    · exact .inr ⟨_, _, .seqOther hz ht⟩
  | .back w, v => by
    by_cases hz : v.size = 0
    · exact .inl (.inl hz)
    by_cases ht : v.type = .arr
    · obtain ⟨xs, rfl⟩ := type_arr ht
      rcases last_bad (suits_or vf w) xs with h | ⟨pre, x, post, e, m, rfl, h2, h3⟩
      · exact .inl (.inr ⟨rfl, h⟩)
      · exact .inr ⟨e, m, .back h2 h3⟩
    · exact .inr ⟨_, _, .backOther hz ht⟩
  | .dict w, v => by
    by_cases hz : v.size = 0
    · exact .inl (.inl hz)
    by_cases ht : v.type = .obj
    · obtain ⟨ms, rfl⟩ := type_obj ht
      rcases first_unsuited (fun m : List Nat × Value F => suits_or vf w m.2) ms with h | ⟨pre, x, post, e, m, rfl, h2, h3⟩
      · refine .inl (.inr ⟨rfl, fun x hx => ?_⟩)
        obtain ⟨m, hm, rfl⟩ := List.mem_map.1 hx
        exact h m hm
      · exact .inr ⟨e, m, .dict (k := x.1) h2 h3⟩
    · obtain ⟨x, xs, hx⟩ := size_elements v hz
      cases vf with
      | false => exact .inr ⟨_, _, .dictOther ht hx (by simp)⟩
      | true =>
        rcases suits_or true w x with h | ⟨e, m, h⟩
        · exact .inr ⟨_, _, .dictOther ht hx fun _ => h⟩
        · exact .inr ⟨e, m, .dictValue ht hx rfl h⟩
  | .ptr w, v => by
    by_cases ht : v.type = .null
    · exact .inl (.inl ht)
    · rcases suits_or vf w v with h | ⟨e, m, h⟩
      · exact .inl (.inr h)
      · exact .inr ⟨e, m, .ptr ht h⟩
  | .struct fields, v => by
    by_cases ht : v.type = .obj
    · obtain ⟨ms, rfl⟩ := type_obj ht
      have hd : ∀ f : List Nat × Bool, (f.2 = true ∨ (member (Value.obj ms) f.1).isSome) ∨
          ∃ (e : Err) (m : List Nat), f.2 = false ∧ member (Value.obj ms) f.1 = none ∧ e = .outOfRange ∧ m = [] := by
        intro f
        cases hb : f.2 with
        | true => exact .inl (.inl rfl)
        | false =>
          cases hm : member (Value.obj ms) f.1 with
          | none => exact .inr ⟨_, _, rfl, rfl, rfl, rfl⟩
          | some _ => exact .inl (.inr rfl)
      rcases first_unsuited hd fields with h | ⟨pre, f, post, e, m, rfl, h2, h3, h4, _⟩
      · exact .inl h
      · obtain ⟨k, b⟩ := f
        have h3 : b = false := h3
        subst h3
        exact .inr ⟨_, _, .missing h2 h4⟩
    · by_cases h : ∀ f ∈ fields, f.2 = true
      · exact .inl fun f hf => .inl (h f hf)
      · refine .inr ⟨_, _, .structOther ht ?_⟩
        simp at h
        obtain ⟨a, h⟩ := h
        exact ⟨(a, false), h, rfl⟩

/-! ## The readers -/

/-- What the reader says is what is due. -/
def Speaks (vf : Bool) (R : Reader F T) (w : Want) : Prop :=
  ∀ v t, KeysSorted v → (Suits w v → (R.fromValue v t).1 = .ok ()) ∧ ∀ e m, Objection vf w v e m → (R.fromValue v t).1 = .error (.exn e, m)

theorem speaks_get {vf : Bool} {R : Reader F T} {w : Want} (h : Speaks vf R w) (v : Value F) (hv : KeysSorted v) :
    (Suits w v → ∃ x, R.get v = .ok x) ∧ ∀ e m, Objection vf w v e m → R.get v = .error (.exn e, m) := by
  obtain ⟨h1, h2⟩ := h v R.zero hv
  unfold Reader.get
  generalize R.fromValue v R.zero = r at h1 h2
  obtain ⟨r, t⟩ := r
  refine ⟨fun hs => ?_, fun e m ho => ?_⟩
  · have := h1 hs
    have : r = .ok () := this
    subst this
    exact ⟨t, rfl⟩
  · have := h2 e m ho
    have : r = .error (.exn e, m) := this
    subst this
    rfl

theorem conversion_says (t want : VType) : conversionSaid t want = (.exn .typeError, mismatch t want) := by
  cases t <;> cases want <;> rfl

theorem each_ok (R : Reader F T) (c : Value F) (put : Nat → T → List T → List T) :
    ∀ (is : List Nat) (t : List T), (∀ i ∈ is, ∃ x, R.item c i = .ok x) → (R.each c put is t).1 = .ok ()
  | [], _, _ => rfl
  | i :: is, t, h => by
    obtain ⟨x, hx⟩ := h i (by simp)
    unfold Reader.each
    rw [hx]
    exact each_ok R c put is _ fun j hj => h j (by simp [hj])

theorem each_error (R : Reader F T) (c : Value F) (put : Nat → T → List T → List T) (i : Nat) (post : List Nat) (s : Said) (hi : R.item c i = .error s) :
    ∀ (pre : List Nat) (t : List T), (∀ j ∈ pre, ∃ x, R.item c j = .ok x) → (R.each c put (pre ++ i :: post) t).1 = .error s
  | [], _, _ => by
    show (R.each c put (i :: post) _).1 = _
    unfold Reader.each
    rw [hi]
  | j :: pre, t, h => by
    obtain ⟨x, hx⟩ := h j (by simp)
    show (R.each c put (j :: (pre ++ i :: post)) _).1 = _
    unfold Reader.each
    rw [hx]
    exact each_error R c put i post s hi pre _ fun j hj => h j (by simp [hj])

theorem item_arr (R : Reader F T) {xs : List (Value F)} {i : Nat} {x : Value F} (h : xs[i]? = some x) : R.item (.arr xs) i = R.get x := by
  show (match (match xs[i]? with | some x => Except.ok x | none => .error _) with | .ok x => R.get x | .error e => .error e) = _
  rw [h]

theorem item_not_arr (R : Reader F T) {v : Value F} (h : v.type ≠ .arr) (i : Nat) :
    R.item v i = .error (.exn .invalidKey, text! "invalid value key error: operator[] called on a non-array type") := by
  cases v <;> first | rfl | exact absurd rfl h

theorem range_split {N p : Nat} (h : p < N) : ∃ rest, List.range N = List.range p ++ p :: rest := by
  obtain ⟨k, rfl⟩ : ∃ k, N = p + (k + 1) := ⟨N - p - 1, by omega⟩
  refine ⟨(List.range k).map (p + 1 + ·), ?_⟩
  rw [List.range_add, List.range_succ_eq_map]
  simp [Function.comp_def]
  intro a _
  omega

/-- Reading elements from the front. -/
theorem each_front {vf : Bool} {R : Reader F T} {w : Want} (h : Speaks vf R w) (put : Nat → T → List T → List T) (xs : List (Value F)) (hk : ∀ x ∈ xs, KeysSorted x) (n : Nat) (t : List T) :
    ((∀ x ∈ xs.take n, Suits w x) → (R.each (.arr xs) put (List.range (min xs.length n)) t).1 = .ok ()) ∧
    ∀ pre x post e m, xs.take n = pre ++ x :: post → (∀ y ∈ pre, Suits w y) → Objection vf w x e m →
      (R.each (.arr xs) put (List.range (min xs.length n)) t).1 = .error (.exn e, m) := by
  have good : ∀ i y, (xs.take n)[i]? = some y → Suits w y → ∃ x, R.item (.arr xs) i = .ok x := by
    intro i y hy hs
    have hy' : xs[i]? = some y := by
      rw [List.getElem?_take] at hy
      split at hy
      · exact hy
      · cases hy
    rw [item_arr R hy']
    exact (speaks_get h y (hk y (List.mem_of_getElem? hy'))).1 hs
  refine ⟨fun hs => each_ok _ _ _ _ _ fun i hi => ?_, fun pre x post e m he hp ho => ?_⟩
  · rw [List.mem_range] at hi
    have hl : i < (xs.take n).length := by rw [List.length_take]; omega
    exact good i _ (List.getElem?_eq_getElem hl) (hs _ (List.getElem_mem hl))
  · have hl : pre.length < min xs.length n := by
      have := congrArg List.length he
      simp at this
      omega
    obtain ⟨rest, hr⟩ := range_split hl
    rw [hr]
    refine each_error R _ put _ _ _ ?_ _ _ fun j hj => ?_
    · have hx : (xs.take n)[pre.length]? = some x := by rw [he]; simp
      have hx' : xs[pre.length]? = some x := by
        rw [List.getElem?_take] at hx
        split at hx
        · exact hx
        · cases hx
      rw [item_arr R hx']
      exact (speaks_get h x (hk x (List.mem_of_getElem? hx'))).2 e m ho
    · rw [List.mem_range] at hj
      refine good j pre[j] ?_ (hp _ (List.getElem_mem hj))
      rw [he, List.getElem?_append_left hj]
      exact List.getElem?_eq_getElem hj

/-- Reading elements from the back. -/
theorem each_back {vf : Bool} {R : Reader F T} {w : Want} (h : Speaks vf R w) (put : Nat → T → List T → List T) (xs : List (Value F)) (hk : ∀ x ∈ xs, KeysSorted x) (t : List T) :
    ((∀ x ∈ xs, Suits w x) → (R.each (.arr xs) put ((List.range xs.length).map fun i => xs.length - i - 1) t).1 = .ok ()) ∧
    ∀ pre x post e m, xs = pre ++ x :: post → (∀ y ∈ post, Suits w y) → Objection vf w x e m →
      (R.each (.arr xs) put ((List.range xs.length).map fun i => xs.length - i - 1) t).1 = .error (.exn e, m) := by
  have good : ∀ i y, xs[i]? = some y → Suits w y → ∃ x, R.item (.arr xs) i = .ok x := by
    intro i y hy hs
    rw [item_arr R hy]
    exact (speaks_get h y (hk y (List.mem_of_getElem? hy))).1 hs
  refine ⟨fun hs => each_ok _ _ _ _ _ fun i hi => ?_, fun pre x post e m he hp ho => ?_⟩
  · obtain ⟨j, hj, rfl⟩ := List.mem_map.1 hi
    rw [List.mem_range] at hj
    have hl : xs.length - j - 1 < xs.length := by omega
    exact good _ _ (List.getElem?_eq_getElem hl) (hs _ (List.getElem_mem hl))
  · have hlen : xs.length = pre.length + (post.length + 1) := by rw [he]; simp
    obtain ⟨rest, hr⟩ := range_split (N := xs.length) (p := post.length) (by omega)
    rw [hr, List.map_append, List.map_cons]
    refine each_error R _ put _ _ _ ?_ _ _ fun j hj => ?_
    · have hx : xs[xs.length - post.length - 1]? = some x := by
        have : xs.length - post.length - 1 = pre.length := by omega
        rw [this, he]; simp
      rw [item_arr R hx]
      exact (speaks_get h x (hk x (List.mem_of_getElem? hx))).2 e m ho
    · obtain ⟨i, hi, rfl⟩ := List.mem_map.1 hj
      rw [List.mem_range] at hi
      have hq : post.length - i - 1 < post.length := by omega
      refine good _ post[post.length - i - 1] ?_ (hp _ (List.getElem_mem hq))
      have : xs.length - i - 1 = pre.length + (post.length - i - 1 + 1) := by omega
      rw [this]
      conv => lhs; rw [he]
      rw [List.getElem?_append_right (by omega)]
      have : pre.length + (post.length - i - 1 + 1) - pre.length = post.length - i - 1 + 1 := by omega
      rw [this, List.getElem?_cons_succ]
      exact List.getElem?_eq_getElem hq

theorem each_none (R : Reader F T) {v : Value F} (h : v.type ≠ .arr) (put : Nat → T → List T → List T) {is : List Nat} (hi : is ≠ []) (t : List T) :
    (R.each v put is t).1 = .error (.exn .invalidKey, text! "invalid value key error: operator[] called on a non-array type") := by
  cases is with
  | nil => exact absurd rfl hi
  | cons i is => exact each_error R v put i is _ (item_not_arr R h i) [] t (by simp)

theorem speaks_seq {vf : Bool} {R : Reader F T} {w : Want} (h : Speaks vf R w) (put : Nat → T → List T → List T) (v : Value F) (hv : KeysSorted v) (t : List T) :
    (Suits (.seq w) v → (R.each v put (List.range v.size) t).1 = .ok ()) ∧
    ∀ e m, Objection vf (.seq w) v e m → (R.each v put (List.range v.size) t).1 = .error (.exn e, m) := by
  refine ⟨fun hs => ?_, fun e m ho => ?_⟩
  · rcases hs with hz | ⟨ht, hs⟩
    · rw [hz]; rfl
    · obtain ⟨xs, rfl⟩ := type_arr ht
      have := (each_front h put xs (sorted_arr.1 hv) xs.length t).1 (by rw [List.take_length]; exact hs)
      rw [Nat.min_self] at this
      exact this
  · cases ho with
    | seq hp ho =>
      rename_i pre x post
      have := (each_front h put (pre ++ x :: post) (sorted_arr.1 hv) (pre ++ x :: post).length t).2 pre x post e m (by rw [List.take_length]) hp ho
      rw [Nat.min_self] at this
      exact this
    | seqOther hz ht => exact each_none R ht put (fun hn => hz (by simpa using hn)) t

theorem speaks_back {vf : Bool} {R : Reader F T} {w : Want} (h : Speaks vf R w) (put : Nat → T → List T → List T) (v : Value F) (hv : KeysSorted v) (t : List T) :
    (Suits (.back w) v → (R.each v put ((List.range v.size).map fun i => v.size - i - 1) t).1 = .ok ()) ∧
    ∀ e m, Objection vf (.back w) v e m → (R.each v put ((List.range v.size).map fun i => v.size - i - 1) t).1 = .error (.exn e, m) := by
  refine ⟨fun hs => ?_, fun e m ho => ?_⟩
  · rcases hs with hz | ⟨ht, hs⟩
    · rw [hz]; rfl
    · obtain ⟨xs, rfl⟩ := type_arr ht
      exact (each_back h put xs (sorted_arr.1 hv) t).1 hs
  · cases ho with
    | back hp ho =>
      rename_i pre x post
      exact (each_back h put (pre ++ x :: post) (sorted_arr.1 hv) t).2 pre x post e m rfl hp ho
    | backOther hz ht => exact each_none R ht put (fun hn => hz (by simpa using hn)) t

theorem speaks_fixed {vf : Bool} {R : Reader F T} {w : Want} (h : Speaks vf R w) (n : Nat) (put : Nat → T → List T → List T) (v : Value F) (hv : KeysSorted v) (t : List T) :
    (Suits (.fixed n w) v → (R.each v put (List.range (min v.size n)) t).1 = .ok ()) ∧
    ∀ e m, Objection vf (.fixed n w) v e m → (R.each v put (List.range (min v.size n)) t).1 = .error (.exn e, m) := by
  refine ⟨fun hs => ?_, fun e m ho => ?_⟩
  · rcases hs with hn | hz | ⟨ht, hs⟩
    · rw [hn, Nat.min_zero]; rfl
    · rw [hz, Nat.zero_min]; rfl
    · obtain ⟨xs, rfl⟩ := type_arr ht
      exact (each_front h put xs (sorted_arr.1 hv) n t).1 hs
  · cases ho with
    | fixed he hp ho => exact (each_front h put _ (sorted_arr.1 hv) n t).2 _ _ _ e m he hp ho
    | fixedOther hn hz ht => exact each_none R ht put (fun hx => by simp at hx; omega) t

/-! ## Maps -/

theorem sorted_elements {v : Value F} (h : KeysSorted v) : ∀ x ∈ elements v, KeysSorted x := by
  intro x hx
  cases v with
  | null => cases hx
  | arr xs => exact sorted_arr.1 h x hx
  | obj ms =>
    obtain ⟨m, hm, rfl⟩ := List.mem_map.1 hx
    exact (sorted_obj.1 h).2 m hm
  | _ => cases List.mem_singleton.1 hx; exact h

theorem checkSaid_ok {a : Nat} {v : Value F} {p : Nat} {it : Iter} (h : IterAt a v p it) (hp : p < v.size) : it.checkSaid v = .ok () := by
  have e := check_hush v it
  rw [checkData_ok h.1] at e
  have e : it.checkIterator v = _ := e
  rw [checkIterator_ok h hp] at e
  cases hc : it.checkSaid v with
  | ok u => rfl
  | error s => rw [hc] at e; cases e

theorem derefSaid_at {a : Nat} {v : Value F} {p : Nat} {it : Iter} {x : Value F} (h : IterAt a v p it) (hp : (elements v)[p]? = some x) :
    it.derefSaid v = .ok x := by
  have hlt : p < v.size := by rw [← elements_length]; exact (List.getElem?_eq_some_iff.1 hp).1
  unfold Iter.derefSaid
  rw [checkSaid_ok h hlt, deref_at h hp]

theorem keySaid_at {a : Nat} {ms : List (List Nat × Value F)} {p : Nat} {it : Iter} {m : List Nat × Value F} (h : IterAt a (.obj ms) p it)
    (hp : ms[p]? = some m) : it.keySaid (.obj ms) = .ok m.1 := by
  have hlt : p < (Value.obj ms).size := (List.getElem?_eq_some_iff.1 hp).1
  unfold Iter.keySaid
  rw [checkSaid_ok h hlt, key_at h hp]

theorem keySaid_other {a : Nat} {v : Value F} {p : Nat} {it : Iter} (h : IterAt a v p it) (hp : p < v.size) (ht : v.type ≠ .obj) :
    it.keySaid v = .error (.exn .invalidIterator, text! "invalid value iterator error: cannot use key() with non-object type") := by
  have hk : it.key v = .error (.exn .invalidIterator) := by
    unfold Iter.key
    rw [checkData_ok h.1, checkIterator_ok h hp]
    cases v <;> first | rfl | exact absurd rfl ht
  unfold Iter.keySaid
  rw [checkSaid_ok h hp, hk]
  rfl

theorem entry_error {R : Reader F T} {vf : Bool} {c : Value F} {it : Iter} {k : List Nat} {v : Value F} {s : Said} (hk : it.keySaid c = .ok k)
    (hv : it.derefSaid c = .ok v) (hg : R.get v = .error s) : R.entry vf c it = .error s := by
  unfold Reader.entry
  rw [hk, hv]
  simp only [hg]
  cases vf <;> rfl

theorem entry_ok {R : Reader F T} {vf : Bool} {c : Value F} {it : Iter} {k : List Nat} {v : Value F} {x : T} (hk : it.keySaid c = .ok k)
    (hv : it.derefSaid c = .ok v) (hg : R.get v = .ok x) : R.entry vf c it = .ok (k, x) := by
  unfold Reader.entry
  rw [hk, hv]
  simp only [hg]

theorem emplaceAll_obj {vf : Bool} {R : Reader F T} {w : Want} (h : Speaks vf R w) (em : List Nat → T → List (List Nat × T) → List (List Nat × T))
    (ms : List (List Nat × Value F)) (hs : ∀ m ∈ ms, KeysSorted m.2) (last : Iter) (hl : IterAt 0 (.obj ms) ms.length last) :
    ∀ (rest pre : List (List Nat × Value F)) (n : Nat) (it : Iter) (t : List (List Nat × T)), ms = pre ++ rest → IterAt 0 (.obj ms) pre.length it →
      rest.length < n →
      ((∀ m ∈ rest, Suits w m.2) → (R.emplaceAll em vf (.obj ms) n it last t).1 = .ok ()) ∧
      ∀ good k x post e m, rest = good ++ (k, x) :: post → (∀ y ∈ good, Suits w y.2) → Objection vf w x e m →
        (R.emplaceAll em vf (.obj ms) n it last t).1 = .error (.exn e, m)
  | [], pre, n, it, t, he, hi, hn => by
    obtain ⟨n, rfl⟩ : ∃ k, n = k + 1 := ⟨n - 1, by simp at hn; omega⟩
    refine ⟨fun _ => ?_, fun good k x post e m hr => ?_⟩
    · unfold Reader.emplaceAll
      rw [eq_at hi hl]
      have : pre.length = ms.length := by rw [he]; simp
      rw [decide_eq_true this]
    · have := congrArg List.length hr
      simp at this
  | (k0, x0) :: rest, pre, n, it, t, he, hi, hn => by
    obtain ⟨n, rfl⟩ : ∃ k, n = k + 1 := ⟨n - 1, by simp at hn; omega⟩
    have hlen : ms.length = pre.length + (rest.length + 1) := by rw [he]; simp
    have hm : ms[pre.length]? = some (k0, x0) := by rw [he]; simp
    have hx : (elements (.obj ms))[pre.length]? = some x0 := by
      show (ms.map Prod.snd)[pre.length]? = _
      rw [List.getElem?_map, hm]; rfl
    have hne : it.eq (.obj ms) last = .ok false := by rw [eq_at hi hl, decide_eq_false (by omega)]
    obtain ⟨jt, hj, hp⟩ := incr_at hi (by show pre.length < ms.length; omega)
    have hk := keySaid_at hi hm
    have hd := derefSaid_at hi hx
    have step : ∀ y, R.get x0 = .ok y → ∃ t', R.emplaceAll em vf (.obj ms) (n + 1) it last t = R.emplaceAll em vf (.obj ms) n jt last t' := by
      intro y hy
      refine ⟨em k0 y t, ?_⟩
      conv => lhs; unfold Reader.emplaceAll
      rw [hne, entry_ok hk hd hy]
      show (match it.incr (.obj ms) with | .error e => _ | .ok it => _) = _
      rw [hj]
    have ih := fun t' => emplaceAll_obj h em ms hs last hl rest (pre ++ [(k0, x0)]) n jt t' (by rw [he]; simp) (by simpa using hp) (by simp at hn; omega)
    have hx0 := hs _ (List.mem_of_getElem? hm)
    refine ⟨fun hs => ?_, fun good k x post e m hr hg ho => ?_⟩
    · obtain ⟨y, hy⟩ := (speaks_get h x0 hx0).1 (hs (k0, x0) (by simp))
      obtain ⟨t', ht⟩ := step y hy
      rw [ht]
      exact (ih t').1 fun m hm => hs m (by simp [hm])
    · cases good with
      | nil =>
        cases hr
        unfold Reader.emplaceAll
        rw [hne, entry_error hk hd ((speaks_get h x0 hx0).2 e m ho)]
      | cons g good =>
        cases hr
        obtain ⟨y, hy⟩ := (speaks_get h x0 hx0).1 (hg (k0, x0) (by simp))
        obtain ⟨t', ht⟩ := step y hy
        rw [ht]
        exact (ih t').2 good k x post e m rfl (fun m hm => hg m (by simp [hm])) ho

theorem speaks_map {vf : Bool} {R : Reader F T} {w : Want} (h : Speaks vf R w) (em : List Nat → T → List (List Nat × T) → List (List Nat × T)) :
    Speaks vf (R.map em vf) (.dict w) := by
  intro v t hv
  obtain ⟨it, e1, i1⟩ := begin_at 0 v
  obtain ⟨last, e2, i2⟩ := fin_at 0 v
  have hr : (R.map em vf).fromValue v t = R.emplaceAll em vf v (v.size + 1) it last t := by
    show (match v.begin 0, v.fin 0 with | .ok it, .ok last => _ | .error e, _ => _ | _, .error e => _) = _
    rw [e1, e2]
  rw [hr]
  refine ⟨fun hs => ?_, fun e m ho => ?_⟩
  · rcases hs with hz | ⟨ht, hs⟩
    · unfold Reader.emplaceAll
      rw [eq_at i1 i2, hz]
      rfl
    · obtain ⟨ms, rfl⟩ := type_obj ht
      exact (emplaceAll_obj h em ms (sorted_obj.1 hv).2 last i2 ms [] _ it t rfl i1 (Nat.lt_succ_self _)).1 fun m hm => hs _ (List.mem_map.2 ⟨m, hm, rfl⟩)
  · have first : ∀ x xs, elements v = x :: xs → 0 < v.size ∧ it.eq v last = .ok false ∧ it.derefSaid v = .ok x ∧ KeysSorted x := by
      intro x xs hx
      have hz : 0 < v.size := by rw [← elements_length, hx]; simp
      exact ⟨hz, by rw [eq_at i1 i2, decide_eq_false (by omega)], derefSaid_at i1 (by rw [hx]; rfl), sorted_elements hv x (by rw [hx]; simp)⟩
    cases ho with
    | dict hg ho =>
      rename_i pre k x post
      exact (emplaceAll_obj h em _ (sorted_obj.1 hv).2 last i2 _ [] _ it t rfl i1 (Nat.lt_succ_self _)).2 pre k x post e m rfl hg ho
    | dictOther ht hx hs =>
      rename_i x xs
      obtain ⟨hz, hne, hd, hy⟩ := first _ _ hx
      have hk := keySaid_other i1 hz ht
      unfold Reader.emplaceAll
      rw [hne]
      have : R.entry vf v it = .error (.exn .invalidIterator, text! "invalid value iterator error: cannot use key() with non-object type") := by
        unfold Reader.entry
        rw [hk, hd]
        cases vf with
        | false => rfl
        | true =>
          obtain ⟨y, hg⟩ := (speaks_get h x hy).1 (hs rfl)
          simp only [hg]
      rw [this]
    | dictValue ht hx hvf ho =>
      rename_i x xs
      obtain ⟨hz, hne, hd, hy⟩ := first _ _ hx
      have hk := keySaid_other i1 hz ht
      subst hvf
      unfold Reader.emplaceAll
      rw [hne]
      have : R.entry true v it = .error (.exn e, m) := by
        unfold Reader.entry
        rw [hk, hd]
        simp only [(speaks_get h x hy).2 e m ho]
      rw [this]

/-! ## Pointers and structs -/

theorem speaks_ptr {vf : Bool} {R : Reader F T} {w : Want} (h : Speaks vf R w) : Speaks vf R.ptr (.ptr w) := by
  intro v t hk
  have hg := speaks_get h v hk
  have other : v.type ≠ .null → R.ptr.fromValue v t = match R.get v with | .ok x => (.ok (), some x) | .error e => (.error e, t) := by
    intro hv
    cases v <;> first | rfl | exact absurd rfl hv
  refine ⟨fun hs => ?_, fun e m ho => ?_⟩
  · by_cases hv : v.type = .null
    · cases v <;> first | rfl | cases hv
    · obtain ⟨x, hx⟩ := hg.1 (hs.resolve_left hv)
      rw [other hv, hx]
  · cases ho with
    | ptr hv ho => rw [other hv, hg.2 e m ho]

theorem count_member {ms : List (List Nat × Value F)} (hs : Sorted ms) (k : List Nat) : ((Value.obj ms).count k == 0) = (member (.obj ms) k).isNone := by
  show ((if (Map.find k ms).isSome then 1 else 0) == 0) = (ms.lookup k).isNone
  rw [find_lookup hs]
  cases ms.lookup k <;> rfl

theorem readSaid_skip {f : Field F S} {c : Value F} (h : f.optional = true) (hc : c.count f.name = 0) (s : S) : f.readSaid c s = (.ok (), s) := by
  unfold Field.readSaid
  rw [h, hc]; rfl

theorem atKeySaid_obj {ms : List (List Nat × Value F)} (hs : Sorted ms) (k : List Nat) :
    (Value.obj ms).atKeySaid k = match ms.lookup k with
      | some x => .ok x
      | none => .error (.exn .outOfRange, text! "operator[] key out of range") := by
  rw [← find_lookup hs]
  show (match Map.find k ms with | some x => Except.ok x | none => .error _) = _
  cases Map.find k ms <;> rfl

theorem readSaid_present {f : Field F S} {ms : List (List Nat × Value F)} (hs : Sorted ms) (hf : Safe f.conv)
    (hm : (member (.obj ms) f.name).isSome) (s : S) : ∃ s', f.readSaid (.obj ms) s = (.ok (), s') := by
  have hm : (ms.lookup f.name).isSome := hm
  obtain ⟨x, hx⟩ := Option.isSome_iff_exists.1 hm
  unfold Field.readSaid
  rw [count_member hs]
  have : (member (.obj ms) f.name).isNone = false := by show (ms.lookup f.name).isNone = false; rw [hx]; rfl
  rw [this, Bool.and_false]
  have : (Value.obj ms).atKeySaid f.name = .ok x := by
    rw [atKeySaid_obj hs, hx]
  rw [this]
  obtain ⟨b, t', hg⟩ := hf x (f.get s)
  simp only [hg]
  exact ⟨_, rfl⟩

theorem readAllSaid_obj {ms : List (List Nat × Value F)} (hs : Sorted ms) :
    ∀ (fs : List (Field F S)) (s : S), (∀ f ∈ fs, Safe f.conv) →
      (Suits (.struct (fs.map fun f => (f.name, f.optional))) (.obj ms) → (readAllSaid (.obj ms) fs s).1 = .ok ()) ∧
      ∀ pre k post, fs.map (fun f => (f.name, f.optional)) = pre ++ (k, false) :: post →
        (∀ f ∈ pre, f.2 = true ∨ (member (Value.obj ms) f.1).isSome) → member (.obj ms) k = none →
        (readAllSaid (.obj ms) fs s).1 = .error (.exn .outOfRange, text! "operator[] key out of range")
  | [], s, _ => ⟨fun _ => rfl, fun pre k post h => by cases pre <;> cases h⟩
  | f :: fs, s, hf => by
    have ih := fun s => readAllSaid_obj hs fs s fun g hg => hf g (by simp [hg])
    have step : (f.optional = true ∨ (member (Value.obj ms) f.name).isSome) → ∃ s', readAllSaid (.obj ms) (f :: fs) s = readAllSaid (.obj ms) fs s' := by
      intro hc
      have : ∃ s', f.readSaid (.obj ms) s = (.ok (), s') := by
        cases hm : (member (Value.obj ms) f.name).isSome with
        | true => exact readSaid_present hs (hf f (by simp)) hm s
        | false =>
          rw [hm] at hc
          have ho : f.optional = true := by simpa using hc
          refine ⟨s, readSaid_skip ho ?_ s⟩
          have := count_member hs f.name
          rw [← Option.not_isSome, hm] at this
          simpa using this
      obtain ⟨s', h⟩ := this
      refine ⟨s', ?_⟩
      conv => lhs; unfold readAllSaid
      rw [h]
    refine ⟨fun h => ?_, fun pre k post he hp hk => ?_⟩
    · obtain ⟨s', e⟩ := step (h (f.name, f.optional) (by simp))
      rw [e]
      exact (ih s').1 fun g hg => h g (by simp at hg ⊢; exact .inr hg)
    · cases pre with
      | nil =>
        obtain ⟨h1, _⟩ := List.cons.inj he
        obtain ⟨h2, h3⟩ := Prod.mk.inj h1
        unfold readAllSaid
        have : f.readSaid (.obj ms) s = (.error (.exn .outOfRange, text! "operator[] key out of range"), s) := by
          unfold Field.readSaid
          rw [h3, Bool.false_and]
          have hk : ms.lookup k = none := hk
          have : (Value.obj ms).atKeySaid f.name = .error (.exn .outOfRange, text! "operator[] key out of range") := by
            rw [atKeySaid_obj hs, h2, hk]
          rw [this]
          rfl
        rw [this]
      | cons p pre =>
        obtain ⟨h1, h2⟩ := List.cons.inj he
        subst h1
        obtain ⟨s', e⟩ := step (hp (f.name, f.optional) (by simp))
        rw [e]
        exact (ih s').2 pre k post h2 (fun g hg => hp g (by simp [hg])) hk

theorem count_other {v : Value F} (h : v.type ≠ .obj) (k : List Nat) : v.count k = 0 := by
  cases v <;> first | rfl | exact absurd rfl h

theorem readAllSaid_other {v : Value F} (h : v.type ≠ .obj) :
    ∀ (fs : List (Field F S)) (s : S), ((∀ f ∈ fs, f.optional = true) → (readAllSaid v fs s).1 = .ok ()) ∧
      ((∃ f ∈ fs, f.optional = false) →
        (readAllSaid v fs s).1 = .error (.exn .invalidKey, text! "invalid value key error: operator[] called on a non-object object"))
  | [], _ => ⟨fun _ => rfl, fun h => by obtain ⟨f, hf, _⟩ := h; cases hf⟩
  | f :: fs, s => by
    have ih := readAllSaid_other h fs s
    cases ho : f.optional with
    | true =>
      have e : readAllSaid v (f :: fs) s = readAllSaid v fs s := by
        conv => lhs; unfold readAllSaid
        rw [readSaid_skip ho (count_other h _)]
      rw [e]
      refine ⟨fun hf => ih.1 fun g hg => hf g (by simp [hg]), fun hf => ih.2 ?_⟩
      obtain ⟨g, hg, hgo⟩ := hf
      rcases List.mem_cons.1 hg with rfl | hg
      · rw [ho] at hgo; cases hgo
      · exact ⟨g, hg, hgo⟩
    | false =>
      refine ⟨fun hf => ?_, fun _ => ?_⟩
      · have := hf f (by simp)
        rw [ho] at this; cases this
      · unfold readAllSaid Field.readSaid
        rw [ho, Bool.false_and]
        have : v.atKeySaid f.name = .error (.exn .invalidKey, text! "invalid value key error: operator[] called on a non-object object") := by
          cases v <;> first | rfl | exact absurd rfl h
        rw [this]
        rfl

theorem speaks_bind (vf : Bool) {fs : List (Field F S)} (hf : ∀ f ∈ fs, Safe f.conv) (z : S) :
    Speaks vf (Reader.bind fs z) (.struct (fs.map fun f => (f.name, f.optional))) := by
  intro v s hv
  show (_ → (readAllSaid v fs s).1 = _) ∧ ∀ e m, _ → (readAllSaid v fs s).1 = _
  refine ⟨fun h => ?_, fun e m ho => ?_⟩
  · by_cases ht : v.type = .obj
    · obtain ⟨ms, rfl⟩ := type_obj ht
      exact (readAllSaid_obj (sorted_obj.1 hv).1 fs s hf).1 h
    · refine (readAllSaid_other ht fs s).1 fun f hf => ?_
      rcases h (f.name, f.optional) (List.mem_map.2 ⟨f, hf, rfl⟩) with h | h
      · exact h
      · cases v <;> first | exact absurd rfl ht | cases h
  · generalize hw : fs.map (fun f => (f.name, f.optional)) = gs at ho
    cases ho with
    | missing hp hk => exact (readAllSaid_obj (sorted_obj.1 hv).1 fs s hf).2 _ _ _ hw hp hk
    | structOther ht hx =>
      refine (readAllSaid_other ht fs s).2 ?_
      obtain ⟨g, hg, hgo⟩ := hx
      rw [← hw] at hg
      obtain ⟨f, hf', rfl⟩ := List.mem_map.1 hg
      exact ⟨f, hf', hgo⟩

/-- All readers. -/
theorem typed_speaks {vf : Bool} {R : Reader F T} {w : Want} (h : Typed vf R w) : Speaks vf R w := by
  induction h with
  | bool | int | flt | str =>
    intro v t _
    refine ⟨fun h => ?_, fun e m ho => ?_⟩
    · cases v <;> first | rfl | cases h
    · cases ho with
      | exact hv => cases v <;> first | rfl | exact absurd rfl hv
  | val =>
    intro v t _
    exact ⟨fun _ => rfl, fun e m ho => by cases ho⟩
  | arrayType | objectType =>
    intro v t _
    refine ⟨fun h => ?_, fun e m ho => ?_⟩
    · cases v <;> first | rfl | (rcases h with h | h <;> cases h)
    · cases ho with
      | orNull hv hn => cases v <;> first | rfl | exact absurd rfl hv | exact absurd rfl hn
  | array _ ih => exact fun v t hv => speaks_fixed ih _ _ v hv t
  | vector _ ih => exact fun v t hv => speaks_seq ih _ v hv _
  | list _ ih => exact fun v t hv => speaks_seq ih _ v hv _
  | forwardList _ ih => exact fun v t hv => speaks_back ih _ v hv _
  | set _ ih => exact fun v t hv => speaks_seq ih _ v hv _
  | map _ ih => exact speaks_map ih _
  | ptr _ ih => exact speaks_ptr ih
  | bind hf => exact speaks_bind vf hf _

end Configor
