import Verif.Proofs.LiveLoop
import Verif.Props.ParserCore
/-!
# Iterators of a value that changes

`PointsAt c p it` says that the iterator may be used and is at position `p` of the present content of `c`; `C127_use` says what
that means for the operations.
-/
set_option autoImplicit false
namespace Configor.Props
open Spec

variable {F : Type}

/-- An array of two elements with room for two more, for examples. -/
def liveArr : Live Unit := .fresh 0 2 (.arr [.int 1, .int 2])

/-- An object with two members, for examples. -/
def liveObj : Live Unit := .fresh 0 0 (.obj [([1], .int 1), ([2], .int 2)])

/-- A vector that grows to exactly what it needs, for examples. -/
def tight : Growth := fun _ n => n

theorem liveArr_lived : Lived unitFloat tight liveArr := .start (sorted_arr.2 (by
  intro x hx
  rcases List.mem_cons.1 hx with rfl | hx
  · exact sorted_scalar (by simp [Value.type]) (by simp [Value.type])
  · cases List.mem_singleton.1 hx
    exact sorted_scalar (by simp [Value.type]) (by simp [Value.type])))

theorem liveObj_lived : Lived unitFloat tight liveObj := .start (sorted_obj.2 ⟨by simp [Sorted]; decide +kernel, by
  intro x hx
  rcases List.mem_cons.1 hx with rfl | hx
  · exact sorted_scalar (by simp [Value.type]) (by simp [Value.type])
  · cases List.mem_singleton.1 hx
    exact sorted_scalar (by simp [Value.type]) (by simp [Value.type])⟩)

/-- The iterator to the second element, for examples. -/
def second : LIter := ⟨some (1, 0), some (.node 2), 0⟩

theorem second_arr : PointsAt liveArr 1 second := ⟨_, rfl, rfl, by decide +kernel, rfl⟩
theorem second_obj : PointsAt liveObj 1 second := ⟨_, rfl, rfl, by decide +kernel, rfl⟩

/-! ## C127 -/

/-- C127. An iterator at position `p` gives the element and the key there, steps to the next position, and differs from
those at other positions. `begin()` and `end()` are at the first position and after the last. -/
theorem C127_use (fo : FloatOps F) (g : Growth) (c : Live F) (hc : Lived fo g c) :
    (∃ it, c.begin = .ok it ∧ PointsAt c 0 it) ∧ (∃ it, c.fin = .ok it ∧ PointsAt c c.content.size it) ∧
    ∀ p it, PointsAt c p it →
      (∀ x, (elements c.content)[p]? = some x → c.deref it = .ok x) ∧
      (∀ ms m, c.content = .obj ms → ms[p]? = some m → c.key it = .ok m.1) ∧
      (p < c.content.size → ∃ jt, c.incr it = .ok jt ∧ PointsAt c (p + 1) jt) ∧
      (∀ q jt, PointsAt c q jt → c.ne it jt = .ok (decide (p ≠ q))) := by
  have ok := lived_ok hc
  exact ⟨begin_live ok, fin_live ok, fun p it h => ⟨fun x hx => deref_live h hx, fun ms m e hm => key_live h e hm, incr_live ok h, fun q jt hj => ne_live h hj⟩⟩

example : Lived unitFloat tight liveArr ∧ PointsAt liveArr 1 second ∧ liveArr.deref second = .ok (.int 2) := ⟨liveArr_lived, second_arr, rfl⟩

/-- C127. The iterator that `find(key)` gives is at the member with the key, or at the end if there is none. -/
theorem C127_find (fo : FloatOps F) (g : Growth) (c : Live F) (hc : Lived fo g c) (ms : List (List Nat × Value F)) (he : c.content = .obj ms)
    (k : List Nat) : ∃ it p, c.find k = .ok it ∧ PointsAt c p it ∧
      match ms.lookup k with
      | some x => ms[p]? = some (k, x)
      | none => p = ms.length := by
  have ok := lived_ok hc
  have hs : Sorted ms := by
    obtain ⟨n, sh⟩ := c
    cases sh with
    | vec xs marks cap => cases he
    | map home ns => cases he; exact strip_sorted ok.2.1
    | plain v => have he : v = .obj ms := he; subst he; exact absurd rfl ok.2
  obtain ⟨i, h1, h2⟩ := find_at (a := 0) hs k
  rw [← he] at h1 h2
  refine ⟨_, _, by unfold Live.find; rw [h1]; rfl, place_at ok h2 _, ?_⟩
  obtain ⟨a, b⟩ := position_spec hs k
  cases h : ms.lookup k with
  | some x => exact a x h
  | none => exact b h

example : liveObj.find [2] = .ok ⟨none, some (.node 2), 0⟩ ∧ liveObj.find [3] = .ok ⟨none, some (.past 0), 0⟩ := ⟨rfl, rfl⟩

/-- C127. The changes do to the content what they do when nobody has an iterator. -/
theorem C127_content (fo : FloatOps F) (g : Growth) (c : Live F) (hc : Lived fo g c) (ch : Edit F) (hu : Usual ch) :
    (Live.act fo g ch c).1 = (effect fo ch c.content).1 ∧ (Live.act fo g ch c).2.content = (effect fo ch c.content).2 :=
  act_content fo g (lived_ok hc) hu

example : Usual (.push .null : Edit Unit) ∧ (Live.act unitFloat tight (.push .null) liveArr).2.content = .arr [.int 1, .int 2, .null] :=
  ⟨sorted_scalar (by simp [Value.type]) (by simp [Value.type]), rfl⟩

/-- C127. An iterator of an object stays at its member under any number of changes that do not remove that member and do not
replace the whole value: whatever other members come and go, it gives the key and the present value of its member. None of the
changes is undefined. -/
theorem C127_member_stays (fo : FloatOps F) (g : Growth) (c : Live F) (hc : Lived fo g c) (ms : List (List Nat × Value F)) (p : Nat)
    (k : List Nat) (x : Value F) (it : LIter) (he : c.content = .obj ms) (hp : ms[p]? = some (k, x)) (hi : PointsAt c p it)
    (cs : List (Edit F)) (hcs : ∀ ch ∈ cs, KeepsMember k ch ∧ Usual ch) :
    ∃ d ms' p' x', Live.actAll fo g cs c = some d ∧ d.content = .obj ms' ∧ ms'[p']? = some (k, x') ∧ PointsAt d p' it ∧
      d.key it = .ok k ∧ d.deref it = .ok x' := by
  have ok := lived_ok hc
  obtain ⟨n, sh⟩ := c
  cases sh with
  | vec xs marks cap => cases he
  | plain v => have he : v = .obj ms := he; subst he; exact absurd rfl ok.2
  | map home ns =>
    cases he
    rcases (at_map ok).1 hi with ⟨m, hm, e⟩ | ⟨e, _⟩
    · have hp : (strip ns)[p]? = some (k, x) := hp
      rw [strip_getElem, hm] at hp
      cases hp
      obtain ⟨n', ms', x', e1, ok', hk⟩ := member_all fo g (home := home) (k := m.1) (id := m.2.1) cs n ns m.2.2 ok
        ((mem_lookup ok.2.1).1 (List.mem_of_getElem? hm)) hcs
      obtain ⟨q, h1, h2⟩ := node_points ok' hk e
      refine ⟨_, strip ms', q, x', e1, rfl, h1, h2, key_live h2 rfl h1, deref_live h2 ?_⟩
      show ((strip ms').map Prod.snd)[q]? = _
      rw [List.getElem?_map, h1]; rfl
    · have := (List.getElem?_eq_some_iff.1 hp).1
      simp at this
      omega

example : ∃ d, Live.actAll unitFloat tight [.put [0] .null, .eraseKey [1], .put [2] (.int 7)] liveObj = some d ∧ d.key second = .ok [2] ∧
    d.deref second = .ok (.int 7) := ⟨_, rfl, rfl, rfl⟩
example : KeepsMember [2] (.eraseKey [1] : Edit Unit) ∧ KeepsMember [2] (.put [2] .null : Edit Unit) := ⟨by simp [KeepsMember], trivial⟩

/-- C127. The end of an object stays the end under any number of changes, `clear()` included, that do not replace the whole value. -/
theorem C127_end_stays (fo : FloatOps F) (g : Growth) (c : Live F) (hc : Lived fo g c) (ms : List (List Nat × Value F)) (it : LIter)
    (he : c.content = .obj ms) (hi : PointsAt c ms.length it) (cs : List (Edit F)) (hcs : ∀ ch ∈ cs, (∀ x s, ch ≠ .assign x s) ∧ Usual ch) :
    ∃ d ms', Live.actAll fo g cs c = some d ∧ d.content = .obj ms' ∧ PointsAt d ms'.length it := by
  have ok := lived_ok hc
  obtain ⟨n, sh⟩ := c
  cases sh with
  | vec xs marks cap => cases he
  | plain v => have he : v = .obj ms := he; subst he; exact absurd rfl ok.2
  | map home ns =>
    cases he
    obtain ⟨n', ms', e1, ok'⟩ := past_all fo g cs n ns ok hcs
    refine ⟨_, strip ms', e1, rfl, ?_⟩
    rcases (at_map ok).1 hi with ⟨m, hm, e⟩ | ⟨_, e⟩
    · have := (List.getElem?_eq_some_iff.1 hm).1
      simp at this
    · rw [strip_length]; exact (at_map ok').2 (.inr ⟨rfl, e⟩)

example : PointsAt liveObj 2 ⟨none, some (.past 0), 0⟩ := ⟨_, rfl, rfl, by decide +kernel, rfl⟩
example : ∃ d, Live.actAll unitFloat tight [.put [0] .null, .clear] liveObj = some d ∧ d.fin = .ok ⟨none, some (.past 0), 0⟩ := ⟨_, rfl, rfl⟩

/-- C127. Removing a member of an object gives up its iterators. -/
theorem C127_member_removed (fo : FloatOps F) (g : Growth) (c : Live F) (hc : Lived fo g c) (ms : List (List Nat × Value F)) (p : Nat)
    (k : List Nat) (x : Value F) (it : LIter) (he : c.content = .obj ms) (hp : ms[p]? = some (k, x)) (hi : PointsAt c p it)
    (ch : Edit F) (hch : ch = .eraseKey k ∨ ch = .clear) : Useless (Live.act fo g ch c).2 it := by
  have ok := lived_ok hc
  obtain ⟨n, sh⟩ := c
  cases sh with
  | vec xs marks cap => cases he
  | plain v => have he : v = .obj ms := he; subst he; exact absurd rfl ok.2
  | map home ns =>
    cases he
    rcases (at_map ok).1 hi with ⟨m, hm, e⟩ | ⟨e, _⟩
    · have hp : (strip ns)[p]? = some (k, x) := hp
      rw [strip_getElem, hm] at hp
      cases hp
      have hk := (mem_lookup ok.2.1).1 (List.mem_of_getElem? hm)
      rcases hch with rfl | rfl
      · exact member_gone ok hk e (erase_sub _) (by rw [erase_lookup ok.2.1, if_pos rfl]) _
      · exact member_gone ok hk e (List.nil_sublist _) rfl _
    · have := (List.getElem?_eq_some_iff.1 hp).1
      simp at this
      omega

example : (Live.act unitFloat tight (.eraseKey [2]) liveObj).2.deref second = .error .ub := rfl

/-- C127. What one change does to an iterator of an array, the end included: it stays at its position unless the array gets a new
storage, elements at or before the position are removed, or elements are added at the position. Otherwise every use of it is
undefined. -/
theorem C127_array_step (fo : FloatOps F) (g : Growth) (c : Live F) (hc : Lived fo g c) (xs ys : List (Value F)) (p : Nat) (it : LIter)
    (he : c.content = .arr xs) (hi : PointsAt c p it) (ch : Edit F) (r : Except Stop Unit) (d : Live F)
    (e : Live.act fo g ch c = (r, d)) (hr : r ≠ .error .ub) (hd : d.content = .arr ys) :
    (¬ DropsAt c p ch → PointsAt d p it) ∧ (DropsAt c p ch → Useless d it) := by
  have ok := lived_ok hc
  obtain ⟨n, sh⟩ := c
  cases sh with
  | map home ns => cases he
  | plain v => have he : v = .arr xs := he; subst he; exact absurd rfl ok.1
  | vec zs marks cap =>
    have := array_step fo g ok hi e hr hd
    exact ⟨fun h => (this.1 h).1, this.2⟩

example : ¬ DropsAt liveArr 1 (.push .null) ∧ DropsAt liveArr 2 (.push .null) ∧ DropsAt liveArr 1 (.eraseAt 0) ∧ DropsAt liveArr 1 (.setAt 4 .null) := by
  simp [DropsAt, liveArr, Live.fresh, Live.newVec, Live.capacity, Live.content, Value.size]

/-- C127. An iterator of an array stays at its element under any number of changes that do not remove elements at or before it, as
long as the array never has more elements than the capacity it had. -/
theorem C127_element_stays (fo : FloatOps F) (g : Growth) (c : Live F) (hc : Lived fo g c) (xs : List (Value F)) (p : Nat) (it : LIter)
    (he : c.content = .arr xs) (hp : p < xs.length) (hi : PointsAt c p it) (cs : List (Edit F)) (hcs : ∀ ch ∈ cs, KeepsElement p ch ∧ Usual ch)
    (hfit : ∀ pre d, pre <+: cs → Live.actAll fo g pre c = some d → d.content.size ≤ c.capacity)
    (d : Live F) (hd : Live.actAll fo g cs c = some d) :
    ∃ ys y, d.content = .arr ys ∧ ys[p]? = some y ∧ PointsAt d p it ∧ d.deref it = .ok y := by
  have main : ∀ (cs : List (Edit F)) (n : Nat) (xs : List (Value F)) (marks : List Nat) (cap : Nat), LiveOk ⟨n, .vec xs marks cap⟩ →
      PointsAt ⟨n, .vec xs marks cap⟩ p it → p < xs.length → (∀ ch ∈ cs, KeepsElement p ch ∧ Usual ch) →
      (∀ pre d, pre <+: cs → Live.actAll fo g pre ⟨n, .vec xs marks cap⟩ = some d → d.content.size ≤ cap) →
      Live.actAll fo g cs ⟨n, .vec xs marks cap⟩ = some d →
      ∃ ys, d.content = .arr ys ∧ p < ys.length ∧ PointsAt d p it := by
    intro cs
    induction cs with
    | nil => intro n xs marks cap _ hi hp _ _ e; cases e; exact ⟨xs, rfl, hp, hi⟩
    | cons ch cs ih =>
      intro n xs marks cap ok hi hp hcs hfit e
      have okd := act_ok fo g ok (hcs ch (by simp)).2
      have hcon := act_content fo g ok (hcs ch (by simp)).2
      generalize hact : Live.act fo g ch ⟨n, .vec xs marks cap⟩ = q at okd hcon
      obtain ⟨r, d1⟩ := q
      have hr : r ≠ .error .ub ∧ Live.actAll fo g cs d1 = some d ∧ Live.actAll fo g [ch] ⟨n, .vec xs marks cap⟩ = some d1 ∧
          (∀ pre d', Live.actAll fo g pre d1 = some d' → Live.actAll fo g (ch :: pre) ⟨n, .vec xs marks cap⟩ = some d') := by
        unfold Live.actAll at e
        simp only [Live.actAll, hact]
        rw [hact] at e
        rcases r with (⟨er⟩ | _ | _ | _) | a
        · exact ⟨by simp, e, rfl, fun _ _ h => h⟩
        · cases e
        · cases e
        · cases e
        · exact ⟨by simp, e, rfl, fun _ _ h => h⟩
      obtain ⟨hr, e1, e2, e3⟩ := hr
      have hf1 : d1.content.size ≤ cap := hfit [ch] d1 ⟨cs, rfl⟩ e2
      have arr : ∃ ys, d1.content = .arr ys ∧ p < ys.length ∧ ¬ DropsAt ⟨n, .vec xs marks cap⟩ p ch := by
        have hc2 := hcon.2
        have hK := (hcs ch (by simp)).1
        cases ch with
        | put k x => exact ⟨xs, hc2, hp, fun h => h⟩
        | eraseKey k => exact ⟨xs, hc2, hp, fun h => h⟩
        | push x =>
          have hc2 : d1.content = .arr (xs ++ [x]) := hc2
          rw [hc2] at hf1
          have hf1 : (xs ++ [x]).length ≤ cap := hf1
          simp at hf1
          refine ⟨_, hc2, by simp; omega, fun h => ?_⟩
          have h : cap < xs.length + 1 ∨ p = xs.length := h
          omega
        | setAt i x =>
          obtain ⟨n', zs, marks', cap', ht, _, e', _, hz⟩ := putElem_eq g i x ok
          have hact : Live.putElem g i n x xs marks cap = (r, d1) := hact
          rw [e'] at hact
          cases hact
          have hf1 : (zs.set i x).length ≤ cap := hf1
          rw [List.length_set] at hf1
          by_cases hx : i ≥ xs.length
          · rw [if_pos hx] at hz
            have hl : zs.length = i + 1 := by rw [hz]; simp; omega
            refine ⟨_, rfl, by rw [List.length_set]; omega, fun h => ?_⟩
            have h : xs.length ≤ i ∧ (cap < i + 1 ∨ p = xs.length) := h
            omega
          · rw [if_neg hx] at hz
            exact ⟨_, rfl, by rw [List.length_set, hz]; exact hp, fun h => absurd h.1 hx⟩
        | eraseAt i =>
          have hK : p < i := hK
          by_cases hx : i < xs.length
          · have hc2 : d1.content = (if i < xs.length then ((.ok (), .arr (xs.eraseIdx i)) : Except Stop Unit × Value F) else (.error .ub, .arr xs)).2 := hc2
            rw [if_pos hx] at hc2
            refine ⟨_, hc2, ?_, fun h => ?_⟩
            · rw [List.length_eraseIdx, if_pos hx]; omega
            · have h : i ≤ p := h
              omega
          · have : r = (if i < xs.length then ((.ok (), .arr (xs.eraseIdx i)) : Except Stop Unit × Value F) else (.error .ub, .arr xs)).1 := hcon.1
            rw [if_neg hx] at this
            exact absurd this hr
        | clear => exact hK.elim
        | assign x s => exact hK.elim
      obtain ⟨ys, hy, hpy, hnd⟩ := arr
      obtain ⟨hi1, hcap⟩ := (array_step fo g ok hi hact hr hy).1 hnd
      obtain ⟨n1, sh1⟩ := d1
      cases sh1 with
      | map home ns => cases hy
      | plain v => have hy : v = .arr ys := hy; subst hy; exact absurd rfl okd.1
      | vec zs marks1 cap1 =>
        have hcap : cap1 = cap := hcap
        subst hcap
        cases hy
        refine ih n1 ys marks1 cap1 okd hi1 hpy (fun c hc => hcs c (by simp [hc])) (fun pre d' hpre hd' => ?_) e1
        obtain ⟨t, rfl⟩ := hpre
        exact hfit (ch :: pre) d' ⟨t, rfl⟩ (e3 pre d' hd')
  have ok := lived_ok hc
  obtain ⟨n, sh⟩ := c
  cases sh with
  | map home ns => cases he
  | plain v => have he : v = .arr xs := he; subst he; exact absurd rfl ok.1
  | vec zs marks cap =>
    cases he
    obtain ⟨ys, h1, h2, h3⟩ := main cs n xs marks cap ok hi hp hcs hfit hd
    refine ⟨ys, ys[p], h1, List.getElem?_eq_getElem h2, h3, deref_live h3 ?_⟩
    rw [h1]; exact List.getElem?_eq_getElem h2

example : ∃ d, Live.actAll unitFloat tight [.push .null, .setAt 1 (.int 5), .setAt 3 .null, .eraseAt 2] liveArr = some d ∧
    d.deref second = .ok (.int 5) := ⟨_, rfl, rfl⟩
example : ∃ d, Live.actAll unitFloat tight [.push .null, .push .null, .push .null] liveArr = some d ∧ d.deref second = .error .ub := ⟨_, rfl, rfl⟩

/-- C127. An iterator of an array that was given up never gets usable again, whatever is done later. -/
theorem C127_array_for_good (fo : FloatOps F) (g : Growth) (c d e : Live F) (hc : Lived fo g c) (p : Nat) (it : LIter) (xs ys zs : List (Value F))
    (hx : c.content = .arr xs) (hi : PointsAt c p it) (cs cs' : List (Edit F)) (hcs : ∀ ch ∈ cs ++ cs', Usual ch)
    (hd : Live.actAll fo g cs c = some d) (hy : d.content = .arr ys) (hu : Useless d it) (he : Live.actAll fo g cs' d = some e)
    (hz : e.content = .arr zs) : Useless e it := by
  have ok := lived_ok hc
  have okd := all_ok fo g cs ok (fun c h => hcs c (by simp [h])) hd
  have oke := all_ok fo g cs' okd (fun c h => hcs c (by simp [h])) he
  obtain ⟨n, sh⟩ := c
  cases sh with
  | map home ns => cases hx
  | plain v => have hx : v = .arr xs := hx; subst hx; exact absurd rfl ok.1
  | vec xs' marks cap =>
    obtain ⟨m, h1, h2⟩ := (at_vec ok).1 hi
    have hm : m < n := ok.2 m (List.mem_of_getElem? h2)
    have dead : DeadArr p m d := by
      refine ⟨next_all fo g cs hm hd, fun xs1 marks1 cap1 hs hmk => ?_⟩
      obtain ⟨n1, sh1⟩ := d
      cases hs
      have h := hu.ne it
      unfold Live.ne at h
      simp only [Live.resolve, h1] at h
      rw [if_pos hmk] at h
      simp [bind, Except.bind, Iter.ne, Iter.eq, Iter.sameIt, Live.content] at h
    have deadE := dead_all fo g cs' dead he
    obtain ⟨n2, sh2⟩ := e
    cases sh2 with
    | map home ns => cases hz
    | plain v => have hz : v = .arr zs := hz; subst hz; exact absurd rfl oke.1
    | vec a b c' => exact useless_vec h1 (deadE.2 _ _ _ rfl)

example : ∃ d e, Live.actAll unitFloat tight [.clear] liveArr = some d ∧ d.deref second = .error .ub ∧
    Live.actAll unitFloat tight [.push .null, .push .null] d = some e ∧ e.deref second = .error .ub := ⟨_, _, rfl, rfl, rfl, rfl⟩

/-- C127. An iterator to a member that was removed never gets usable again, also if a member with the same key is added later. -/
theorem C127_member_for_good (fo : FloatOps F) (g : Growth) (c d e : Live F) (hc : Lived fo g c) (p : Nat) (it : LIter)
    (ms ms1 ms2 : List (List Nat × Value F)) (hx : c.content = .obj ms) (hp : p < ms.length) (hi : PointsAt c p it) (cs cs' : List (Edit F))
    (hcs : ∀ ch ∈ cs ++ cs', Usual ch) (hd : Live.actAll fo g cs c = some d) (hy : d.content = .obj ms1) (hu : Useless d it)
    (he : Live.actAll fo g cs' d = some e) (hz : e.content = .obj ms2) : Useless e it := by
  have ok := lived_ok hc
  have okd := all_ok fo g cs ok (fun c h => hcs c (by simp [h])) hd
  have oke := all_ok fo g cs' okd (fun c h => hcs c (by simp [h])) he
  obtain ⟨n, sh⟩ := c
  cases sh with
  | vec xs marks cap => cases hx
  | plain v => have hx : v = .obj ms := hx; subst hx; exact absurd rfl ok.2
  | map home ns =>
    cases hx
    rcases (at_map ok).1 hi with ⟨m, hm, e1⟩ | ⟨e1, _⟩
    · have hid : m.2.1 < n := ok.2.2.1 m (List.mem_of_getElem? hm)
      have dead : DeadNode m.2.1 d := by
        refine ⟨next_all fo g cs hid hd, fun h1 ms1 hs a ha ea => ?_⟩
        obtain ⟨n1, sh1⟩ := d
        cases hs
        obtain ⟨q, hq⟩ := List.mem_iff_getElem?.1 ha
        have hpt := (at_map okd).2 (.inl ⟨a, hq, by rw [e1, ea]⟩)
        have := ne_live hpt hpt
        rw [hu.ne it] at this
        cases this
      have deadE := dead_all_node fo g cs' okd dead (fun c h => hcs c (by simp [h])) he
      obtain ⟨n2, sh2⟩ := e
      cases sh2 with
      | vec xs marks cap => cases hz
      | plain v => have hz : v = .obj ms2 := hz; subst hz; exact absurd rfl oke.2
      | map a b => exact useless_node e1 (deadE.2 _ _ rfl)
    · simp at hp
      omega

example : ∃ d e, Live.actAll unitFloat tight [.eraseKey [2]] liveObj = some d ∧ d.deref second = .error .ub ∧
    Live.actAll unitFloat tight [.put [2] .null] d = some e ∧ e.deref second = .error .ub := ⟨_, _, rfl, rfl, rfl, rfl⟩

/-- C127. `erase(it)` removes the element the iterator is at and gives an iterator to the one after it. Iterators before it stay;
for objects, those after it stay as well. -/
theorem C127_erase (fo : FloatOps F) (g : Growth) (c : Live F) (hc : Lived fo g c) (p : Nat) (it : LIter) (hi : PointsAt c p it)
    (hp : p < c.content.size) (ht : c.content.type = .arr ∨ c.content.type = .obj) :
    ∃ jt d, Live.erase it c = (.ok jt, d) ∧ d.content = lessAt p c.content ∧ PointsAt d p jt ∧
      (∀ q kt, q < p → PointsAt c q kt → PointsAt d q kt) ∧
      (c.content.type = .obj → ∀ q kt, p < q → PointsAt c q kt → PointsAt d (q - 1) kt) :=
  erase_live (lived_ok hc) hi hp ht

example : (Live.erase second liveObj).2.content = .obj [([1], .int 1)] ∧ 1 < liveObj.content.size ∧ liveObj.content.type = .obj := ⟨rfl, by decide +kernel, rfl⟩

/-- C127. `*it = x` replaces the element the iterator is at, and all iterators stay where they are. -/
theorem C127_store (fo : FloatOps F) (g : Growth) (c : Live F) (hc : Lived fo g c) (p : Nat) (it : LIter) (hi : PointsAt c p it)
    (hp : p < c.content.size) (ht : c.content.type = .arr ∨ c.content.type = .obj) (x : Value F) :
    ∃ d, Live.store it x c = (.ok (), d) ∧ d.content = withAt p x c.content ∧ ∀ q kt, PointsAt c q kt ↔ PointsAt d q kt := by
  obtain ⟨d, h1, _, h2, h3⟩ := store_live (lived_ok hc) hi hp ht x
  exact ⟨d, h1, h2, h3⟩

example : (Live.store second .null liveArr).2.content = .arr [.int 1, .null] := rfl

/-! ## C128 -/

/-- C128. The loop that removes the elements for which `t` is true leaves exactly the others, in order, for every array. -/
theorem C128_erase_array_partial (fo : FloatOps F) (g : Growth) (c : Live F) (hc : Lived fo g c) (xs : List (Value F)) (he : c.content = .arr xs)
    (t : Value F → Bool) (n : Nat) (hn : xs.length < n) :
    ∃ d, eraseIf (testValue t) n c = (.ok (), d) ∧ d.content = .arr (xs.filter fun x => !t x) := by
  obtain ⟨it, h1, h2⟩ := begin_live (lived_ok hc)
  obtain ⟨d, h3, h4⟩ := eraseLoop_array t xs [] c it n (lived_ok hc) he h2 hn
  exact ⟨d, by unfold eraseIf; rw [h1]; exact h3, h4⟩

example : (eraseIf (testValue fun x => x.type == .int) 9 (Live.fresh 0 0 (.arr [.int 1, .null, .int 2, .int 3] : Value Unit))).2.content = .arr [.null] := rfl

/-- C128. The same for the members of every object, where `t` sees key and value. -/
theorem C128_erase_object_partial (fo : FloatOps F) (g : Growth) (c : Live F) (hc : Lived fo g c) (ms : List (List Nat × Value F))
    (he : c.content = .obj ms) (t : List Nat → Value F → Bool) (n : Nat) (hn : ms.length < n) :
    ∃ d, eraseIf (testMember t) n c = (.ok (), d) ∧ d.content = .obj (ms.filter fun m => !t m.1 m.2) := by
  obtain ⟨it, h1, h2⟩ := begin_live (lived_ok hc)
  obtain ⟨d, h3, h4⟩ := eraseLoop_object t ms [] c it n (lived_ok hc) he h2 hn
  exact ⟨d, by unfold eraseIf; rw [h1]; exact h3, h4⟩

example : (eraseIf (testMember fun k _ => k == [1]) 9 liveObj).2.content = .obj [([2], .int 2)] := rfl

/-- C128. A value that is not a container cannot lose its only element: the loop leaves it as it is, and says so by an exception if
the element is to be removed. -/
theorem C128_erase_scalar_partial (fo : FloatOps F) (g : Growth) (c : Live F) (hc : Lived fo g c) (t : Value F → Bool) (n : Nat) (hn : 1 < n)
    (h1 : c.content.type ≠ .arr) (h2 : c.content.type ≠ .obj) :
    eraseIf (testValue t) n c =
      (if c.content.type ≠ .null ∧ t c.content = true then .error (.exn .invalidIterator) else .ok (), c) := by
  have ok := lived_ok hc
  obtain ⟨k, sh⟩ := c
  cases sh with
  | vec xs marks cap => exact absurd rfl h1
  | map home ms => exact absurd rfl h2
  | plain v =>
    obtain ⟨n, rfl⟩ : ∃ m, n = m + 2 := ⟨n - 2, by omega⟩
    obtain ⟨it, e1, p1⟩ := begin_live ok
    obtain ⟨last, e2, p2⟩ := fin_live ok
    have n1 := ne_live p1 p2
    unfold eraseIf
    simp only [e1]
    unfold eraseLoop
    simp only [e2, n1]
    show _ = (if v.type ≠ .null ∧ t v = true then _ else _, _)
    by_cases hz : v.type = .null
    · have hsz : (⟨k, .plain v⟩ : Live F).content.size = 0 := by
        show v.size = 0
        cases v <;> first | rfl | cases hz
      rw [hsz]
      simp [hz]
    · have hsz : (⟨k, .plain v⟩ : Live F).content.size = 1 := by
        show v.size = 1
        cases v <;> first | rfl | exact absurd rfl hz | exact absurd rfl h1 | exact absurd rfl h2
      have hx : (elements v)[0]? = some v := by
        cases v <;> first | rfl | exact absurd rfl hz | exact absurd rfl h1 | exact absurd rfl h2
      have hd : (⟨k, .plain v⟩ : Live F).deref it = .ok v := deref_live p1 hx
      rw [hsz]
      simp only [testValue, hd]
      cases ht : t v with
      | true =>
        obtain ⟨i, r1, r2⟩ := p1
        simp [Live.erase, r1, hz]
      | false =>
        obtain ⟨jt, e3, p3⟩ := incr_live ok p1 (by rw [hsz]; omega)
        have n2 := ne_live p3 p2
        rw [hsz] at n2
        simp only [e3]
        unfold eraseLoop
        simp [e2, n2]

example : (eraseIf (testValue fun _ => true) 9 (Live.fresh 0 0 (.int 5 : Value Unit))).1 = .error (.exn .invalidIterator) := rfl

/-- C128. `for (auto& e : c) e = f(e)` replaces every element of every array by its image. -/
theorem C128_update_array_partial (fo : FloatOps F) (g : Growth) (c : Live F) (hc : Lived fo g c) (xs : List (Value F)) (he : c.content = .arr xs)
    (f : Value F → Value F) (n : Nat) (hn : xs.length < n) :
    ∃ d, forEach (update f) n c = (.ok (), d) ∧ d.content = .arr (xs.map f) := by
  obtain ⟨it, h1, h2⟩ := begin_live (lived_ok hc)
  obtain ⟨last, h3, h4⟩ := fin_live (lived_ok hc)
  rw [he] at h4
  obtain ⟨d, h5, h6⟩ := forLoop_array f xs [] c it last n (lived_ok hc) he h2 (by simpa [Value.size] using h4) hn
  exact ⟨d, by unfold forEach; rw [h1, h3]; exact h5, h6⟩

example : (forEach (update fun x => .arr [x]) 9 liveArr).2.content = .arr [.arr [.int 1], .arr [.int 2]] := rfl

/-- C128. The same for the members of every object; the keys stay. -/
theorem C128_update_object_partial (fo : FloatOps F) (g : Growth) (c : Live F) (hc : Lived fo g c) (ms : List (List Nat × Value F))
    (he : c.content = .obj ms) (f : Value F → Value F) (n : Nat) (hn : ms.length < n) :
    ∃ d, forEach (update f) n c = (.ok (), d) ∧ d.content = .obj (ms.map fun m => (m.1, f m.2)) := by
  obtain ⟨it, h1, h2⟩ := begin_live (lived_ok hc)
  obtain ⟨last, h3, h4⟩ := fin_live (lived_ok hc)
  rw [he] at h4
  obtain ⟨d, h5, h6⟩ := forLoop_object f ms [] c it last n (lived_ok hc) he h2 (by simpa [Value.size] using h4) hn
  exact ⟨d, by unfold forEach; rw [h1, h3]; exact h5, h6⟩

example : (forEach (update fun x => .arr [x]) 9 liveObj).2.content = .obj [([1], .arr [.int 1]), ([2], .arr [.int 2])] := rfl

/-- C128. For a value that is not a container, which is its only element, the loop works as long as the image is not a container
and not null. -/
theorem C128_update_scalar_partial (fo : FloatOps F) (g : Growth) (c : Live F) (hc : Lived fo g c) (f : Value F → Value F) (n : Nat) (hn : 1 < n)
    (hs : c.content.size = 1) (h1 : c.content.type ≠ .arr) (h2 : c.content.type ≠ .obj) (h3 : (f c.content).type ≠ .arr)
    (h4 : (f c.content).type ≠ .obj) (h5 : (f c.content).type ≠ .null) :
    ∃ d, forEach (update f) n c = (.ok (), d) ∧ d.content = f c.content := by
  have ok := lived_ok hc
  obtain ⟨k, sh⟩ := c
  cases sh with
  | vec xs marks cap => exact absurd rfl h1
  | map home ms => exact absurd rfl h2
  | plain v =>
    have hs : v.size = 1 := hs
    have h3 : (f v).type ≠ .arr := h3
    have h4 : (f v).type ≠ .obj := h4
    have h5 : (f v).type ≠ .null := h5
    obtain ⟨m, rfl⟩ : ∃ m, n = m + 2 := ⟨n - 2, by omega⟩
    have hf : Live.fresh k 0 (f v) = ⟨k, .plain (f v)⟩ := by
      generalize f v = w at h3 h4 h5
      cases w <;> first | rfl | exact absurd rfl h3 | exact absurd rfl h4
    have okd : LiveOk (⟨k, .plain (f v)⟩ : Live F) := ⟨h3, h4⟩
    have hw : (f v).size = 1 := by
      generalize f v = w at h3 h4 h5
      cases w <;> first | rfl | exact absurd rfl h3 | exact absurd rfl h4 | exact absurd rfl h5
    refine ⟨⟨k, .plain (f v)⟩, ?_, rfl⟩
    obtain ⟨it, e1, p1⟩ := begin_live ok
    obtain ⟨last, e2, p2⟩ := fin_live ok
    have p2 : PointsAt (⟨k, .plain v⟩ : Live F) 1 last := by rw [← hs]; exact p2
    have hx : (elements v)[0]? = some v := by cases v <;> first | rfl | exact absurd rfl h1 | exact absurd rfl h2 | cases hs
    have hu : update f it ⟨k, .plain v⟩ = (.ok (), ⟨k, .plain (f v)⟩) := by
      have hd : (⟨k, .plain v⟩ : Live F).deref it = .ok v := deref_live p1 hx
      unfold update
      simp only [hd]
      obtain ⟨i, r1, r2⟩ := p1
      unfold Live.store
      simp only [r1]
      rw [deref_at r2 hx]
      simp only [hf]
    have move : ∀ q jt, q ≤ 1 → PointsAt (⟨k, .plain v⟩ : Live F) q jt → PointsAt (⟨k, .plain (f v)⟩ : Live F) q jt :=
      fun q jt hq hj => (at_plain okd).2 ⟨by rw [hw]; exact hq, ((at_plain ok).1 hj).2⟩
    obtain ⟨jt, e3, p3⟩ := incr_live okd (move 0 it (by omega) p1) (by show 0 < (f v).size; omega)
    have n1 := ne_live p1 p2
    have n2 := ne_live p3 (move 1 last (by omega) p2)
    unfold forEach
    simp only [e1, e2]
    unfold forLoop
    rw [n1]
    simp only [hu, e3]
    unfold forLoop
    rw [n2]
    simp

example : (forEach (update fun _ => .str [65]) 9 (Live.fresh 0 0 (.int 5 : Value Unit))).2.content = .str [65] := rfl

/-- C128 is violated: `for (auto& e : c) e = f(e)` over a number is undefined when the image is an array or an object, and when it is
null the loop goes on after its only element and stops with an exception. Appending to an array in a loop over it is undefined
for every array that is not empty. -/
theorem C128_violated (fo : FloatOps F) (g : Growth) :
    (∀ (k : Nat) (i : Int) (xs : List (Value F)), (forEach (update fun _ => .arr xs) 9 (Live.fresh k 0 (.int i))).1 = .error .ub) ∧
    (∀ (k : Nat) (i : Int) (ms : List (List Nat × Value F)), (forEach (update fun _ => .obj ms) 9 (Live.fresh k 0 (.int i))).1 = .error .ub) ∧
    (∀ (k : Nat) (i : Int), (forEach (update fun _ => (.null : Value F)) 9 (Live.fresh k 0 (.int i))).1 = .error (.exn .outOfRange)) ∧
    (∀ (c : Live F) (xs : List (Value F)) (x : Value F) (n : Nat), Lived fo g c → c.content = .arr xs → xs ≠ [] → 1 < n →
      (forEach (fun _ => Live.act fo g (.push x)) n c).1 = .error .ub) := by
  refine ⟨fun _ _ _ => rfl, fun _ _ _ => rfl, fun _ _ => rfl, ?_⟩
  intro c xs x n hc he hne hn
  have ok := lived_ok hc
  obtain ⟨k, sh⟩ := c
  cases sh with
  | map home ns => cases he
  | plain v => have he : v = .arr xs := he; subst he; exact absurd rfl ok.1
  | vec ys marks cap =>
    cases he
    have hlen : 0 < xs.length := by cases xs with | nil => exact absurd rfl hne | cons => simp
    obtain ⟨m, rfl⟩ : ∃ m, n = m + 2 := ⟨n - 2, by omega⟩
    obtain ⟨it, e1, p1⟩ := begin_live ok
    obtain ⟨last, e2, p2⟩ := fin_live ok
    have p2 : PointsAt (⟨k, .vec xs marks cap⟩ : Live F) xs.length last := p2
    have n1 : (⟨k, .vec xs marks cap⟩ : Live F).ne it last = .ok true := by rw [ne_live p1 p2, decide_eq_true (by omega)]
    have u2 := (append_iter g ok p2 [x]).2 (.inr rfl)
    have i1 := append_iter g ok p1 [x]
    have okd := append_ok g ok [x]
    obtain ⟨marks', cap', ea⟩ := append_shape g k xs marks cap [x]
    rw [ea] at u2 i1 okd
    have ha : Live.act fo g (.push x) ⟨k, .vec xs marks cap⟩ = (.ok (), ⟨k + 1, .vec (xs ++ [x]) marks' cap'⟩) := by rw [← ea]; rfl
    unfold forEach
    simp only [e1, e2]
    unfold forLoop
    simp only [n1, ha]
    by_cases hd : cap < xs.length + [x].length ∨ 0 = xs.length
    · rw [(i1.2 hd).incr]
    · obtain ⟨jt, e3, _⟩ := incr_live okd (i1.1 hd).1 (by show 0 < (xs ++ [x]).length; simp)
      rw [e3]
      simp only
      unfold forLoop
      rw [ne_useless u2]

end Configor.Props
