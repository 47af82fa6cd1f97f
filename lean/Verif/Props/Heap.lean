import Verif.Proofs.HeapSorted
import Verif.Proofs.ValueOps
/-!
# Values in memory: C54, C55, C62-C65, C96

Programs are sequences of commands on variables and parts of variables (`Spec/Heap.lean`). `Reach fo s`: the state
`s` comes about by some such sequence, where any allocation may have failed and the exception was caught.
`Shows s E`: the variables have the contents `E`. `Holds s E L`: moreover each block belongs to one place, and just the
blocks in `L` to none.
-/
set_option autoImplicit false
namespace Configor.Props
open Spec

variable {F : Type}

/-! ## Examples -/

/-- `v0 = [["a"], null]` and `v1 = {}`. -/
def memorySample : List (Cmd F) :=
  [.new 0 (.arr []), .index ⟨0, []⟩ 1, .new 1 (.str [97]), .push ⟨0, [0]⟩ ⟨1, []⟩, .delete 1, .new 1 (.obj [])]

theorem memorySample_reached (fo : FloatOps F) : ∃ s, Reach fo s ∧ (∀ t, s.heap.plan t = true) ∧
    ∃ E, Shows s E ∧ E 0 = some (.arr [.arr [.str [97]], .null]) ∧ E 1 = some (.obj []) ∧ ∀ x, 2 ≤ x → E x = none := by
  obtain ⟨s, h1, h2, h3⟩ := program_start fo memorySample (by
    simp [ProgramAllowed, memorySample, Cmd.Allowed, Cmd.meaning, Env.bind, Env.get, Env.set, Env.put, part, kids, Childless, Cmd.ArrayLike,
      Cmd.begun, fillWith, indexed, replace, withKids, appended])
  refine ⟨s, h1, h2, _, h3, ?_, ?_, ?_⟩
  · simp [memorySample, Cmd.meaning, Env.bind, Env.get, Env.set, Env.put, part, kids, Cmd.begun, fillWith, indexed, replace, withKids, appended]
  · simp [memorySample, Cmd.meaning, Env.bind, Env.get, Env.set, Env.put, part, kids, Cmd.begun, fillWith, indexed, replace, withKids, appended]
  · intro x hx
    have h0 : x ≠ 0 := by omega
    have h1 : x ≠ 1 := by omega
    simp [memorySample, Cmd.meaning, Env.bind, Env.get, Env.set, Env.put, part, kids, Cmd.begun, fillWith, indexed, replace, withKids, appended, h0, h1]

/-- Neither reference refers to a part of what the other refers to. -/
def Separate (a b : Ref) : Prop := a ≠ b ∧ ¬ a.Inside b ∧ ¬ b.Inside a

theorem separate_apart {a b : Ref} (h : Separate a b) : Apart (.user a.var) a.path (.user b.var) b.path := by
  rcases Ref.cases a b with e | e | e | e
  · exact absurd e h.1
  · exact absurd e h.2.1
  · exact absurd e h.2.2
  · exact e

theorem Separate.symm {a b : Ref} (h : Separate a b) : Separate b a := ⟨h.1.symm, h.2.2, h.2.1⟩

theorem get_set_other {E : Env F} {r q : Ref} (h : Separate r q) (w : Value F) : (E.set r w).get q = E.get q := by
  have := vget_vset_other (V := E.all) (separate_apart h) w
  rw [← all_set] at this
  exact this

theorem get_set_same {E : Env F} {r : Ref} (h : E.get r ≠ none) (w : Value F) : (E.set r w).get r = some w := by
  obtain ⟨u, hu⟩ := some_of_ne h
  exact get_set hu w

theorem get_bind_other {E : Env F} {x : Nat} {o : Option (Value F)} {q : Ref} (h : q.var ≠ x) : (E.bind x o).get q = E.get q := by
  simp only [Env.get, Env.bind, if_neg h]

theorem bound_ne {E : Env F} {x : Nat} {r : Ref} {w : Value F} (h : E x = none) (hr : E.get r = some w) : r.var ≠ x := by
  intro e
  rw [Env.get, e, h] at hr
  cases hr

/-! ## C54 -/

/-- C54. `basic_value x(std::move(r))` always succeeds: `x` gets what `r` was, `r` becomes null, everything else stays. -/
theorem C54_move (fo : FloatOps F) {s : State F} (h : Reach fo s) {E : Env F} (hE : Shows s E) {x : Nat} {r : Ref} {w : Value F} (hx : E x = none)
    (hr : E.get r = some w) :
    ∃ s' E', (Cmd.move x r).run fo s = (.ok (), s') ∧ Shows s' E' ∧ E' x = some w ∧ E'.get r = some .null ∧
      ∀ q, q.var ≠ x → Separate r q → E'.get q = E.get q := by
  obtain ⟨s', e, k⟩ := h.run_still hE (c := .move x r) ⟨hx, by rw [hr]; simp⟩ trivial
  have hne := bound_ne hx hr
  refine ⟨s', _, e, k, ?_, ?_, ?_⟩
  · simp [Cmd.meaning, Env.bind, hr]
  · rw [Cmd.meaning, get_bind_other hne]
    exact get_set hr _
  · intro q hq hs
    rw [Cmd.meaning, get_bind_other hq, get_set_other hs]

/-- C54. `d = std::move(r)` always succeeds: `d` gets what `r` was, `r` becomes null, everything else stays. -/
theorem C54_moveAssign (fo : FloatOps F) {s : State F} (h : Reach fo s) {E : Env F} (hE : Shows s E) {d r : Ref} {w : Value F} (hd : E.get d ≠ none)
    (hr : E.get r = some w) (hdr : Separate d r) :
    ∃ s' E', (Cmd.moveAssign d r).run fo s = (.ok (), s') ∧ Shows s' E' ∧ E'.get d = some w ∧ E'.get r = some .null ∧
      ∀ q, Separate d q → Separate r q → E'.get q = E.get q := by
  obtain ⟨s', e, k⟩ := h.run_still hE (c := .moveAssign d r) ⟨hd, by rw [hr]; simp, hdr.2.1⟩ trivial
  refine ⟨s', _, e, k, ?_⟩
  simp only [Cmd.meaning, if_neg hdr.1, hr, Env.put]
  refine ⟨?_, ?_, ?_⟩
  · exact get_set_same (by rw [get_set_other hdr.symm]; exact hd) w
  · rw [get_set_other hdr, get_set hr]
  · intro q h1 h2
    rw [get_set_other h1, get_set_other h2]

/-- C54. `a.swap(b)` always succeeds: the contents are exchanged, everything else stays. -/
theorem C54_swap (fo : FloatOps F) {s : State F} (h : Reach fo s) {E : Env F} (hE : Shows s E) {a b : Ref} {u w : Value F} (ha : E.get a = some u)
    (hb : E.get b = some w) (hab : Separate a b) :
    ∃ s' E', (Cmd.swap a b).run fo s = (.ok (), s') ∧ Shows s' E' ∧ E'.get a = some w ∧ E'.get b = some u ∧
      ∀ q, Separate a q → Separate b q → E'.get q = E.get q := by
  obtain ⟨s', e, k⟩ := h.run_still hE (c := .swap a b) ⟨by rw [ha]; simp, by rw [hb]; simp, hab.2.1, hab.2.2⟩ trivial
  refine ⟨s', _, e, k, ?_⟩
  simp only [Cmd.meaning, ha, hb, Env.put]
  refine ⟨?_, ?_, ?_⟩
  · rw [get_set_other hab.symm, get_set ha]
  · exact get_set_same (by rw [get_set_other hab, hb]; simp) u
  · intro q h1 h2
    rw [get_set_other h2, get_set_other h1]

/-- C54. Self assignment, self move and self swap always succeed and change nothing, not even in memory. -/
theorem C54_self (fo : FloatOps F) {s : State F} (h : Reach fo s) {E : Env F} (hE : Shows s E) {d : Ref} (hd : E.get d ≠ none) :
    (Cmd.copyAssign d d).run fo s = (.ok (), s) ∧ (Cmd.moveAssign d d).run fo s = (.ok (), s) ∧ (Cmd.swap d d).run fo s = (.ok (), s) := by
  obtain ⟨E', L, h1, _⟩ := h.holds
  have := hE.unique h1.shows
  subst this
  obtain ⟨fp, o, _⟩ := holds_iff.1 h1
  obtain ⟨u, hu⟩ := some_of_ne hd
  obtain ⟨l, cl, hat⟩ := o.vat (x := .user d.var) (p := d.path) hu
  refine ⟨?_, ?_, ?_⟩
  · simp only [Cmd.run]
    rw [M.bind_ok hat.ref, M.bind_ok hat.ref]
    simp only [State.copyAssign, if_true]
    rfl
  · simp only [Cmd.run]
    rw [M.bind_ok hat.ref, M.bind_ok hat.ref]
    simp only [State.moveAssign, if_true]
    rfl
  · simp only [Cmd.run]
    rw [M.bind_ok hat.ref, M.bind_ok hat.ref]
    simp only [State.swap]
    have := hat.write cl
    rw [hat.store_self] at this
    rw [M.bind_ok hat.read, M.bind_ok hat.read, M.bind_ok this, this]

/-- The hypotheses of all four are met: in `memorySample` two parts of `v0` are separate. -/
example (fo : FloatOps F) : ∃ s E, Reach fo s ∧ Shows s E ∧ E 2 = none ∧ E.get ⟨0, [0]⟩ = some (.arr [.str [97]]) ∧
    E.get ⟨0, [1]⟩ = some .null ∧ Separate ⟨0, [0]⟩ ⟨0, [1]⟩ := by
  obtain ⟨s, h1, _, E, h2, h3, h4, h5⟩ := memorySample_reached fo
  refine ⟨s, E, h1, h2, h5 2 (by omega), by simp [Env.get, h3, part, kids], by simp [Env.get, h3, part, kids], ?_⟩
  refine ⟨by simp, ?_, ?_⟩ <;> simp [Ref.Inside]

/-! ## C55 -/

theorem part_inside {x : Nat} {p q : List Nat} (hq : q ≠ []) : ¬ (⟨x, p⟩ : Ref).Inside ⟨x, p ++ q⟩ := by
  rintro ⟨_, h, h'⟩
  have := h.length_le
  simp only [List.length_append] at this
  cases q with
  | nil => exact hq rfl
  | cons a q => simp only [List.length_cons] at this; omega

/-- C55. `c = c[path]` leaves `c` equal to what `c[path]` was, for every value `c` (itself a part `p` of a variable) and every path
`q`; unless an allocation fails: then `std::bad_alloc` is thrown and nothing has changed. -/
theorem C55_copyAssign_own_part (fo : FloatOps F) {s : State F} (h : Reach fo s) {E : Env F} (hE : Shows s E) {x : Nat} {p q : List Nat} {w : Value F}
    (hw : E.get ⟨x, p ++ q⟩ = some w) :
    (∃ s' E', (Cmd.copyAssign ⟨x, p⟩ ⟨x, p ++ q⟩).run fo s = (.ok (), s') ∧ Shows s' E' ∧ E'.get ⟨x, p⟩ = some w ∧
      ∀ r, Separate ⟨x, p⟩ r → E'.get r = E.get r) ∨
    (∃ s', (Cmd.copyAssign ⟨x, p⟩ ⟨x, p ++ q⟩).run fo s = (.error (.exn .badAlloc), s') ∧ Shows s' E ∧
      ∃ t, s.heap.tick ≤ t ∧ t < s'.heap.tick ∧ s.heap.plan t = false) := by
  have hd : E.get ⟨x, p⟩ ≠ none := by
    simp only [Env.get, Option.bind_eq_some_iff] at hw ⊢
    obtain ⟨v, h1, h2⟩ := hw
    rw [h1, Option.bind_some]
    intro e
    rw [part_append, e] at h2
    cases h2
  rcases h.run hE (c := .copyAssign ⟨x, p⟩ ⟨x, p ++ q⟩) ⟨hd, by rw [hw]; simp⟩ with ⟨s', e, k, _⟩ | ⟨s', E', e, k, k2, k3⟩
  · refine .inl ⟨s', _, e, k, ?_⟩
    simp only [Cmd.meaning, hw, Env.put]
    exact ⟨get_set_same hd w, fun r hr => get_set_other hr w⟩
  · refine .inr ⟨s', e, ?_, k3⟩
    have : E' = E := by rcases k2 with k2 | k2 <;> exact k2
    rw [← this]
    exact k

/-- C55. `c = std::move(c[path])` always succeeds and leaves `c` equal to what `c[path]` was. -/
theorem C55_moveAssign_own_part (fo : FloatOps F) {s : State F} (h : Reach fo s) {E : Env F} (hE : Shows s E) {x : Nat} {p q : List Nat} {w : Value F}
    (hw : E.get ⟨x, p ++ q⟩ = some w) :
    ∃ s' E', (Cmd.moveAssign ⟨x, p⟩ ⟨x, p ++ q⟩).run fo s = (.ok (), s') ∧ Shows s' E' ∧ E'.get ⟨x, p⟩ = some w ∧
      ∀ r, Separate ⟨x, p⟩ r → E'.get r = E.get r := by
  by_cases hq : q = []
  · subst hq
    rw [List.append_nil] at hw ⊢
    exact ⟨s, E, (C54_self fo h hE (by rw [hw]; simp)).2.1, hE, hw, fun _ _ => rfl⟩
  obtain ⟨v, hv⟩ : ∃ v, E.get ⟨x, p⟩ = some v := by
    simp only [Env.get, Option.bind_eq_some_iff] at hw ⊢
    obtain ⟨v, h1, h2⟩ := hw
    rw [part_append] at h2
    cases h3 : part v p with
    | none => rw [h3] at h2; cases h2
    | some u => exact ⟨u, v, h1, h3⟩
  have hne : (⟨x, p⟩ : Ref) ≠ ⟨x, p ++ q⟩ := by
    intro e
    injection e with _ e
    exact hq (List.append_right_eq_self.1 e.symm)
  obtain ⟨s', e, k⟩ := h.run_still hE (c := .moveAssign ⟨x, p⟩ ⟨x, p ++ q⟩)
    ⟨by rw [hv]; simp, by rw [hw]; simp, part_inside hq⟩ trivial
  refine ⟨s', _, e, k, ?_⟩
  simp only [Cmd.meaning, if_neg hne, hw, Env.put]
  have hp : (E.set ⟨x, p ++ q⟩ .null).get ⟨x, p⟩ ≠ none := by
    simp only [Env.get, Env.set, if_true]
    simp only [Env.get, Option.bind_eq_some_iff] at hv
    obtain ⟨v', h1, h2⟩ := hv
    rw [h1, Option.map_some, Option.bind_some, replace_part _ h2]
    simp
  refine ⟨get_set_same hp w, fun r hr => ?_⟩
  rw [get_set_other hr]
  refine get_set_other ?_ _
  refine ⟨?_, ?_, ?_⟩
  · intro e
    subst e
    exact hr.2.2 ⟨rfl, List.prefix_append _ _, fun e => hne (congrArg (Ref.mk x) e.symm)⟩
  · rintro ⟨h1, h2, h3⟩
    simp only at h1 h2 h3
    rcases List.prefix_or_prefix_of_prefix h2 (List.prefix_append p q) with k | k
    · by_cases e : p = r.path
      · exact hr.1 (by cases r; simp_all)
      · exact hr.2.1 ⟨h1, k, e⟩
    · by_cases e : p = r.path
      · exact hr.1 (by cases r; simp_all)
      · exact hr.2.2 ⟨h1.symm, k, fun e' => e e'.symm⟩
  · rintro ⟨h1, h2, h3⟩
    have k : p <+: r.path := (List.prefix_append p q).trans h2
    by_cases e : r.path = p
    · exact hr.1 (by cases r; simp_all)
    · exact hr.2.2 ⟨h1, k, e⟩

/-- The hypotheses are met: `v0 = v0[0][0]` in `memorySample`. -/
example (fo : FloatOps F) : ∃ s E, Reach fo s ∧ Shows s E ∧ E.get ⟨0, [] ++ [0, 0]⟩ = some (.str [97]) := by
  obtain ⟨s, h1, _, E, h2, h3, _⟩ := memorySample_reached fo
  exact ⟨s, E, h1, h2, by simp [Env.get, h3, part, kids]⟩

/-! ## C62 -/

/-- C62. After `basic_value x(r)`, both are equal to what `r` was; the copy keeps this content through any sequence of commands
that do not change `x`, and the original keeps it through any sequence of commands that do not change the variable of `r`,
even if some of the commands fail. -/
theorem C62_copies_independent (fo : FloatOps F) {s s1 : State F} (h : Reach fo s) {E : Env F} (hE : Shows s E) {x : Nat} {r : Ref} {w : Value F}
    (hx : E x = none) (hr : E.get r = some w) (e : (Cmd.copy x r).run fo s = (.ok (), s1)) :
    (∃ E1, Shows s1 E1 ∧ E1 x = some w ∧ E1.get r = some w) ∧
    (∀ s2 E2, Without fo x s1 s2 → Shows s2 E2 → E2 x = some w) ∧
    (∀ s2 E2, Without fo r.var s1 s2 → Shows s2 E2 → E2.get r = some w) := by
  have hc : (Cmd.copy x r : Cmd F).Allowed E := ⟨hx, by rw [hr]; simp⟩
  have h1 : Reach fo s1 := .step h hE hc e
  have hne := bound_ne hx hr
  have hs1 : Shows s1 (Cmd.meaning fo (.copy x r) E) := by
    rcases h.run hE hc with ⟨s', e', k, _⟩ | ⟨s', E', e', _⟩
    · rw [(run_unique e e').2]; exact k
    · cases (run_unique e e').1
  have a1 : (Cmd.meaning fo (.copy x r) E) x = some w := by simp [Cmd.meaning, Env.bind, hr]
  have a2 : (Cmd.meaning fo (.copy x r) E).get r = some w := by rw [Cmd.meaning, get_bind_other hne]; exact hr
  refine ⟨⟨_, hs1, a1, a2⟩, ?_, ?_⟩
  · intro s2 E2 hw h2
    rw [hw.same h1 hs1 h2, a1]
  · intro s2 E2 hw h2
    rw [Env.get, hw.same h1 hs1 h2]
    exact a2

/-- The hypotheses are met: a copy of `v0` in `memorySample` succeeds, and `v0[0] = v1`, say, changes only `v0`. -/
example (fo : FloatOps F) : ∃ s s1 s2 E E2, Reach fo s ∧ Shows s E ∧ E 2 = none ∧ (Cmd.copy 2 ⟨0, []⟩).run fo s = (.ok (), s1) ∧
    Without fo 2 s1 s2 ∧ Shows s2 E2 ∧ E2 0 ≠ E 0 := by
  obtain ⟨s, h1, hp, E, h2, h3, h4, h5⟩ := memorySample_reached fo
  have hc : (Cmd.copy 2 ⟨0, []⟩ : Cmd F).Allowed E := ⟨h5 2 (by omega), by simp [Env.get, h3, part]⟩
  obtain ⟨E0, L, k1, _⟩ := h1.holds
  have := h2.unique k1.shows
  subst this
  rcases Cmd.correct fo _ k1 hc with ⟨s1, e, g1, g2, _⟩ | ⟨s1, E1, L1, e, _, _, _, _, _, t, _, _, g⟩
  · have hc2 : (Cmd.copyAssign ⟨0, [0]⟩ ⟨1, []⟩ : Cmd F).Allowed (Cmd.meaning fo (.copy 2 ⟨0, []⟩) E) := by
      simp [Cmd.Allowed, Cmd.meaning, Env.bind, Env.get, h3, h4, part, kids]
    rcases Cmd.correct fo _ g1 hc2 with ⟨s2, e2, g3, _⟩ | ⟨s2, E1, L1, e2, _, _, _, _, _, t, _, _, g⟩
    · refine ⟨s, s1, s2, E, _, h1, h2, h5 2 (by omega), e, .step (.refl _) g1.shows hc2 (by simp [Cmd.targets]) e2, g3.shows, ?_⟩
      simp [Cmd.meaning, Env.bind, Env.get, Env.put, Env.set, h3, h4, part, kids, replace, withKids]
    · rw [g2, hp t] at g; cases g
  · rw [hp t] at g; cases g

/-! ## C63 -/

/-- C63, violated: moving a value into a part of itself makes the block of the value its own owner. `basic_value c(array); c[0];
c[0] = std::move(c);` succeeds and leaves `c` null. Then `c` is destroyed, there are no variables any more, and the block of the
array is still allocated. No allocation fails. -/
theorem C63_violated (fo : FloatOps F) : ∃ s',
    Cmd.runAll fo [.new 0 (.arr []), .index ⟨0, []⟩ 0, .moveAssign ⟨0, [0]⟩ ⟨0, []⟩, .delete 0] (start fun _ => true) = (.ok (), s') ∧
    (∀ x, s'.vars x = none) ∧ s'.heap.mem 0 = some (.arr [.arr 0]) := by
  simp [Cmd.runAll, Cmd.run, M.bind_def, M.pure_def, State.construct, State.onHeap, Heap.create, Heap.allocate, Heap.attempt, Heap.extend,
    start, Heap.put, upd, State.declare, State.ref, State.read, State.locate, State.touchIndex, State.asArray, State.fill, Heap.vector,
    Heap.attemptIf, State.moveAssign, State.moveConstruct, State.write, State.swap, State.destruct, Heap.destroy, M.gets, State.forget,
    Block.cells, Block.withCells, State.depth]
  intro x h
  rw [if_neg h, if_neg h]
  intro h'
  rw [if_neg h']

/-- C63, violated: the same with `c[0].swap(c)`. -/
theorem C63_violated_by_swap (fo : FloatOps F) : ∃ s',
    Cmd.runAll fo [.new 0 (.arr []), .index ⟨0, []⟩ 0, .swap ⟨0, [0]⟩ ⟨0, []⟩, .delete 0] (start fun _ => true) = (.ok (), s') ∧
    (∀ x, s'.vars x = none) ∧ s'.heap.mem 0 = some (.arr [.arr 0]) := by
  simp [Cmd.runAll, Cmd.run, M.bind_def, M.pure_def, State.construct, State.onHeap, Heap.create, Heap.allocate, Heap.attempt, Heap.extend,
    start, Heap.put, upd, State.declare, State.ref, State.read, State.locate, State.touchIndex, State.asArray, State.fill, Heap.vector,
    Heap.attemptIf, State.write, State.swap, State.destruct, Heap.destroy, M.gets, State.forget,
    Block.cells, Block.withCells, State.depth]
  intro x h
  rw [if_neg h, if_neg h]

/-- C63, violated: and with `c.push_back(std::move(c))`. -/
theorem C63_violated_by_push (fo : FloatOps F) : ∃ s',
    Cmd.runAll fo [.new 0 (.arr []), .pushMove ⟨0, []⟩ ⟨0, []⟩, .delete 0] (start fun _ => true) = (.ok (), s') ∧
    (∀ x, s'.vars x = none) ∧ s'.heap.mem 0 = some (.arr [.arr 0]) := by
  simp [Cmd.runAll, Cmd.run, M.bind_def, M.pure_def, State.construct, State.onHeap, Heap.create, Heap.allocate, Heap.attempt, Heap.extend,
    start, Heap.put, upd, State.declare, State.ref, State.read, State.locate, State.pushMove, State.asArray, State.fill, Heap.vector,
    State.write, State.destruct, Heap.destroy, M.gets, State.forget, State.depth]
  intro x h
  rw [if_neg h, if_neg h]

/-- C63, without moves and swaps of a value with a part of itself. In every state that can be reached while no allocation fails,
each allocated block belongs to exactly one place in one variable. -/
theorem C63_one_owner_partial (fo : FloatOps F) {s : State F} (h : Reach fo s) (hp : ∀ t, s.heap.plan t = true) :
    ∃ E, Holds s E nothing := by
  obtain ⟨E, L, h1, _, h3⟩ := h.holds
  refine ⟨E, ?_⟩
  have : L = nothing := by
    funext a
    refine propext ⟨fun ha => ?_, fun ha => ha.elim⟩
    obtain ⟨t, _, h4⟩ := h3 ⟨a, ha⟩
    rw [hp t] at h4
    cases h4
  rw [← this]
  exact h1

/-- C63, without moves and swaps of a value with a part of itself, but with failing allocations. No command has undefined behaviour: no block is freed twice, none is used after it was freed. (`Heap.free`,
`Heap.put` and the like are undefined for blocks that are not allocated.) -/
theorem C63_no_double_free_partial (fo : FloatOps F) {s s' : State F} (h : Reach fo s) {E : Env F} (hE : Shows s E) {c : Cmd F} (hc : c.Allowed E)
    {r : Except Stop Unit} (e : c.run fo s = (r, s')) : r = .ok () ∨ r = .error (.exn .badAlloc) := by
  rcases h.run hE hc with ⟨_, e', _⟩ | ⟨_, _, e', _⟩
  · exact .inl (run_unique e e').1
  · exact .inr (run_unique e e').1

/-- C63, without moves and swaps of a value with a part of itself. Once all variables are dead, every block has been freed, if
no allocation failed. -/
theorem C63_all_freed_partial (fo : FloatOps F) {s : State F} (h : Reach fo s) (hp : ∀ t, s.heap.plan t = true)
    (hd : ∀ x, s.vars (.user x) = none) (a : Nat) : s.heap.mem a = none := by
  obtain ⟨E, fp, h1, h2⟩ := C63_one_owner_partial fo h hp
  by_cases ha : s.heap.mem a = none
  · exact ha
  · refine ((h2 a).2 ⟨ha, fun x hx => ?_⟩).elim
    have h3 := h1.stands x
    cases x with
    | user n =>
      rw [hd n] at h3
      cases hE : Env.all E (.user n) with
      | none => rw [hE] at h3; simp only [Stands] at h3; rw [h3] at hx; cases hx
      | some v => rw [hE] at h3; exact h3
    | _ =>
      simp only [Env.all] at h3
      cases hv : s.vars _ with
      | none => rw [hv] at h3; simp only [Stands] at h3; rw [h3] at hx; cases hx
      | some c => rw [hv] at h3; exact h3

/-- The hypotheses are met: `memorySample` with live variables, and with `v0` and `v1` destroyed at the end. -/
example (fo : FloatOps F) : ∃ s, Reach fo s ∧ (∀ t, s.heap.plan t = true) ∧ ∃ x, s.vars (.user x) ≠ none := by
  obtain ⟨s, h1, h2, E, h3, h4, _⟩ := memorySample_reached fo
  refine ⟨s, h1, h2, 0, fun e => ?_⟩
  have := h3 0
  rw [e, h4] at this
  exact this

example (fo : FloatOps F) : ∃ s, Reach fo s ∧ (∀ t, s.heap.plan t = true) ∧ ∀ x, s.vars (.user x) = none := by
  obtain ⟨s, h1, h2, E, h3, h4, h5, h6⟩ := memorySample_reached fo
  obtain ⟨s1, h7, h8, h9⟩ := program fo [.delete 0, .delete 1] h1 h2 h3 (by simp [ProgramAllowed, Cmd.Allowed, Cmd.meaning, Env.bind, h4, h5])
  refine ⟨s1, h7, h8, fun x => ?_⟩
  have := h9 x
  have e : ([.delete 0, .delete 1] : List (Cmd F)).foldl (fun E c => c.meaning fo E) E x = none := by
    simp only [List.foldl, Cmd.meaning, Env.bind]
    split
    · rfl
    · split
      · rfl
      · exact h6 x (by omega)
  rw [e] at this
  cases hx : s1.vars (.user x) with
  | none => rfl
  | some c => rw [hx] at this; exact this.elim

/-! ## C64 -/

/-- C64. Copy assignment ends normally, or with `std::bad_alloc` because an allocation failed; in that case all variables, the
target among them, have the content they had. -/
theorem C64_copyAssign_strong (fo : FloatOps F) {s : State F} (h : Reach fo s) {E : Env F} (hE : Shows s E) {d r : Ref} {w : Value F}
    (hd : E.get d ≠ none) (hr : E.get r = some w) :
    (∃ s' E', (Cmd.copyAssign d r).run fo s = (.ok (), s') ∧ Shows s' E' ∧ E'.get d = some w ∧ ∀ q, Separate d q → E'.get q = E.get q) ∨
    (∃ s', (Cmd.copyAssign d r).run fo s = (.error (.exn .badAlloc), s') ∧ Shows s' E ∧
      ∃ t, s.heap.tick ≤ t ∧ t < s'.heap.tick ∧ s.heap.plan t = false) := by
  rcases h.run hE (c := .copyAssign d r) ⟨hd, by rw [hr]; simp⟩ with ⟨s', e, k, _⟩ | ⟨s', E', e, k, k2, k3⟩
  · refine .inl ⟨s', _, e, k, ?_⟩
    simp only [Cmd.meaning, hr, Env.put]
    exact ⟨get_set_same hd w, fun q hq => get_set_other hq w⟩
  · refine .inr ⟨s', e, ?_, k3⟩
    have : E' = E := by rcases k2 with k2 | k2 <;> exact k2
    rw [← this]
    exact k

/-- C64. The same for the copy constructor: nothing changes if it fails. -/
theorem C64_copy_strong (fo : FloatOps F) {s : State F} (h : Reach fo s) {E : Env F} (hE : Shows s E) {x : Nat} {r : Ref} {w : Value F}
    (hx : E x = none) (hr : E.get r = some w) :
    (∃ s', (Cmd.copy x r).run fo s = (.ok (), s') ∧ Shows s' (E.bind x (some w))) ∨
    (∃ s', (Cmd.copy x r).run fo s = (.error (.exn .badAlloc), s') ∧ Shows s' E ∧
      ∃ t, s.heap.tick ≤ t ∧ t < s'.heap.tick ∧ s.heap.plan t = false) := by
  rcases h.run hE (c := .copy x r) ⟨hx, by rw [hr]; simp⟩ with ⟨s', e, k, _⟩ | ⟨s', E', e, k, k2, k3⟩
  · refine .inl ⟨s', e, ?_⟩
    simp only [Cmd.meaning, hr] at k
    exact k
  · refine .inr ⟨s', e, ?_, k3⟩
    have : E' = E := by rcases k2 with k2 | k2 <;> exact k2
    rw [← this]
    exact k

/-- A state where the third allocation from now fails: `v0 = "a"` and `v1 = null`. -/
theorem failing_sample (fo : FloatOps F) : ∃ s : State F, Reach fo s ∧ (∀ t, s.heap.plan t = decide (t ≠ 3)) ∧ s.heap.tick = 2 ∧
    s.heap.mem = (fun a => if a = 0 then some (.str [97]) else none) ∧ s.heap.next = 1 ∧
    s.vars = (fun x => if x = .user 1 then some .null else if x = .user 0 then some (.str 0) else none) ∧
    Shows s (fun x => if x = 1 then some .null else if x = 0 then some (.str [97]) else none) := by
  let s1 : State F :=
    { heap := { mem := upd (upd (fun _ => none) 0 (some .raw)) 0 (some (.str [97])), next := 1, plan := fun t => decide (t ≠ 3), tick := 2 },
      vars := upd (fun _ => none) (.user 0) (some (.str 0)) }
  have e1 : (Cmd.new 0 (.str [97])).run fo (start fun t => decide (t ≠ 3) : State F) = (.ok (), s1) := by
    simp [Cmd.run, M.bind_def, M.pure_def, State.construct, State.onHeap, Heap.create, Heap.allocate, Heap.attempt, Heap.extend,
      start, Heap.put, upd, State.declare, s1]
  have h0 := start_holds (F := F) fun t => decide (t ≠ 3)
  have hc : (Cmd.new 0 (.str [97]) : Cmd F).Allowed (fun _ => none) := ⟨rfl, rfl⟩
  have h1 := Reach.step (.start _) h0.shows hc e1
  have g1 : Shows s1 (Cmd.meaning fo (.new 0 (.str [97])) fun _ => none) := by
    rcases Reach.run (.start _) h0.shows hc with ⟨s', e, k, _⟩ | ⟨s', E', e, _⟩
    · rw [(run_unique e1 e).2]; exact k
    · cases (run_unique e1 e).1
  have e2 : (Cmd.new 1 .null).run fo s1 = (.ok (), { s1 with vars := upd s1.vars (.user 1) (some .null) }) := rfl
  have hc2 : (Cmd.new 1 .null : Cmd F).Allowed (Cmd.meaning fo (.new 0 (.str [97])) fun _ => none) := ⟨rfl, rfl⟩
  have g2 : Shows { s1 with vars := upd s1.vars (.user 1) (some .null) } (Cmd.meaning fo (.new 1 .null) (Cmd.meaning fo (.new 0 (.str [97])) fun _ => none)) := by
    rcases h1.run g1 hc2 with ⟨s', e, k, _⟩ | ⟨s', E', e, _⟩
    · rw [(run_unique e2 e).2]; exact k
    · cases (run_unique e2 e).1
  refine ⟨_, Reach.step h1 g1 hc2 e2, fun _ => rfl, rfl, ?_, rfl, ?_, ?_⟩
  · funext a; simp only [s1, upd]; split <;> rfl
  · funext x; simp only [s1, upd]
  · exact g2

/-- The hypotheses are met, with an allocation that fails: `v1 = v0` when the memory for the characters cannot be had. -/
example (fo : FloatOps F) : ∃ s s' E, Reach fo s ∧ Shows s E ∧ E.get ⟨1, []⟩ = some .null ∧ E.get ⟨0, []⟩ = some (.str [97]) ∧
    (Cmd.copyAssign ⟨1, []⟩ ⟨0, []⟩).run fo s = (.error (.exn .badAlloc), s') := by
  obtain ⟨s, h1, h2, h3, h4, h5, h6, h7⟩ := failing_sample fo
  refine ⟨s, (Cmd.run fo (.copyAssign ⟨1, []⟩ ⟨0, []⟩) s).2, _, h1, h7, by simp [Env.get, part], by simp [Env.get, part], ?_⟩
  obtain ⟨⟨mem, next, plan, tick⟩, vars⟩ := s
  simp only at h2 h3 h4 h5 h6
  subst h3 h4 h5 h6
  simp [Cmd.run, M.bind_def, M.pure_def, State.ref, State.read, State.locate, State.copyAssign, State.copyConstruct, M.gets, State.onHeap, Heap.copy,
    State.depth, Heap.string, Heap.allocate, Heap.attempt, Heap.extend, h2]

/-! ## C65 -/

/-- C65, violated: if the memory for the block of a copy can be had and that for its content cannot, the block is lost. `v0` is a
string, and all blocks are owned. `basic_value v2(v0)` throws `std::bad_alloc`. After `v0` and `v1` are destroyed there are no
variables, but there is one more block, in which nothing has been constructed. -/
theorem C65_violated (fo : FloatOps F) : ∃ s s1 s2 : State F, Reach fo s ∧ (∃ E, Holds s E nothing) ∧
    (Cmd.copy 2 ⟨0, []⟩).run fo s = (.error (.exn .badAlloc), s1) ∧
    Cmd.runAll fo [.delete 0, .delete 1] s1 = (.ok (), s2) ∧ (∀ x, s2.vars x = none) ∧ s2.heap.mem 1 = some .raw := by
  obtain ⟨s, h1, h2, h3, h4, h5, h6, h7⟩ := failing_sample fo
  refine ⟨s, _, _, h1, ?_, Prod.ext ?_ rfl, Prod.ext ?_ rfl, ?_, ?_⟩
  · obtain ⟨E, L, k1, _, k3⟩ := h1.holds
    refine ⟨E, ?_⟩
    have : L = nothing := by
      funext a
      refine propext ⟨fun ha => ?_, fun ha => ha.elim⟩
      obtain ⟨t, k4, k5⟩ := k3 ⟨a, ha⟩
      rw [h2 t] at k5
      simp only [ne_eq, decide_not, Bool.not_eq_eq_eq_not, Bool.not_false, decide_eq_true_eq] at k5
      omega
    rw [← this]
    exact k1
  all_goals
    obtain ⟨⟨mem, next, plan, tick⟩, vars⟩ := s
    simp only at h2 h3 h4 h5 h6
    subst h3 h4 h5 h6
    simp [Cmd.runAll, Cmd.run, M.bind_def, M.pure_def, State.ref, State.read, State.locate, State.copyConstruct, M.gets, State.onHeap, Heap.copy,
      State.depth, Heap.string, Heap.allocate, Heap.attempt, Heap.extend, h2, State.destruct, Heap.destroy, State.forget, upd, Heap.free]
  intro x a1 a2
  simp [a1, a2]

/-- C65, what is left of it: whatever allocations fail, all that is left when all variables are dead is memory in which nothing has
been constructed; and there is some only if an allocation failed. -/
theorem C65_only_unused_memory_lost_partial (fo : FloatOps F) {s : State F} (h : Reach fo s) (hd : ∀ x, s.vars (.user x) = none) {a : Nat}
    (ha : s.heap.mem a ≠ none) : s.heap.mem a = some .raw ∧ ∃ t, t < s.heap.tick ∧ s.heap.plan t = false := by
  obtain ⟨E, L, ⟨fp, h1, h2⟩, k2, k3⟩ := h.holds
  have hL : L a := by
    refine (h2 a).2 ⟨ha, fun x hx => ?_⟩
    have h3 := h1.stands x
    cases x with
    | user n =>
      rw [hd n] at h3
      cases hE : Env.all E (.user n) with
      | none => rw [hE] at h3; simp only [Stands] at h3; rw [h3] at hx; cases hx
      | some v => rw [hE] at h3; exact h3
    | _ =>
      simp only [Env.all] at h3
      cases hv : s.vars _ with
      | none => rw [hv] at h3; simp only [Stands] at h3; rw [h3] at hx; cases hx
      | some c => rw [hv] at h3; exact h3
  exact ⟨k2 a hL, k3 ⟨a, hL⟩⟩

/-- C65, what is left of it, for one copy: what was allocated for the elements that could be copied is released. The blocks in
no value afterwards are those from before and some in which nothing has been constructed. -/
theorem C65_copied_elements_released_partial (fo : FloatOps F) {s s' : State F} {E : Env F} (h : Holds s E nothing) {x : Nat} {r : Ref}
    (hx : E x = none) (hr : E.get r ≠ none) (e : (Cmd.copy x r).run fo s = (.error (.exn .badAlloc), s')) :
    ∃ L, Holds s' E L ∧ ∀ a, L a → s'.heap.mem a = some .raw := by
  rcases Cmd.correct fo (.copy x r) h ⟨hx, hr⟩ with ⟨s1, e1, _⟩ | ⟨s1, E1, L1, e1, k1, k2, k3, k4, _⟩
  · cases (run_unique e e1).1
  · have hs := (run_unique e e1).2
    subst hs
    have : E1 = E := by rcases k2 with k2 | k2 <;> exact k2
    subst this
    exact ⟨L1, k1, fun a ha => (k4 a ha).elim (fun h => h.elim) id⟩

/-! ## C96 -/

/-- C96. Whatever has happened before, a command does to the contents of the variables what it means on trees, where nothing is
shared; or an allocation fails, `std::bad_alloc` is thrown and the contents are the old ones, except that `push_back` and
`operator[]` may already have made an empty container of a null. -/
theorem C96_commands_act_on_trees (fo : FloatOps F) {s : State F} (h : Reach fo s) {E : Env F} (hE : Shows s E) {c : Cmd F} (hc : c.Allowed E) :
    (∃ s', c.run fo s = (.ok (), s') ∧ Shows s' (c.meaning fo E)) ∨
    (∃ s' E', c.run fo s = (.error (.exn .badAlloc), s') ∧ Shows s' E' ∧ (E' = E ∨ E' = c.begun E) ∧
      ∃ t, s.heap.tick ≤ t ∧ t < s'.heap.tick ∧ s.heap.plan t = false) := by
  rcases h.run hE hc with ⟨s', e, k, _⟩ | k
  · exact .inl ⟨s', e, k⟩
  · exact .inr k

/-- C96. When no allocation fails, a program succeeds and ends with the contents it means. -/
theorem C96_programs_act_on_trees (fo : FloatOps F) (cs : List (Cmd F)) {s : State F} (h : Reach fo s) (hp : ∀ t, s.heap.plan t = true) {E : Env F}
    (hE : Shows s E) (hc : ProgramAllowed fo E cs) :
    ∃ s', Cmd.runAll fo cs s = (.ok (), s') ∧ Shows s' (cs.foldl (fun E c => c.meaning fo E) E) := by
  induction cs generalizing s E with
  | nil => exact ⟨s, rfl, hE⟩
  | cons c cs ih =>
    obtain ⟨h1, h2⟩ := hc
    obtain ⟨E0, L, k1, _⟩ := h.holds
    have := hE.unique k1.shows
    subst this
    rcases c.correct fo k1 h1 with ⟨s1, e, k2, k3, _⟩ | ⟨s1, E1, L1, e, _, _, _, _, _, t, _, _, k6⟩
    · obtain ⟨s', e', k'⟩ := ih (.step h hE h1 e) (by rw [k3]; exact hp) k2.shows h2
      refine ⟨s', ?_, k'⟩
      simp only [Cmd.runAll]
      rw [M.bind_ok e, e']
    · rw [hp t] at k6; cases k6

/-- C96. Destruction, moves, swaps, `clear` and `erase` always succeed. -/
theorem C96_never_throw (fo : FloatOps F) {s : State F} (h : Reach fo s) {E : Env F} (hE : Shows s E) {c : Cmd F} (hc : c.Allowed E)
    (hn : c.AllocatesNothing) : ∃ s', c.run fo s = (.ok (), s') ∧ Shows s' (c.meaning fo E) :=
  h.run_still hE hc hn

theorem cell_arr {mem : Nat → Option (Block F)} {n a : Nat} {u : Value F} {fp : List Nat} (h : Spec.Repr mem n (.arr a) u fp) : ∃ us, u = .arr us := by
  cases n with
  | zero => cases u <;> simp [Spec.Repr, Flat] at h
  | succ n =>
    rcases h with h | ⟨a', b, fps, _, h2, _⟩
    · cases u <;> simp [Flat] at h
    · cases b <;> cases u <;> simp [Node] at h2 ⊢

theorem cell_obj {mem : Nat → Option (Block F)} {n a : Nat} {u : Value F} {fp : List Nat} (h : Spec.Repr mem n (.obj a) u fp) : ∃ us, u = .obj us := by
  cases n with
  | zero => cases u <;> simp [Spec.Repr, Flat] at h
  | succ n =>
    rcases h with h | ⟨a', b, fps, _, h2, _⟩
    · cases u <;> simp [Flat] at h
    · cases b <;> cases u <;> simp [Node] at h2 ⊢

/-- C96. A call on a value of the wrong type throws, and changes nothing, not even in memory. -/
theorem C96_refused (fo : FloatOps F) {s : State F} (h : Reach fo s) {E : Env F} (hE : Shows s E) {d : Ref} (hd : E.get d ≠ none) :
    (¬ Cmd.ArrayLike E d → ∀ r, E.get r ≠ none → (Cmd.push d r).run fo s = (.error (.exn .typeError), s) ∧
      (Cmd.pushMove d r).run fo s = (.error (.exn .typeError), s)) ∧
    (¬ Cmd.ArrayLike E d → ∀ i, (Cmd.index d i).run fo s = (.error (.exn .invalidKey), s)) ∧
    (¬ Cmd.ObjectLike E d → ∀ k, (Cmd.key d k).run fo s = (.error (.exn .invalidKey), s)) := by
  obtain ⟨E', L, h1, _⟩ := h.holds
  have := hE.unique h1.shows
  subst this
  obtain ⟨fp, o, _⟩ := holds_iff.1 h1
  obtain ⟨u, hu⟩ := some_of_ne hd
  obtain ⟨l, cl, hat⟩ := o.vat (x := .user d.var) (p := d.path) hu
  obtain ⟨m, fu, hr, _⟩ := o.inplace hat hu
  have hn : cl = .null → E.get d = some .null := fun e => by
    subst e; rw [hu, o.at_not_null hat hu]
  have harr : ¬ Cmd.ArrayLike E d → ∀ e : Err, State.asArray e l s = (.error (.exn e), s) := by
    intro ha e
    simp only [State.asArray, State.fill]
    have h0 : cl ≠ .null := fun e => ha (.inl (hn e))
    have h2 : ∀ a, cl ≠ .arr a := by
      rintro a rfl
      obtain ⟨us, rfl⟩ := cell_arr hr
      exact ha (.inr ⟨us, hu⟩)
    cases cl with
    | null => exact absurd rfl h0
    | arr a => exact absurd rfl (h2 a)
    | _ => simp only [M.bind_def, hat.read, M.pure_def]; rfl
  have hobj : ¬ Cmd.ObjectLike E d → ∀ e : Err, State.asObject e l s = (.error (.exn e), s) := by
    intro ha e
    simp only [State.asObject, State.fill]
    have h0 : cl ≠ .null := fun e => ha (.inl (hn e))
    have h2 : ∀ a, cl ≠ .obj a := by
      rintro a rfl
      obtain ⟨us, rfl⟩ := cell_obj hr
      exact ha (.inr ⟨us, hu⟩)
    cases cl with
    | null => exact absurd rfl h0
    | obj a => exact absurd rfl (h2 a)
    | _ => simp only [M.bind_def, hat.read, M.pure_def]; rfl
  refine ⟨fun ha r hr => ?_, fun ha i => ?_, fun ha k => ?_⟩
  · obtain ⟨w, hw⟩ := some_of_ne hr
    obtain ⟨l', cl', hat'⟩ := o.vat (x := .user r.var) (p := r.path) hw
    constructor
    · simp only [Cmd.run]
      rw [M.bind_ok hat.ref, M.bind_ok hat'.ref, State.pushBack, M.bind_error (harr ha _)]
    · simp only [Cmd.run]
      rw [M.bind_ok hat.ref, M.bind_ok hat'.ref, State.pushMove, M.bind_error (harr ha _)]
  · simp only [Cmd.run]
    rw [M.bind_ok hat.ref, State.touchIndex, M.bind_error (harr ha _)]
  · simp only [Cmd.run]
    rw [M.bind_ok hat.ref, State.touchKey, M.bind_error (hobj ha _)]

/-- The hypotheses are met: `memorySample` is a sequence of commands each of which is allowed; in the end `v0[0][0]` is a string,
on which `push_back` and `operator[]` are refused. -/
example (fo : FloatOps F) : ∃ s E, Reach fo s ∧ Shows s E ∧ E.get ⟨0, [0, 0]⟩ ≠ none ∧ ¬ Cmd.ArrayLike E ⟨0, [0, 0]⟩ ∧
    ¬ Cmd.ObjectLike E ⟨0, [0, 0]⟩ ∧ (Cmd.erase ⟨0, []⟩ 1).Allowed E ∧ (Cmd.key ⟨0, [1]⟩ [97]).Allowed E := by
  obtain ⟨s, h1, _, E, h2, h3, _⟩ := memorySample_reached fo
  refine ⟨s, E, h1, h2, ?_, ?_, ?_, ?_, ?_⟩ <;>
    simp [Env.get, h3, part, kids, Cmd.ArrayLike, Cmd.ObjectLike, Cmd.Allowed]

/-- C41 in memory: in every state that can be reached the keys of all objects in all variables are in increasing order. -/
theorem C41_memory_sorted (fo : FloatOps F) {s : State F} (h : Reach fo s) {E : Env F} (hE : Shows s E) {x : Nat} {v : Value F} (hx : E x = some v) :
    KeysSorted v :=
  h.sorted hE x v hx

/-! ### The same as on values alone

`Model/ValueOps.lean` has the operations as functions of values, and the properties of `Props/Value.lean` are about those. In
memory they do the same to the value referred to, and nothing to anything else. -/

/-- C96. `d.clear()`. -/
theorem C96_clear (fo : FloatOps F) {s : State F} (h : Reach fo s) {E : Env F} (hE : Shows s E) {d : Ref} {u : Value F} (hd : E.get d = some u) :
    ∃ s', (Cmd.clear d).run fo s = (.ok (), s') ∧ Shows s' (E.set d (ValueOps.clear fo u).2) := by
  obtain ⟨s', e, k⟩ := h.run_still hE (c := .clear d) (by simp only [Cmd.Allowed, hd]; simp) trivial
  refine ⟨s', e, ?_⟩
  simp only [Cmd.meaning, hd, Option.map_some, Env.put] at k
  have : (ValueOps.clear fo u).2 = emptied (fo.ofInt 0) u := by cases u <;> rfl
  rw [this]
  exact k

/-- C96. `d.erase(i)` for arrays. -/
theorem C96_erase (fo : FloatOps F) {s : State F} (h : Reach fo s) {E : Env F} (hE : Shows s E) {d : Ref} {u u' : Value F} {i : Nat}
    (hd : E.get d = some u) (hv : ValueOps.eraseIndex i u = (.ok (), u')) :
    ∃ s', (Cmd.erase d i).run fo s = (.ok (), s') ∧ Shows s' (E.set d u') := by
  obtain ⟨us, rfl, hi, rfl⟩ : ∃ us, u = .arr us ∧ i < us.length ∧ u' = .arr (us.eraseIdx i) := by
    cases u with
    | arr us =>
      simp only [ValueOps.eraseIndex] at hv
      split at hv
      · next hi => injection hv with _ hv; exact ⟨us, rfl, hi, hv.symm⟩
      · injection hv with hv; cases hv
    | _ => simp only [ValueOps.eraseIndex] at hv; injection hv with hv; cases hv
  obtain ⟨s', e, k⟩ := h.run_still hE (c := .erase d i) ⟨_, hd, by simpa [kids] using hi⟩ trivial
  refine ⟨s', e, ?_⟩
  simp only [Cmd.meaning, hd, Option.map_some, Env.put, erased] at k
  exact k

/-- C96. `d.push_back(r)`, unless `r` is `d`, a part of it or has it as a part. -/
theorem C96_push (fo : FloatOps F) {s : State F} (h : Reach fo s) {E : Env F} (hE : Shows s E) {d r : Ref} {u u' w : Value F}
    (hd : E.get d = some u) (hr : E.get r = some w) (hdr : Separate d r) (hv : ValueOps.pushBack w u = (.ok (), u')) {s' : State F}
    (e : (Cmd.push d r).run fo s = (.ok (), s')) : Shows s' (E.set d u') := by
  obtain ⟨us, hu, rfl⟩ : ∃ us, fillWith (.arr []) u = .arr us ∧ u' = .arr (us ++ [w]) := by
    cases u with
    | arr us => simp only [ValueOps.pushBack] at hv; injection hv with _ hv; exact ⟨us, rfl, hv.symm⟩
    | null => simp only [ValueOps.pushBack] at hv; injection hv with _ hv; exact ⟨[], rfl, hv.symm⟩
    | _ => simp only [ValueOps.pushBack] at hv; injection hv with hv; cases hv
  have hc : Cmd.ArrayLike E d := by
    cases u with
    | arr us => exact .inr ⟨us, hd⟩
    | null => exact .inl hd
    | _ => simp only [fillWith] at hu; cases hu
  rcases h.run hE (c := .push d r) ⟨hc, by rw [hr]; simp⟩ with ⟨s1, e1, k, _⟩ | ⟨_, _, e1, _⟩
  · rw [(run_unique e e1).2]
    simp only [Cmd.meaning, Cmd.begun, hd, Option.map_some, hu, Env.put, get_set hd, get_set_other hdr, hr, appended, set_set hd] at k
    exact k
  · cases (run_unique e e1).1

theorem assign_found : ∀ {ms : Map.T (Value F)} {k : List Nat} {y : Value F}, Map.find k ms = some y → Map.assign k y ms = ms := by
  intro ms
  induction ms with
  | nil => intro k y h; cases h
  | cons m ms ih =>
    intro k y h
    obtain ⟨k', v'⟩ := m
    simp only [Map.find] at h
    simp only [Map.assign]
    split at h
    · cases h
    · split at h
      · next h1 h2 => rw [if_neg h1, if_pos h2, ih h]
      · next h1 h2 => rw [if_neg h1, if_neg h2]; injection h with h; rw [h]

/-- C96. `d[k]`. -/
theorem C96_key (fo : FloatOps F) {s : State F} (h : Reach fo s) {E : Env F} (hE : Shows s E) {d : Ref} {u u' x : Value F} {k : List Nat}
    (hd : E.get d = some u) (hv : ValueOps.withKey k ValueOps.read u = (.ok x, u')) {s' : State F}
    (e : (Cmd.key d k).run fo s = (.ok (), s')) : Shows s' (E.set d u') := by
  have key : ∀ ms : Map.T (Value F), ValueOps.onMember k ValueOps.read (Map.emplace k .null ms) = (.ok x, u') → u' = .obj (Map.emplace k .null ms) := by
    intro ms hm
    simp only [ValueOps.onMember, ValueOps.read] at hm
    split at hm
    · injection hm with hm; cases hm
    · next y hy =>
      injection hm with _ hm
      rw [← hm, assign_found hy]
  obtain ⟨ms, hu, rfl⟩ : ∃ ms, fillWith (.obj []) u = .obj ms ∧ u' = .obj (Map.emplace k .null ms) := by
    cases u with
    | obj ms => exact ⟨ms, rfl, key ms hv⟩
    | null => exact ⟨[], rfl, key [] hv⟩
    | _ => simp only [ValueOps.withKey] at hv; injection hv with hv; cases hv
  have hc : Cmd.ObjectLike E d := by
    cases u with
    | obj us => exact .inr ⟨us, hd⟩
    | null => exact .inl hd
    | _ => simp only [fillWith] at hu; cases hu
  rcases h.run hE (c := .key d k) hc with ⟨s1, e1, k, _⟩ | ⟨_, _, e1, _⟩
  · rw [(run_unique e e1).2]
    simp only [Cmd.meaning, Cmd.begun, hd, Option.map_some, hu, Env.put, get_set hd, keyed, set_set hd] at k
    exact k
  · cases (run_unique e e1).1

/-- C96. `d[i]`. -/
theorem C96_index (fo : FloatOps F) {s : State F} (h : Reach fo s) {E : Env F} (hE : Shows s E) {d : Ref} {u u' x : Value F} {i : Nat}
    (hi : i < sizeRange) (hd : E.get d = some u) (hv : ValueOps.withIndex i ValueOps.read u = (.ok x, u')) {s' : State F}
    (e : (Cmd.index d i).run fo s = (.ok (), s')) : Shows s' (E.set d u') := by
  have elem : ∀ us : List (Value F), ValueOps.onElem i ValueOps.read us = (.ok x, u') → u' = .arr us := by
    intro us hm
    simp only [ValueOps.onElem, ValueOps.read] at hm
    split at hm
    · injection hm with hm; cases hm
    · next y hy =>
      injection hm with _ hm
      obtain ⟨hi, rfl⟩ := List.getElem?_eq_some_iff.1 hy
      rw [← hm, List.set_getElem_self]
  have grow : ∀ us : List (Value F), ValueOps.growTo i ValueOps.read us = (.ok x, u') → u' = .arr (us ++ List.replicate (i + 1 - us.length) .null) := by
    intro us hm
    simp only [ValueOps.growTo] at hm
    split at hm
    · next hle =>
      split at hm
      · injection hm with hm; cases hm
      · next hb =>
        rw [elem _ hm]
        have : (i - us.length + 1) % sizeRange = i + 1 - us.length := by
          by_cases hq : i - us.length + 1 < sizeRange
          · rw [Nat.mod_eq_of_lt hq]; omega
          · exfalso
            have h1 : (i - us.length + 1) % sizeRange = 0 := by
              have : i - us.length + 1 = sizeRange := by omega
              rw [this, Nat.mod_self]
            rw [h1] at hm
            simp only [ValueOps.onElem, List.replicate_zero, List.append_nil, List.getElem?_eq_none hle] at hm
            injection hm with hm
            cases hm
        rw [this]
    · next hlt =>
      rw [elem _ hm]
      have : i + 1 - us.length = 0 := by omega
      rw [this]; simp
  obtain ⟨us, hu, rfl⟩ : ∃ us, fillWith (.arr []) u = .arr us ∧ u' = .arr (us ++ List.replicate (i + 1 - us.length) .null) := by
    cases u with
    | arr us => exact ⟨us, rfl, grow us hv⟩
    | null => exact ⟨[], rfl, grow [] hv⟩
    | _ => simp only [ValueOps.withIndex] at hv; injection hv with hv; cases hv
  have hc : Cmd.ArrayLike E d := by
    cases u with
    | arr us => exact .inr ⟨us, hd⟩
    | null => exact .inl hd
    | _ => simp only [fillWith] at hu; cases hu
  rcases h.run hE (c := .index d i) hc with ⟨s1, e1, k, _⟩ | ⟨_, _, e1, _⟩
  · rw [(run_unique e e1).2]
    simp only [Cmd.meaning, Cmd.begun, hd, Option.map_some, hu, Env.put, get_set hd, indexed, set_set hd] at k
    exact k
  · cases (run_unique e e1).1

end Configor.Props
