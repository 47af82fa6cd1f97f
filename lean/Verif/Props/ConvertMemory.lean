import Verif.Proofs.ConvertRun
import Verif.Proofs.ConvertTree
import Verif.Props.Heap
import Verif.Model.Dbl
/-!
# Conversions in memory: C116-C118

`Holds s E L`: the variables have the contents `E`, each block belongs to one place, and just the blocks in `L` to none.
`constructFrom d k o` is `basic_value x(o)` where `x` is variable `k`, and `assignFrom d x p t o` is `c = o` where `c` is the
part at path `p` of variable `x`. The local values of the calls are variables from number `k`, or `t`, on. `d` says in
which order the compiler evaluates the operands of assignments. `convert d E o` is the value `o` is converted to, or the exception.
-/
set_option autoImplicit false
namespace Configor.Props
open Spec

variable {F T S : Type}

/-! ## C116 -/

/-- C116. Constructing a value from an object: the variable gets the value the object is converted to, and every block of
memory that was not owned before is owned by it. Or an exception is thrown: then all variables have the values they had. The exception is that of the
part that could not be converted, or `std::bad_alloc`, and then an allocation has failed. -/
theorem C116_construct (fo : FloatOps F) (d : Order) {s : State F} {E : Env F} {L : Nat → Prop} (hs : Holds s E L) {k : Nat}
    (hk : ∀ j, k ≤ j → E j = none) {o : Obj F} (hv : Valid E o) :
    (∃ s' v, State.constructFrom d k o s = (.ok (), s') ∧ convert d E o = .ok v ∧ Holds s' (E.bind k (some v)) L ∧ NoFailure s s') ∨
    (∃ s' e L', State.constructFrom d k o s = (.error (.exn e), s') ∧ Holds s' E L' ∧ (∀ a, L a → L' a) ∧
      ((NoFailure s s' ∧ ∃ n, convert d E o = .error (e, n)) ∨ (¬ NoFailure s s' ∧ e = .badAlloc))) := by
  rcases constructFrom_made fo d hs hk hv with ⟨s', v, h1, h2, h3, _, h5⟩ | ⟨s', e, L', h1, h2, _, h4⟩
  · exact .inl ⟨s', v, h1, h2, h3, h5⟩
  · refine .inr ⟨s', e, L', h1, h2, ?_⟩
    rcases h4 with ⟨h5, n, h6, h7⟩ | ⟨h5, h6, h7⟩
    · exact ⟨fun a ha => h6.sub ha, .inl ⟨h5, n, h7⟩⟩
    · exact ⟨h7, .inr ⟨h5, h6⟩⟩

/-- C116. Assigning an object to a value or a part of one: it gets the value the object is converted to, and all other
values are as they were. Or an exception is thrown: then all values are as they were. -/
theorem C116_assign (fo : FloatOps F) (d : Order) {s : State F} {E : Env F} {L : Nat → Prop} (hs : Holds s E L) {x : Nat} {p : List Nat}
    (hx : E.get ⟨x, p⟩ ≠ none) {t : Nat} (ht : ∀ j, t ≤ j → E j = none) {o : Obj F} (hv : Valid E o) :
    (∃ s' v, State.assignFrom d x p t o s = (.ok (), s') ∧ convert d E o = .ok v ∧ Holds s' (E.set ⟨x, p⟩ v) L ∧ NoFailure s s') ∨
    (∃ s' e L', State.assignFrom d x p t o s = (.error (.exn e), s') ∧ Holds s' E L' ∧ (∀ a, L a → L' a) ∧
      ((NoFailure s s' ∧ ∃ n, convert d E o = .error (e, n)) ∨ (¬ NoFailure s s' ∧ e = .badAlloc))) := by
  rcases assignFrom_ends fo d hs hx ht hv with ⟨s', v, h1, h2, h3, _, h5⟩ | ⟨s', e, L', h1, h2, _, h4⟩
  · exact .inl ⟨s', v, h1, h2, h3, h5⟩
  · refine .inr ⟨s', e, L', h1, h2, ?_⟩
    rcases h4 with ⟨h5, n, h6, h7⟩ | ⟨h5, h6, h7⟩
    · exact ⟨fun a ha => h6.sub ha, .inl ⟨h5, n, h7⟩⟩
    · exact ⟨h7, .inr ⟨h5, h6⟩⟩

/-- A state with values, and an object with copies of two of them and a part that throws. -/
theorem convertSample (fo : FloatOps F) (e : Err) : ∃ (s : State F) (E : Env F) (L : Nat → Prop), Holds s E L ∧ (∀ j, 2 ≤ j → E j = none) ∧
    E.get ⟨0, [0]⟩ = some (.arr [.str [97]]) ∧ E.get ⟨0, [1]⟩ = some .null ∧ (∀ t, s.heap.plan t = true) ∧
    Valid E (.map [([107], .seq [.str [98], .value 0 [0], .ptr (.throws e)])]) ∧ Valid E (.seq [.value 0 [0], .ptr (.bound [([107], .int 5)])]) := by
  obtain ⟨s, h1, hp, E, h2, h3, _, h5⟩ := memorySample_reached fo
  obtain ⟨E0, L, k1, _⟩ := h1.holds
  have := h2.unique k1.shows
  subst this
  refine ⟨s, E, L, k1, h5, by simp [Env.get, h3, part, kids], by simp [Env.get, h3, part, kids], hp, ?_, ?_⟩
  · simp [Valid, valuesIn, valuesInAll, valuesInMembers, Env.get, h3, part, kids]
  · simp [Valid, valuesIn, valuesInAll, valuesInMembers, Env.get, h3, part, kids]

/-- The hypotheses of both are met, and both ends: an object that can be converted, and one that throws. -/
example (fo : FloatOps F) (d : Order) (e : Err) : ∃ (s : State F) (E : Env F) (L : Nat → Prop), Holds s E L ∧ (∀ j, 2 ≤ j → E j = none) ∧ E.get ⟨0, [1]⟩ ≠ none ∧
    Valid E (.map [([107], .seq [.str [98], .value 0 [0], .ptr (.throws e)])]) ∧ Valid E (.seq [.value 0 [0], .ptr (.bound [([107], .int 5)])]) ∧
    convert d E (.map [([107], .seq [.str [98], .value 0 [0], .ptr (.throws e)])]) = .error (e, 5) ∧
    convert d E (.seq [.value 0 [0], .ptr (.bound [([107], .int 5)])]) = .ok (.arr [.arr [.str [97]], .obj [([107], .int 5)]]) := by
  obtain ⟨s, E, L, h1, h2, h3, h4, _, h5, h6⟩ := convertSample fo e
  refine ⟨s, E, L, h1, h2, by rw [h4]; simp, h5, h6, ?_, ?_⟩
  · simp only [convert, convertMembers, convertAll, h3]
    cases d.leftFirst <;> simp [blocks, blocksAll, blocksMembers, fillWith]
  · simp [convert, convertMembers, convertAll, h3, setMember, membersOf]

/-- C116. The value, and the exception, do not depend on the order in which the compiler evaluates the operands. -/
theorem C116_any_order (d d' : Order) (E : Env F) (o : Obj F) : outcome (convert d E o) = outcome (convert d' E o) := convert_order d d' E o

/-- Only what is lost depends on it: a class whose only field throws. -/
example (e : Err) : convert ⟨false, true⟩ (fun _ => none) (.bound [([107], .throws e)] : Obj F) = .error (e, 1) ∧
    convert ⟨false, false⟩ (fun _ => none) (.bound [([107], .throws e)] : Obj F) = .error (e, 0) := by
  simp [convert, convertMembers, blocks, blocksMembers, fillWith]

/-! `convert` gives what the converters of `Model/Convert.lean` give, if it does so for the parts. -/

/-- C116. The converter for vectors; those for arrays, lists and sets write the same. -/
theorem C116_sequences (d : Order) (E : Env F) (C : Conv F T) (obj : T → Obj F) (xs : List T) (hl : xs.length ≤ vectorMax)
    (h : ∀ x ∈ xs, outcome (convert d E (obj x)) = C.toValue x) : outcome (convert d E (.seq (xs.map obj))) = (Conv.vector C).toValue xs := by
  simp only [convert]
  exact tree_seq xs [] (by simpa using hl) h

/-- C116. The converters for maps. -/
theorem C116_maps (d : Order) (E : Env F) (C : Conv F T) (em) (obj : T → Obj F) (ms : List (List Nat × T))
    (h : ∀ m ∈ ms, outcome (convert d E (obj m.2)) = C.toValue m.2) :
    outcome (convert d E (.map (ms.map fun m => (m.1, obj m.2)))) = (Conv.map C em).toValue ms := by
  simp only [convert]
  exact tree_map _ ms _ (.inr ⟨_, rfl⟩) h

/-- C116. The converter for pointers. -/
theorem C116_pointers (d : Order) (E : Env F) (C : Conv F T) (obj : T → Obj F) (x : T) (h : outcome (convert d E (obj x)) = C.toValue x) :
    outcome (convert d E (.ptr (obj x))) = (Conv.ptr C).toValue (some x) ∧ outcome (convert d E .null) = (Conv.ptr C).toValue none := ⟨h, rfl⟩

/-- C116. The converters that `CONFIGOR_BIND` defines: fields that are optional and have their default value are not written. -/
theorem C116_bound (d : Order) (E : Env F) (fs : List (Field F S)) (zero s : S) (obj : Field F S → Obj F)
    (h : ∀ f ∈ fs, outcome (convert d E (obj f)) = f.conv.toValue (f.get s)) :
    outcome (convert d E (.bound ((fs.filter fun f => !(f.optional && f.isZero (f.get s))).map fun f => (f.name, obj f)))) = (Conv.bind fs zero).toValue s := by
  simp only [convert]
  exact tree_bind _ s fs _ (.inl rfl) h

/-- The hypotheses are met: a vector of pointers to numbers. -/
example (d : Order) (E : Env F) (xs : List (Option Int)) (hl : xs.length ≤ vectorMax) :
    outcome (convert d E (.seq (xs.map fun x => match x with | some i => .ptr (.int (Conv.castTo true 64 i)) | none => .null))) =
      (Conv.vector (Conv.ptr (Conv.int (F := F) true 32))).toValue xs :=
  C116_sequences d E _ _ xs hl fun x _ => by cases x <;> rfl

/-! ## C117 -/

theorem start_holds (plan : Nat → Bool) : Holds (start plan : State F) (fun _ => none) nothing :=
  ⟨fun _ => [], ⟨fun x => by cases x <;> exact rfl, fun _ => .nil, fun _ _ _ _ h => by simp at h, fun _ _ => rfl⟩, fun a => by simp [nothing, start]⟩

/-- C117, violated: a vector with a string and an element whose own conversion throws. The constructor throws that exception, though all
memory could be had; there are no variables, but two more blocks than before. -/
theorem C117_violated (fo : FloatOps F) (d : Order) (e : Err) : ∃ (s' : State F) (L' : Nat → Prop),
    State.constructFrom d 0 (.seq [.str [97], .throws e]) (start fun _ => true) = (.error (.exn e), s') ∧
    Holds s' (fun _ => none) L' ∧ MoreBy 2 nothing L' := by
  have hc : convert d (fun _ => none) (.seq [.str [97], .throws e] : Obj F) = .error (e, 2) := by
    simp [convert, convertAll, blocks, blocksAll]
  rcases constructFrom_made fo d (start_holds (F := F) fun _ => true) (k := 0) (fun _ _ => rfl) (o := .seq [.str [97], .throws e])
    (by simp [Valid, valuesIn, valuesInAll]) with ⟨s', v, _, h2, _⟩ | ⟨s', e', L', h1, h2, h3, h4⟩
  · rw [hc] at h2; cases h2
  · rcases h4 with ⟨_, n, h5, h6⟩ | ⟨h5, _⟩
    · rw [hc] at h6
      simp only [Except.error.injEq, Prod.mk.injEq] at h6
      obtain ⟨rfl, rfl⟩ := h6
      exact ⟨s', L', h1, h2, h5⟩
    · exact (h5 fun t _ _ => rfl).elim

theorem shows_none {s : State F} {E : Env F} {L : Nat → Prop} (h : Holds s E L) {x : Nat} (hx : E x = none) : s.vars (.user x) = none := by
  have := h.shows x
  rw [hx] at this
  cases e : s.vars (.user x) with
  | none => rfl
  | some c => rw [e] at this; exact this.elim

/-- C117, violated: a vector with two strings, when the memory for the second cannot be had. The blocks of the array and of the first
string stay allocated. -/
theorem C117_violated_by_memory (d : Order) : ∃ (s' : State Dbl) (cs : List (Cell Dbl)),
    State.constructFrom d 0 (.seq [.str [97], .str [98]]) (start fun t => t != 5) = (.error (.exn .badAlloc), s') ∧
    (∀ x, s'.vars (.user x) = none) ∧ s'.heap.mem 0 = some (.arr cs) ∧ s'.heap.mem 1 = some (.str [97]) := by
  have h : (match State.constructFrom d 0 (.seq [.str [97], .str [98]]) (start (F := Dbl) fun t => t != 5) with
      | (.error (.exn .badAlloc), s') => match s'.heap.mem 0, s'.heap.mem 1 with
        | some (.arr _), some (.str [97]) => true
        | _, _ => false
      | _ => false) = true := by
    obtain ⟨l, m⟩ := d
    cases l <;> cases m <;> decide +kernel
  rcases constructFrom_made (Dbl.ops (.general 6)) d (start_holds (F := Dbl) fun t => t != 5) (k := 0) (fun _ _ => rfl) (o := .seq [.str [97], .str [98]])
    (by simp [Valid, valuesIn, valuesInAll]) with ⟨s', v, h1, _⟩ | ⟨s', e', L', h1, h2, _⟩
  · rw [h1] at h; cases h
  · rw [h1] at h ⊢
    split at h
    · next hm =>
      simp only [Prod.mk.injEq, Except.error.injEq, Stop.exn.injEq] at hm
      obtain ⟨rfl, rfl⟩ := hm
      split at h
      · next cs h3 h4 => exact ⟨s', cs, rfl, fun x => shows_none h2 rfl, h3, h4⟩
      · cases h
    · cases h

/-- C117, what is left of it: if the call ends normally nothing is lost; if a part throws, exactly as many blocks are lost as there are
strings, arrays and objects in the unfinished values around that part. (Where allocations fail, see C116.) -/
theorem C117_lost_exactly_partial (fo : FloatOps F) (d : Order) {s : State F} {E : Env F} {L : Nat → Prop} (hs : Holds s E L) {k : Nat}
    (hk : ∀ j, k ≤ j → E j = none) {o : Obj F} (hv : Valid E o) {s' : State F} {r : Except Stop Unit} (hr : State.constructFrom d k o s = (r, s'))
    (hn : NoFailure s s') :
    (∃ v, r = .ok () ∧ convert d E o = .ok v ∧ Holds s' (E.bind k (some v)) L) ∨
    (∃ e n L', r = .error (.exn e) ∧ convert d E o = .error (e, n) ∧ Holds s' E L' ∧ MoreBy n L L') := by
  rcases constructFrom_made fo d hs hk hv with ⟨s1, v, h1, h2, h3, _, h5⟩ | ⟨s1, e, L', h1, h2, _, h4⟩
  · rw [hr] at h1
    simp only [Prod.mk.injEq] at h1
    obtain ⟨rfl, rfl⟩ := h1
    exact .inl ⟨v, rfl, h2, h3⟩
  · rw [hr] at h1
    simp only [Prod.mk.injEq] at h1
    obtain ⟨rfl, rfl⟩ := h1
    rcases h4 with ⟨_, n, h6, h7⟩ | ⟨h5, _⟩
    · exact .inr ⟨e, n, L', rfl, h7, h2, h6⟩
    · exact (h5 hn).elim

/-- C117, the same for assignments. -/
theorem C117_lost_by_assignment_partial (fo : FloatOps F) (d : Order) {s : State F} {E : Env F} {L : Nat → Prop} (hs : Holds s E L) {x : Nat} {p : List Nat}
    (hx : E.get ⟨x, p⟩ ≠ none) {t : Nat} (ht : ∀ j, t ≤ j → E j = none) {o : Obj F} (hv : Valid E o) {s' : State F} {r : Except Stop Unit}
    (hr : State.assignFrom d x p t o s = (r, s')) (hn : NoFailure s s') :
    (∃ v, r = .ok () ∧ convert d E o = .ok v ∧ Holds s' (E.set ⟨x, p⟩ v) L) ∨
    (∃ e n L', r = .error (.exn e) ∧ convert d E o = .error (e, n) ∧ Holds s' E L' ∧ MoreBy n L L') := by
  rcases assignFrom_ends fo d hs hx ht hv with ⟨s1, v, h1, h2, h3, _, h5⟩ | ⟨s1, e, L', h1, h2, _, h4⟩
  · rw [hr] at h1
    simp only [Prod.mk.injEq] at h1
    obtain ⟨rfl, rfl⟩ := h1
    exact .inl ⟨v, rfl, h2, h3⟩
  · rw [hr] at h1
    simp only [Prod.mk.injEq] at h1
    obtain ⟨rfl, rfl⟩ := h1
    rcases h4 with ⟨_, n, h6, h7⟩ | ⟨h5, _⟩
    · exact .inr ⟨e, n, L', rfl, h7, h2, h6⟩
    · exact (h5 hn).elim

/-- The hypotheses of both are met, in memory where all allocations succeed, by an object that throws. -/
example (fo : FloatOps F) (d : Order) (e : Err) : ∃ (s s1 s2 : State F) (E : Env F) (L : Nat → Prop), Holds s E L ∧ (∀ j, 2 ≤ j → E j = none) ∧ E.get ⟨0, [1]⟩ ≠ none ∧
    Valid E (.map [([107], .seq [.str [98], .value 0 [0], .ptr (.throws e)])]) ∧
    State.constructFrom d 2 (.map [([107], .seq [.str [98], .value 0 [0], .ptr (.throws e)])]) s = (.error (.exn e), s1) ∧ NoFailure s s1 ∧
    State.assignFrom d 0 [1] 2 (.map [([107], .seq [.str [98], .value 0 [0], .ptr (.throws e)])]) s = (.error (.exn e), s2) ∧ NoFailure s s2 := by
  obtain ⟨s, E, L, h1, h2, h3, h4, h5, h6, _⟩ := convertSample fo e
  have hc : ∃ n, convert d E (.map [([107], .seq [.str [98], .value 0 [0], .ptr (.throws e)])]) = .error (e, n) := by
    simp [convert, convertMembers, convertAll]
  obtain ⟨n, hc⟩ := hc
  have all : ∀ s' : State F, NoFailure s s' := fun s' t _ _ => h5 t
  have hx : E.get ⟨0, [1]⟩ ≠ none := by rw [h4]; simp
  rcases C116_construct fo d h1 h2 h6 with ⟨_, _, _, k2, _⟩ | ⟨s1, e1, _, k1, _, _, k4⟩
  · rw [hc] at k2; cases k2
  · rcases C116_assign fo d h1 hx h2 h6 with ⟨_, _, _, j2, _⟩ | ⟨s2, e2, _, j1, _, _, j4⟩
    · rw [hc] at j2; cases j2
    · have g1 : e1 = e := by
        rcases k4 with ⟨_, m, k5⟩ | ⟨k5, _⟩
        · rw [hc] at k5; simp only [Except.error.injEq, Prod.mk.injEq] at k5; exact k5.1.symm
        · exact (k5 (all s1)).elim
      have g2 : e2 = e := by
        rcases j4 with ⟨_, m, j5⟩ | ⟨j5, _⟩
        · rw [hc] at j5; simp only [Except.error.injEq, Prod.mk.injEq] at j5; exact j5.1.symm
        · exact (j5 (all s2)).elim
      subst g1
      subst g2
      exact ⟨s, s1, s2, E, L, h1, h2, hx, h6, k1, all s1, j1, all s2⟩

/-! ## C118 -/

/-- C118, violated: `c` is the string "a". `to_value(c, "b")` throws `std::bad_alloc` when memory for the new string cannot be had,
after the old one was destroyed. Destroying `c` is then undefined behaviour. -/
theorem C118_violated (fo : FloatOps F) (d : Order) : ∃ s s' s'' : State F, Reach fo s ∧ (∃ E, Shows s E ∧ E 0 = some (.str [97])) ∧
    State.toValue d 0 (.str [98]) s = (.error (.exn .badAlloc), s') ∧ State.destruct (.user 0) s' = (.error .ub, s'') := by
  have hs := start_holds (F := F) fun t => t != 2
  have hr : Reach fo (start (F := F) fun t => t != 2) := .start _
  have ha : (Cmd.new 0 (.str [97]) : Cmd F).Allowed fun _ => none := ⟨rfl, rfl⟩
  rcases cmd_cases fo (.new 0 (.str [97])) hs ha with ⟨s1, h1, h2, _, _⟩ | ⟨_, _, _, h1, _⟩
  · have e1 : s1 = ((Cmd.new 0 (.str [97])).run fo (start (F := F) fun t => t != 2)).2 := by rw [h1]
    refine ⟨s1, _, _, .step hr hs.shows ha h1, ⟨_, h2.shows, by simp [Cmd.meaning, Env.bind]⟩, Prod.ext ?_ rfl, Prod.ext ?_ rfl⟩
    all_goals
      subst e1
      simp [Cmd.run, State.toValue, State.reset, State.destruct, State.construct, State.declare, State.forget, State.read, State.onHeap, State.depth, start, upd,
        M.bind_def, M.pure_def, M.gets, Heap.create, Heap.allocate, Heap.attempt, Heap.extend, Heap.put, Heap.destroy, Heap.string, Heap.free]
  · have h3 : ((Cmd.new 0 (.str [97])).run fo (start (F := F) fun t => t != 2)).1 = .ok () := by
      simp [Cmd.run, State.construct, State.declare, State.onHeap, start, upd, M.bind_def, M.pure_def, Heap.create, Heap.allocate, Heap.attempt, Heap.extend, Heap.put]
    rw [h1] at h3
    cases h3

/-- C118, what is left of it: unless an allocation fails, `c` has a value after `to_value(c, o)`: the one `o` is converted to, or what
there was of it when a part threw. -/
theorem C118_alive_partial (fo : FloatOps F) (d : Order) {s : State F} {E : Env F} {L : Nat → Prop} (hs : Holds s E L) {k : Nat} (hk : E k ≠ none)
    (hj : ∀ j, k < j → E j = none) {o : Obj F} (ho : Resets o) (hv : Valid (E.bind k none) o) :
    (∃ s' v, State.toValue d k o s = (.ok (), s') ∧ convert d (E.bind k none) o = .ok v ∧ Holds s' (E.bind k (some v)) L ∧ NoFailure s s') ∨
    (∃ s' e u n L', State.toValue d k o s = (.error (.exn e), s') ∧ convert d (E.bind k none) o = .error (e, n + blocks u) ∧
      Holds s' (E.bind k (some u)) L' ∧ MoreBy n L L' ∧ NoFailure s s') ∨
    (∃ s', State.toValue d k o s = (.error (.exn .badAlloc), s') ∧ ¬ NoFailure s s') := by
  cases hc : E k with
  | none => exact (hk hc).elim
  | some c =>
    have hov : Over (E.bind k none) E k := by
      refine ⟨fun x hx => ?_, hj⟩
      have h1 : x ≠ k := by rintro rfl; exact hx (bind_at _ _ _)
      rw [bind_ne _ h1] at hx ⊢
      refine ⟨?_, rfl⟩
      rcases Nat.lt_or_ge x k with h | h
      · exact h
      · exact (hx (hj x (by omega))).elim
    rcases toValue_resets fo d ho hv hs hov hc with ⟨s', v, h1, h2, h3, _, h5⟩ | ⟨s', e, w, L', h1, h2, _, h4⟩
    · exact .inl ⟨s', v, h1, h2, h3, h5⟩
    · rcases h4 with ⟨h5, n, u, rfl, h6, h7⟩ | ⟨h5, rfl, _⟩
      · exact .inr (.inl ⟨s', e, u, n, L', h1, h7, h2, h6, h5⟩)
      · exact .inr (.inr ⟨s', h1, h5⟩)

/-- C118, for pointers: `to_value(c, p)` is an assignment, so C116 holds of it, whatever fails. -/
theorem C118_pointers_partial (fo : FloatOps F) (d : Order) {s : State F} {E : Env F} {L : Nat → Prop} (hs : Holds s E L) {k : Nat} (hk : E k ≠ none)
    (hj : ∀ j, k < j → E j = none) {o : Obj F} (hv : Valid E o) :
    (∃ s' v, State.toValue d k (.ptr o) s = (.ok (), s') ∧ convert d E o = .ok v ∧ Holds s' (E.bind k (some v)) L) ∨
    (∃ s' e L', State.toValue d k (.ptr o) s = (.error (.exn e), s') ∧ Holds s' E L') := by
  have e : State.toValue d k (.ptr o) = State.assignFrom d k [] (k + 1) o := by simp only [State.toValue, State.assignFrom]
  cases hc : E k with
  | none => exact (hk hc).elim
  | some c =>
    rw [e]
    rcases C116_assign fo d hs (x := k) (p := []) (by simp [Env.get, hc, part]) (t := k + 1) (fun j h => hj j (by omega)) hv with
      ⟨s', v, h1, h2, h3, _⟩ | ⟨s', e, L', h1, h2, _⟩
    · rw [bind_set hc] at h3
      exact .inl ⟨s', v, h1, h2, h3⟩
    · exact .inr ⟨s', e, L', h1, h2⟩

/-- The hypotheses of both are met: `v1` is an object, and is to become a vector with a copy of a part of `v0`. -/
example (fo : FloatOps F) : ∃ (s : State F) (E : Env F) (L : Nat → Prop), Holds s E L ∧ E 1 = some (.obj []) ∧ (∀ j, 1 < j → E j = none) ∧
    Resets (.seq [.str [98], .value 0 [0]] : Obj F) ∧ Valid (E.bind 1 none) (.seq [.str [98], .value 0 [0]]) ∧ Valid E (.seq [.str [98], .value 0 [0]]) := by
  obtain ⟨s, h1, hp, E, h2, h3, h4, h5⟩ := memorySample_reached fo
  obtain ⟨E0, L, k1, _⟩ := h1.holds
  have := h2.unique k1.shows
  subst this
  refine ⟨s, E, L, k1, h4, fun j hj => h5 j (by omega), trivial, ?_, ?_⟩
  · simp [Valid, valuesIn, valuesInAll, Env.get, Env.bind, h3, part, kids]
  · simp [Valid, valuesIn, valuesInAll, Env.get, h3, part, kids]

end Configor.Props
