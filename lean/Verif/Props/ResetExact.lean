import Verif.Props.ConvertMemory
import Verif.Proofs.LivesOn
/-!
# After which failures `to_value` leaves its target unusable
-/
set_option autoImplicit false
namespace Configor.Props
open Spec

variable {F : Type}

theorem holds_lives {s : State F} {E : Env F} {L : Nat → Prop} (h : Holds s E L) (k : Nat) : s.vars (.user k) = none ↔ E k = none := by
  obtain ⟨fp, ho, _⟩ := h
  have := ho.stands (.user k)
  simp only [Env.all] at this
  cases h1 : s.vars (.user k) <;> cases h2 : E k <;> simp_all [Stands]

theorem create_fits (b : Block F) (s : State F) :
    (s.heap.plan s.heap.tick = true ∧ s.heap.plan (s.heap.tick + 1) = true → ∃ a s', State.onHeap (Heap.create b) s = (.ok a, s')) ∧
    (¬ (s.heap.plan s.heap.tick = true ∧ s.heap.plan (s.heap.tick + 1) = true) →
      ∃ s', State.onHeap (Heap.create b) s = (.error (.exn .badAlloc), s') ∧ s'.vars = s.vars) := by
  simp only [State.onHeap, Heap.create, Heap.allocate, Heap.attempt, Heap.extend, Heap.put, M.bind_def]
  cases h1 : s.heap.plan s.heap.tick <;> cases h2 : s.heap.plan (s.heap.tick + 1) <;> simp [h2, upd]
  exact ⟨_, rfl⟩

private theorem reset_fits (fo : FloatOps F) {s : State F} {E : Env F} {L : Nat → Prop} (hs : Holds s E L) {k : Nat} {c : Value F} (hk : E k = some c)
    (v : Value F) (fits : Prop)
    (hv : (fits ∧ ∀ t, ∃ t', State.construct (.user k) v t = (.ok (), t') ∧ t'.vars (.user k) ≠ none) ∨
      ((fits ↔ s.heap.plan s.heap.tick = true ∧ s.heap.plan (s.heap.tick + 1) = true) ∧
        ∃ (b : Block F) (f : Nat → Cell F), ∀ t, State.construct (.user k) v t = (State.onHeap (Heap.create b) >>= fun a => State.declare (.user k) (f a)) t)) :
    (fits → ∃ s', State.reset (.user k) v s = (.ok (), s') ∧ s'.vars (.user k) ≠ none) ∧
    (¬ fits → ∃ s', State.reset (.user k) v s = (.error (.exn .badAlloc), s') ∧ s'.vars (.user k) = none) := by
  obtain ⟨s1, h1, h2, h3, h4⟩ := cmd_still fo (.delete k) hs (by simp only [Cmd.Allowed, hk]; simp) trivial
  have ht := Cmd.still fo (.delete k) trivial s
  rw [h1] at ht
  have h1' : State.destruct (.user k) s = (.ok (), s1) := h1
  have h0 : s1.vars (.user k) = none := (holds_lives h2 k).2 (by simp [Cmd.meaning, bind_at])
  simp only [State.reset, M.bind_ok h1']
  rcases hv with ⟨hf, hv⟩ | ⟨hf, b, f, hv⟩
  · exact ⟨fun _ => hv s1, fun h => (h hf).elim⟩
  · obtain ⟨k1, k2⟩ := create_fits b s1
    simp only at ht
    rw [ht, h3.1, ← hf] at k1 k2
    constructor
    · intro h
      obtain ⟨a, s2, e⟩ := k1 h
      refine ⟨_, (hv s1).trans (M.bind_ok e), ?_⟩
      simp [upd]
    · intro h
      obtain ⟨s2, e, e'⟩ := k2 h
      exact ⟨s2, (hv s1).trans (M.bind_error e), by rw [e', h0]⟩

/-- C118, exactly when it holds, for numbers, strings, sequences and maps. If memory for the new content itself can be had, `c` has a
value after `to_value(c, o)`, however the call ends, and can be destroyed. If it cannot be had, the call throws `std::bad_alloc` and
it is undefined to destroy `c`. -/
theorem C118_exactly_partial (fo : FloatOps F) (d : Order) {s : State F} {E : Env F} {L : Nat → Prop} (hs : Holds s E L) {k : Nat} (hk : E k ≠ none)
    (hj : ∀ j, k < j → E j = none) {o : Obj F} (ho : Resets o) (hv : Valid (E.bind k none) o) :
    (ContentFits s o → ∃ r s' u L' s'', State.toValue d k o s = (r, s') ∧ Holds s' (E.bind k (some u)) L' ∧
      State.destruct (.user k) s' = (.ok (), s'')) ∧
    (¬ ContentFits s o → ∃ s' s'', State.toValue d k o s = (.error (.exn .badAlloc), s') ∧
      State.destruct (.user k) s' = (.error .ub, s'')) := by
  cases hc : E k with
  | none => exact (hk hc).elim
  | some c =>
    have hov : Over (E.bind k none) E k := by
      refine ⟨fun x hx => ?_, hj⟩
      have h1 : x ≠ k := by rintro rfl; exact hx (bind_at _ _ _)
      rw [bind_ne _ h1] at hx ⊢
      refine ⟨?_, rfl⟩
      rcases Nat.lt_or_ge x k with h | h
      · exact h
      · exact (hx (hj x (by omega))).elim
    have hconv := toValue_resets fo d ho hv hs hov hc
    have key : (ContentFits s o → (State.toValue d k o s).2.vars (.user k) ≠ none) ∧
        (¬ ContentFits s o → ∃ s', State.toValue d k o s = (.error (.exn .badAlloc), s') ∧ s'.vars (.user k) = none) := by
      cases o with
      | bool b =>
        have h := reset_fits fo hs hc (.bool b) True (.inl ⟨trivial, fun t => ⟨_, rfl, by simp [upd]⟩⟩)
        obtain ⟨s', e, e'⟩ := h.1 trivial
        simp only [State.toValue, ContentFits, e]
        exact ⟨fun _ => e', fun h => (h trivial).elim⟩
      | int b =>
        have h := reset_fits fo hs hc (.int b) True (.inl ⟨trivial, fun t => ⟨_, rfl, by simp [upd]⟩⟩)
        obtain ⟨s', e, e'⟩ := h.1 trivial
        simp only [State.toValue, ContentFits, e]
        exact ⟨fun _ => e', fun h => (h trivial).elim⟩
      | flt b =>
        have h := reset_fits fo hs hc (.flt b) True (.inl ⟨trivial, fun t => ⟨_, rfl, by simp [upd]⟩⟩)
        obtain ⟨s', e, e'⟩ := h.1 trivial
        simp only [State.toValue, ContentFits, e]
        exact ⟨fun _ => e', fun h => (h trivial).elim⟩
      | str b =>
        have h := reset_fits fo hs hc (.str b) (ContentFits s (.str b)) (.inr ⟨Iff.rfl, .str b, .str, fun t => rfl⟩)
        simp only [State.toValue]
        refine ⟨fun hf => ?_, h.2⟩
        obtain ⟨s', e, e'⟩ := h.1 hf
        rw [e]
        exact e'
      | seq os =>
        have h := reset_fits fo hs hc (.arr []) (ContentFits s (.seq os)) (.inr ⟨Iff.rfl, .arr [], .arr, fun t => rfl⟩)
        simp only [State.toValue]
        refine ⟨fun hf => ?_, fun hf => ?_⟩
        · obtain ⟨s', e, e'⟩ := h.1 hf
          rw [M.bind_ok e]
          exact LivesOn.putItems d (Nat.le_refl k) 0 os s' e'
        · obtain ⟨s', e, e'⟩ := h.2 hf
          exact ⟨s', M.bind_error e, e'⟩
      | map ms =>
        have h := reset_fits fo hs hc (.obj []) (ContentFits s (.map ms)) (.inr ⟨Iff.rfl, .obj [], .obj, fun t => rfl⟩)
        simp only [State.toValue]
        refine ⟨fun hf => ?_, fun hf => ?_⟩
        · obtain ⟨s', e, e'⟩ := h.1 hf
          rw [M.bind_ok e]
          exact LivesOn.putMembers d d.leftFirst (Nat.le_refl k) ms s' e'
        · obtain ⟨s', e, e'⟩ := h.2 hf
          exact ⟨s', M.bind_error e, e'⟩
      | null => exact ho.elim
      | value => exact ho.elim
      | ptr => exact ho.elim
      | bound => exact ho.elim
      | throws => exact ho.elim
    have alive : ∀ {s' : State F} {u L'}, Holds s' (E.bind k (some u)) L' → ∃ s'', State.destruct (.user k) s' = (.ok (), s'') := by
      intro s' u L' h
      obtain ⟨s'', h1, _⟩ := cmd_still fo (.delete k) h (by simp only [Cmd.Allowed, bind_at]; simp) trivial
      exact ⟨s'', h1⟩
    constructor
    · intro hf
      have hl := key.1 hf
      rcases hconv with ⟨s', v, h1, _, h3, _⟩ | ⟨s', e, w, L', h1, h2, _⟩
      · obtain ⟨s'', h4⟩ := alive h3
        exact ⟨_, s', v, L, s'', h1, h3, h4⟩
      · rw [h1] at hl
        cases w with
        | none => exact (hl ((holds_lives h2 k).2 (bind_at _ _ _))).elim
        | some u =>
          obtain ⟨s'', h4⟩ := alive h2
          exact ⟨_, s', u, L', s'', h1, h2, h4⟩
    · intro hf
      obtain ⟨s', e, e'⟩ := key.2 hf
      refine ⟨s', s', e, ?_⟩
      simp only [State.destruct]
      exact M.bind_error (by simp only [State.read, e'])

/-- The hypotheses are met (`C118_violated` is a case without memory): `v1` is an object, and is to become a vector with a copy of a part of `v0`. -/
example (fo : FloatOps F) : ∃ (s : State F) (E : Env F) (L : Nat → Prop), Holds s E L ∧ E 1 ≠ none ∧ (∀ j, 1 < j → E j = none) ∧
    Resets (.seq [.str [98], .value 0 [0]] : Obj F) ∧ Valid (E.bind 1 none) (.seq [.str [98], .value 0 [0]]) := by
  obtain ⟨s, h1, hp, E, h2, h3, h4, h5⟩ := memorySample_reached fo
  obtain ⟨E0, L, k1, _⟩ := h1.holds
  have := h2.unique k1.shows
  subst this
  refine ⟨s, E, L, k1, by simp [h4], fun j hj => h5 j (by omega), trivial, ?_⟩
  simp [Valid, valuesIn, valuesInAll, Env.get, Env.bind, h3, part, kids]

end Configor.Props
