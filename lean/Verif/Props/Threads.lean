import Verif.Proofs.Threads
/-!
# C100: programs that run at the same time

The commands of `Spec/Heap.lean` are model code for the constructors, assignments and container
operations of `basic_value` (`Model/Heap.lean`). There is no memory that belongs to the library
rather than to a value: the `static` allocator in `create_data`, value.hpp:1098-1118, has no state.
A schedule interleaves whole commands; see C133 for threads that are interrupted within them.
-/
set_option autoImplicit false
namespace Configor.Props
open Spec

variable {F : Type}

/-- C100. A command does the same if the memory has nothing but the variables it names and their blocks: it ends in the same
way and leaves the same in these variables and their blocks, and it leaves all other variables and blocks as they were. This
holds whether or not allocations fail. -/
theorem C100_touches_only_named (fo : FloatOps F) {s s0 : State F} (h : Reach fo s) {E : Env F} (hE : Shows s E) {c : Cmd F} (hc : c.Allowed E)
    (h0 : Only c.vars s s0) :
    ∃ r s' s0', c.run fo s = (r, s') ∧ c.run fo s0 = (r, s0') ∧ (r = .ok () ∨ r = .error (.exn .badAlloc)) ∧
      (∀ x, x ∉ c.vars → s'.vars (.user x) = s.vars (.user x)) ∧
      (∀ x, x ∈ c.vars → s'.vars (.user x) = s0'.vars (.user x)) ∧
      (∀ a, s.heap.mem a ≠ none → ¬ BlockOfVars s c.vars a → s'.heap.mem a = s.heap.mem a ∧ s0'.heap.mem a = none) ∧
      (∀ a, s.heap.mem a = none ∨ BlockOfVars s c.vars a → s'.heap.mem a = s0'.heap.mem a) := by
  obtain ⟨E0, L, k1, _⟩ := h.holds
  have := hE.unique k1.shows
  subst this
  obtain ⟨L0, k0⟩ := h0.holds k1
  obtain ⟨g, gv, e, hb, n1, n2, n3⟩ := h0.split k1
  have ha : c.Allowed (E.only c.vars) := Cmd.allowed_congr (fun x hx => Env.only_mem hx) hc
  have hr : (c.run fo s0).1 = .ok () ∨ (c.run fo s0).1 = .error (.exn .badAlloc) := by
    rcases c.correct fo k0 ha with ⟨s1, e, _⟩ | ⟨s1, E1, L1, e, _⟩
    · exact .inl (by rw [e])
    · exact .inr (by rw [e])
  have hsane : Sane (c.run fo s0).1 := by rcases hr with hr | hr <;> rw [hr] <;> trivial
  have hw : ∀ x, (x = Var.tmp ∨ x = .arg ∨ ∃ n ∈ c.vars, x = .user n) → gv x = none := by
    rintro x (rfl | rfl | ⟨n, hn, rfl⟩)
    · exact n1
    · exact n2
    · exact n3 n hn
  obtain ⟨f1, f2⟩ := _root_.Configor.Cmd.frames fo c s0 g gv hb hw hsane
  rw [← e] at f1
  have hmem : ∀ a, s.heap.mem a = (s0.heap.mem a).or (g a) := fun a => by rw [e]; rfl
  have hvars : ∀ x, s.vars x = (s0.vars x).or (gv x) := fun a => by rw [e]; rfl
  have f3 : ∀ a, g a ≠ none → (c.run fo s0).2.heap.mem a = none := fun a ha => (f2.1 a ha).1
  have f4 : ∀ x, gv x ≠ none → (c.run fo s0).2.vars x = none := fun x hx => f2.2 x hx
  have f5 : ∀ x, x ∉ c.vars → (c.run fo s0).2.vars (.user x) = none := by
    intro x hx
    cases hq : gv (.user x) with
    | some d => exact f4 _ (by rw [hq]; simp)
    | none =>
      rcases c.correct fo k0 ha with ⟨s1, e, k, _⟩ | ⟨s1, E1, L1, e, k, k', _⟩
      · have hsh := k.shows x
        have ht : x ∉ c.targets := fun ht => hx (by cases c <;> simp_all [Cmd.targets, Cmd.vars])
        rw [c.meaning_other fo _ ht] at hsh
        simp only [Env.only, if_neg hx] at hsh
        rw [e]
        cases hv : s1.vars (.user x) with
        | none => rfl
        | some d => rw [hv] at hsh; exact hsh.elim
      · have hsh := k.shows x
        have ht : x ∉ c.targets := fun ht => hx (by cases c <;> simp_all [Cmd.targets, Cmd.vars])
        have : E1 x = none := by
          rcases k' with rfl | rfl
          · simp only [Env.only, if_neg hx]
          · rw [c.begun_other _ ht]; simp only [Env.only, if_neg hx]
        rw [this] at hsh
        rw [e]
        cases hv : s1.vars (.user x) with
        | none => rfl
        | some d => rw [hv] at hsh; exact hsh.elim
  generalize hq : c.run fo s0 = q at *
  obtain ⟨r, s0'⟩ := q
  simp only at hr f1 f2 f3 f4 f5
  refine ⟨r, s0'.add g gv, s0', f1, rfl, hr, ?_, ?_, ?_, ?_⟩
  · intro x hx
    rw [hvars, h0.gone x hx]
    simp only [State.add, f5 x hx]
  · intro x hx
    simp only [State.add, n3 x hx, Option.or_none]
  · intro a h1 h2
    have hg : g a ≠ none := by
      have := hmem a
      rw [h0.goneBlock a h2] at this
      intro hg
      rw [hg] at this
      exact h1 this
    refine ⟨?_, f3 a hg⟩
    rw [hmem, h0.goneBlock a h2]
    simp only [State.add, Heap.add, f3 a hg]
  · intro a ha
    have hg : g a = none := by
      cases hq : g a with
      | none => rfl
      | some b =>
        have h3 := (hb.1 a (by rw [hq]; simp)).1
        have h4 := hmem a
        rw [h3, hq] at h4
        rcases ha with ha | ha
        · rw [ha] at h4; cases h4
        · rw [← h0.keptBlock a ha, h3] at h4; cases h4
    simp only [State.add, Heap.add, hg, Option.or_none]

/-- The hypotheses are met: by a state with two variables and a command that names one of them. -/
example (fo : FloatOps F) : ∃ s s0 E, Reach fo s ∧ Shows s E ∧ (Cmd.key ⟨0, []⟩ [107] : Cmd F).Allowed E ∧ Only (Cmd.key ⟨0, []⟩ [107] : Cmd F).vars s s0 ∧
    s0.vars (.user 1) = none ∧ s.vars (.user 1) ≠ none := by
  obtain ⟨s, h1, _, h2⟩ := program_start fo [Cmd.new 0 (.obj []), .new 1 (.str [65])]
    ⟨⟨rfl, rfl⟩, ⟨by simp [Cmd.meaning, Env.bind], rfl⟩, trivial⟩
  obtain ⟨s0, h0⟩ := only_exists (Cmd.key ⟨0, []⟩ [107] : Cmd F).vars s
  refine ⟨s, s0, _, h1, h2, ?_, h0, h0.gone 1 (by simp [Cmd.vars]), ?_⟩
  · exact .inr ⟨[], by simp [Cmd.meaning, Env.bind, Env.get, part]⟩
  · intro hn
    have := h2 1
    simp [hn, Cmd.meaning, Env.bind] at this

/-- C100. Threads that change only variables of their own, and otherwise read variables that no thread changes: in whatever
order their commands take place, no command fails, each thread has in its variables what it would have if it ran alone, and
the shared variables are what they were. -/
theorem C100_threads (fo : FloatOps F) {s : State F} (h : Reach fo s) (hp : ∀ t, s.heap.plan t = true) {E : Env F} (hE : Shows s E)
    (owner : Nat → Option Nat) (sched : List (Nat × Cmd F)) (hd : Disciplined owner sched)
    (ha : ∀ i, ProgramAllowed fo E (programOf i sched)) :
    ∃ s' E', Cmd.runAll fo (sched.map Prod.snd) s = (.ok (), s') ∧ Shows s' E' ∧
      (∀ i, ∃ si Ei, Cmd.runAll fo (programOf i sched) s = (.ok (), si) ∧ Shows si Ei ∧ ∀ x, owner x = some i → E' x = Ei x) ∧
      ∀ x, owner x = none → E' x = E x := by
  obtain ⟨h1, h2, h3⟩ := schedule fo owner sched E (fun _ => E) hd (fun _ _ _ => rfl) ha
  obtain ⟨s', a1, _, a3⟩ := runAll_done fo _ h hp hE h1
  refine ⟨s', _, a1, a3, ?_, h3⟩
  intro i
  obtain ⟨si, b1, _, b3⟩ := runAll_done fo _ h hp hE (ha i)
  exact ⟨si, _, b1, b3, fun x hx => (h2 i x (.inl hx)).symm⟩

/-- Thread 0 has `v0`, thread 1 has `v1`; `v2` is shared. -/
def twoThreads : List (Nat × Cmd F) :=
  [(0, .copy 0 ⟨2, []⟩), (1, .copy 1 ⟨2, [0]⟩), (0, .push ⟨0, []⟩ ⟨2, []⟩), (1, .key ⟨1, []⟩ [107]), (0, .delete 0)]

/-- The hypotheses are met. -/
example (fo : FloatOps F) : ∃ s E, Reach fo s ∧ (∀ t, s.heap.plan t = true) ∧ Shows s E ∧
    Disciplined (fun x => if x = 2 then none else some x) (twoThreads (F := F)) ∧
    ∀ i, ProgramAllowed fo E (programOf i (twoThreads (F := F))) := by
  obtain ⟨s, h1, hp, h2⟩ := program_start fo [Cmd.new 2 (.arr []), .index ⟨2, []⟩ 0]
    ⟨⟨rfl, rfl⟩, .inr ⟨[], by simp [Cmd.meaning, Env.bind, Env.get, part]⟩, trivial⟩
  refine ⟨s, _, h1, hp, h2, ?_, ?_⟩
  · simp [Disciplined, twoThreads, Cmd.targets, Cmd.vars]
  · intro i
    by_cases h0 : i = 0
    · subst h0
      simp [programOf, twoThreads, ProgramAllowed, Cmd.Allowed, Cmd.meaning, Cmd.begun, Cmd.ArrayLike, Env.bind, Env.get, Env.put, Env.set, part, replace,
        fillWith, indexed, appended]
    · by_cases h1 : i = 1
      · subst h1
        simp [programOf, twoThreads, ProgramAllowed, Cmd.Allowed, Cmd.meaning, Cmd.begun, Cmd.ObjectLike, Env.bind, Env.get, Env.put, Env.set, part, kids, replace,
          fillWith, indexed]
      · have : programOf i (twoThreads (F := F)) = [] := by
          simp [programOf, twoThreads, Ne.symm h0, Ne.symm h1]
        rw [this]
        trivial

end Configor.Props
