import Verif.Proofs.StepsThreads
/-!
# C133: threads that are interrupted anywhere

The programs of `Model/Steps.lean` are the operations of `Model/Heap.lean` taken apart: after each allocation and each access to a
block or a variable another thread may go on. C100 is about threads that take turns command by command.
-/
set_option autoImplicit false
namespace Configor.Props
open Spec

variable {F : Type}

/-- C133. The steps of a command are the command: if no other thread makes a step in between, the steps do what the command does, for
every memory and whether or not allocations fail. -/
theorem C133_steps (fo : FloatOps F) (c : Cmd F) (s : State F) : (Cmd.steps fo c).run s = c.run fo s := by
  rw [Cmd.run_steps]

/-- The hypotheses are met (there are none): to construct a string takes five steps. -/
example (fo : FloatOps F) : ∃ c : Cmd F, ∃ s, c.run fo s = (.ok (), ((Cmd.steps fo c).run s).2) ∧ (Cmd.steps fo c).cost s = 5 :=
  ⟨.new 0 (.str [65]), Spec.start fun _ => true, by rw [C133_steps]; rfl, rfl⟩

/-- C133. Threads that change only variables of their own, and otherwise read variables that no thread changes, may be interrupted
between any two steps. Whatever the schedule, no thread ends with an error; each is done after as many steps of its own as it would
make alone, and not before; then its variables have the content they would have if it had run alone. The shared variables have their
content all the time. -/
theorem C133_threads (fo : FloatOps F) {s : State F} (h : Reach fo s) (hp : ∀ t, s.heap.plan t = true) {E : Env F} (hE : Shows s E)
    (owner : Nat → Option Nat) (prog : Nat → List (Cmd F)) (hk : KeepsTo owner prog) (ha : ∀ i, ProgramAllowed fo E (prog i))
    (sched : List Nat) (i : Nat) :
    (∀ e, ((launch fo prog s).turns sched).todo i ≠ .done (.error e)) ∧
    (((launch fo prog s).turns sched).todo i = .done (.ok ()) ↔ (Cmd.allSteps fo (prog i)).cost s ≤ sched.count i) ∧
    (((launch fo prog s).turns sched).todo i = .done (.ok ()) →
      ∃ si Ei, Cmd.runAll fo (prog i) s = (.ok (), si) ∧ Shows si Ei ∧
        ∀ x, owner x = some i → Has (((launch fo prog s).turns sched).joint.view i) x (Ei x)) ∧
    ∀ x, owner x = none → Has (((launch fo prog s).turns sched).joint.view i) x (E x) := by
  obtain ⟨E0, L, k1, _⟩ := h.holds
  have := hE.unique k1.shows
  subst this
  obtain ⟨fp, ho, _⟩ := k1
  have hz := fun i => zone_run (owner := owner) fo ho hp hk ha i
  obtain ⟨fin, hfin⟩ := Classical.axiomOfChoice hz
  obtain ⟨Ef, hf⟩ := Classical.axiomOfChoice hfin
  have hg := Going.launch fo ho hk fun i => (hf i).1
  have hcost : (Cmd.allSteps fo (prog i)).cost (partOf owner fp s i) = (Cmd.allSteps fo (prog i)).cost s := by
    obtain ⟨st, hd⟩ := hg.each i
    have := hd.costs
    rw [show (launch fo prog s).joint.view i = s from Joint.view_of s i] at this
    exact this.symm
  have hT := hg.turns ho sched
  obtain ⟨st, hd⟩ := hT.each i
  rw [hcost] at hd
  generalize hq : ((launch fo prog s).turns sched).todo i = q at hd
  have hsh : ∀ x, owner x = none → Has (((launch fo prog s).turns sched).joint.view i) x (E x) :=
    fun x hx => hd.shared ho hx (hT.shared x hx)
  cases q with
  | done r =>
    obtain ⟨rfl, h2, rfl⟩ := hd.done
    refine ⟨fun e => by simp, ⟨fun _ => by omega, fun _ => rfl⟩, fun _ => ?_, hsh⟩
    obtain ⟨si, b1, _, b3⟩ := runAll_done fo _ h hp hE (ha i)
    refine ⟨si, _, b1, b3, fun x hx => ?_⟩
    exact hd.agree.has (hf i).2.1 ((hf i).2.2 x (.inl hx)) (hd.agree.own (.user x) hx)
  | step m k =>
    obtain ⟨n', h1, _⟩ := hd.step
    refine ⟨fun e => by simp, ⟨fun h => (by cases h), fun hc => absurd hc (by omega)⟩, fun h => (by cases h), hsh⟩

/-- Thread 0 has `v0`, thread 1 has `v1`; `v2` is shared, and both copy from it. -/
def twoPrograms : Nat → List (Cmd F)
  | 0 => [.copy 0 ⟨2, []⟩, .push ⟨0, []⟩ ⟨2, []⟩, .delete 0]
  | 1 => [.copy 1 ⟨2, [0]⟩, .key ⟨1, []⟩ [107]]
  | _ => []

/-- The hypotheses are met. -/
example (fo : FloatOps F) : ∃ s E, Reach fo s ∧ (∀ t, s.heap.plan t = true) ∧ Shows s E ∧
    KeepsTo (fun x => if x = 2 then none else some x) (twoPrograms (F := F)) ∧ ∀ i, ProgramAllowed fo E (twoPrograms (F := F) i) := by
  obtain ⟨s, h1, hp, h2⟩ := program_start fo [Cmd.new 2 (.arr []), .index ⟨2, []⟩ 0]
    ⟨⟨rfl, rfl⟩, .inr ⟨[], by simp [Cmd.meaning, Env.bind, Env.get, part]⟩, trivial⟩
  refine ⟨s, _, h1, hp, h2, ?_, ?_⟩
  · intro i
    match i with
    | 0 => simp [twoPrograms, Cmd.targets, Cmd.vars]
    | 1 => simp [twoPrograms, Cmd.targets, Cmd.vars]
    | i + 2 => simp [twoPrograms]
  · intro i
    match i with
    | 0 =>
      simp [twoPrograms, ProgramAllowed, Cmd.Allowed, Cmd.meaning, Cmd.begun, Cmd.ArrayLike, Env.bind, Env.get, Env.put, Env.set, part, replace,
        fillWith, indexed, appended]
    | 1 =>
      simp [twoPrograms, ProgramAllowed, Cmd.Allowed, Cmd.meaning, Cmd.begun, Cmd.ObjectLike, Env.bind, Env.get, Env.put, Env.set, part, kids, replace,
        fillWith, indexed]
    | i + 2 => trivial

end Configor.Props
