import Verif.Spec.Heap
/-!
# Programs that run at the same time

Threads with variables of their own, and variables they share. A schedule is the sequence of all
commands in the order in which they take place, each with the thread that executes it.
-/
namespace Spec
open Configor

variable {F : Type}

/-- The commands of thread `i`, in order. -/
def programOf (i : Nat) (sched : List (Nat × Cmd F)) : List (Cmd F) :=
  (sched.filter fun e => e.1 = i).map Prod.snd

/-- Thread `i` changes only variables of its own (`owner x = some i`) and names no variables but its own and those
that no thread may change (`owner x = none`). -/
def Disciplined (owner : Nat → Option Nat) (sched : List (Nat × Cmd F)) : Prop :=
  ∀ e ∈ sched, (∀ x ∈ e.2.targets, owner x = some e.1) ∧ ∀ x ∈ e.2.vars, owner x = some e.1 ∨ owner x = none

/-- The block a cell points to. -/
def blockOf : Cell F → Option Nat
  | .str a => some a
  | .arr a => some a
  | .obj a => some a
  | _ => none

/-- The block at address `a` is the one the cell points to, or the one an element of the container there points to,
and so on. -/
inductive WithinCell (mem : Nat → Option (Block F)) : Cell F → Nat → Prop where
  | here {c : Cell F} {a : Nat} : blockOf c = some a → WithinCell mem c a
  | inside {c d : Cell F} {a b : Nat} {k : Block F} : blockOf c = some b → mem b = some k → d ∈ k.cells → WithinCell mem d a → WithinCell mem c a

/-- The block belongs to one of the variables. -/
def BlockOfVars (s : State F) (xs : List Nat) (a : Nat) : Prop :=
  ∃ x ∈ xs, ∃ c, s.vars (.user x) = some c ∧ WithinCell s.heap.mem c a

/-- `s0` is `s` without all variables but `xs`, and without all blocks but theirs. An access to anything else is undefined
in `s0`. -/
structure Only (xs : List Nat) (s s0 : State F) : Prop where
  kept : ∀ x ∈ xs, s0.vars (.user x) = s.vars (.user x)
  gone : ∀ x, x ∉ xs → s0.vars (.user x) = none
  locals : s0.vars .tmp = none ∧ s0.vars .arg = none ∧ s0.vars .ghost = none
  keptBlock : ∀ a, BlockOfVars s xs a → s0.heap.mem a = s.heap.mem a
  goneBlock : ∀ a, ¬ BlockOfVars s xs a → s0.heap.mem a = none
  next : s0.heap.next = s.heap.next
  plan : s0.heap.plan = s.heap.plan
  tick : s0.heap.tick = s.heap.tick

end Spec
