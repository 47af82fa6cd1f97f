import Verif.Spec.Threads
import Verif.Model.Steps
/-!
# Threads that are interrupted between any two steps
-/
namespace Spec
open Configor

variable {F : Type}

/-- A command as a sequence of steps; compare `Cmd.run`. -/
def Cmd.steps (fo : FloatOps F) : Cmd F → Prog (State F) Unit
  | .new x v => Steps.construct (.user x) v
  | .copy x r => do Steps.copyConstruct (.user x) (← Steps.ref (.user r.var) r.path)
  | .move x r => do Steps.moveConstruct (.user x) (← Steps.ref (.user r.var) r.path)
  | .delete x => Steps.destruct (.user x)
  | .copyAssign d r => do
    Steps.copyAssign (← Steps.ref (.user d.var) d.path) (← Steps.ref (.user r.var) r.path)
  | .moveAssign d r => do
    Steps.moveAssign (← Steps.ref (.user d.var) d.path) (← Steps.ref (.user r.var) r.path)
  | .swap d r => do
    Steps.swap (← Steps.ref (.user d.var) d.path) (← Steps.ref (.user r.var) r.path)
  | .clear d => do Steps.clear (fo.ofInt 0) (← Steps.ref (.user d.var) d.path)
  | .push d r => do
    Steps.pushBack (← Steps.ref (.user d.var) d.path) (← Steps.ref (.user r.var) r.path)
  | .pushMove d r => do
    Steps.pushMove (← Steps.ref (.user d.var) d.path) (← Steps.ref (.user r.var) r.path)
  | .key d k => do Steps.touchKey (← Steps.ref (.user d.var) d.path) k
  | .index d i => do Steps.touchIndex (← Steps.ref (.user d.var) d.path) i
  | .erase d i => do Steps.eraseAt (← Steps.ref (.user d.var) d.path) i

/-- Commands one after the other, until one fails. -/
def Cmd.allSteps (fo : FloatOps F) : List (Cmd F) → Prog (State F) Unit
  | [] => pure ()
  | c :: cs => do
    Cmd.steps fo c
    allSteps fo cs

/-- Thread `i` is to execute the commands `prog i`; the memory is that of `s`. -/
def launch (fo : FloatOps F) (prog : Nat → List (Cmd F)) (s : State F) : Threads F :=
  ⟨fun i => Cmd.allSteps fo (prog i), Joint.of s⟩

/-- Thread `i` changes only variables of its own (`owner x = some i`) and names no variables but its own and those
that no thread may change (`owner x = none`). -/
def KeepsTo (owner : Nat → Option Nat) (prog : Nat → List (Cmd F)) : Prop :=
  ∀ i, ∀ c ∈ prog i, (∀ x ∈ c.targets, owner x = some i) ∧ ∀ x ∈ c.vars, owner x = some i ∨ owner x = none

/-- In memory `s`, the variable `x` has the content `v`, or is not alive. -/
def Has (s : State F) (x : Nat) (v : Option (Value F)) : Prop :=
  match s.vars (.user x), v with
  | none, none => True
  | some c, some v => ∃ n fp, Repr s.heap.mem n c v fp
  | _, _ => False

end Spec
