import Verif.Spec.Heap
import Verif.Model.Api
/-!
# Parsing into memory: what is said about a call
-/
namespace Spec
open Configor

variable {F : Type}

/-- Every allocation between the two states succeeded. -/
def NoFailure (s s' : State F) : Prop := ∀ t, s.heap.tick ≤ t → t < s'.heap.tick → s.heap.plan t = true

/-- The call was ended by an exception, `std::bad_alloc` or a deserialization error, or by one of these that the error
handler swallowed. -/
def GivenUp (h : Option Handler) (r : Except Stop Unit) : Prop :=
  ∃ e, (e = .badAlloc ∨ e = .deserialization) ∧ (r = .error (.exn e) ∨ (r = .ok () ∧ ∃ h', h = some h' ∧ h'.swallows e = true))

/-- The blocks in `L'` are those in `L` and some that were allocated and never used. -/
def LosesOnlyUnused (s : State F) (L L' : Nat → Prop) : Prop :=
  (∀ a, L a → L' a) ∧ ∀ a, L' a → L a ∨ s.heap.mem a = some .raw

end Spec
