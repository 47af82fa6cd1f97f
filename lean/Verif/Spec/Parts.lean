import Verif.Model.Parts
/-!
# What copying between parts of one value should do

The parts of a value are its elements or its members. `c[…]` makes the parts that are missing, with the content null.
-/
namespace Spec
open Configor (Value PartAt Held)

variable {F : Type}

/-- The content of a part. -/
def piece : Value F → PartAt → Option (Value F)
  | .arr xs, .index i => xs[i]?
  | .obj ms, .key k => ms.lookup k
  | _, _ => none

/-- `c[x]` makes the part `a` if it is missing: an element and all before it, or a member. -/
def MadeBy : PartAt → PartAt → Prop
  | .index i, .index j => j ≤ i
  | .key k, .key l => l = k
  | _, _ => False

/-- A value that `c[x]` can be used with: null, or a container of the right kind. -/
def Indexable : Value F → PartAt → Prop
  | .null, _ => True
  | .arr _, .index _ => True
  | .obj _, .key _ => True
  | _, _ => False

/-- `v'` is `v` with the missing parts at `x` and `y` made, and then the content of `y` copied to `x`. -/
structure CopiedPart (v v' : Value F) (x y : PartAt) : Prop where
  target : piece v' x = some ((piece v y).getD .null)
  kept : ∀ a u, a ≠ x → piece v a = some u → piece v' a = some u
  made : ∀ a, a ≠ x → piece v a = none → MadeBy x a ∨ MadeBy y a → piece v' a = some .null
  noMore : ∀ a, a ≠ x → piece v a = none → ¬ (MadeBy x a ∨ MadeBy y a) → piece v' a = none

/-- `v'` is `v` with the missing parts at `x` and `y` made, and then the content of `y` moved to `x`, which leaves null. -/
structure MovedPart (v v' : Value F) (x y : PartAt) : Prop where
  target : piece v' x = some ((piece v y).getD .null)
  source : x ≠ y → piece v' y = some .null
  kept : ∀ a u, a ≠ x → a ≠ y → piece v a = some u → piece v' a = some u
  made : ∀ a, a ≠ x → a ≠ y → piece v a = none → MadeBy x a ∨ MadeBy y a → piece v' a = some .null
  noMore : ∀ a, a ≠ x → piece v a = none → ¬ (MadeBy x a ∨ MadeBy y a) → piece v' a = none

/-- A variable as the program can have it: the elements fit into the storage, the members are in the order of the keys. -/
def Sound : Held F → Prop
  | .vec v => v.elems.length ≤ v.cap
  | .obj ms => ms.Pairwise fun a b => a.1 < b.1
  | .plain (.arr _) => False
  | .plain (.obj _) => False
  | .plain _ => True

/-- How many elements fit into the storage of a variable. -/
def capacity : Held F → Nat
  | .vec v => v.cap
  | _ => 0

/-- The indices of `c[x] = c[y]`: the one that is evaluated first, and the one that is evaluated second. -/
def evalOrder : Configor.Side → Nat → Nat → Nat × Nat
  | .left, x, y => (x, y)
  | .right, x, y => (y, x)

end Spec
