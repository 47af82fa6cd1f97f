import Verif.Model.LiveRange
import Verif.Model.Lives
/-!
# Iterators of several variables: arithmetic, ranges, and iterators of other variables

More functions for `Model/Lives`. The operators compare the variables that two iterators name. `erase` does not: it hands the container's
iterators to its own container, whatever variable they name, and what it returns names the variable it was called on.
-/
namespace Configor

variable {F : Type}

namespace Lives

/-- `--it`, iterator.hpp:258-293. -/
def decr (s : Lives F) (it : VIter) : Except Stop VIter := do .ok ⟨it.owner, ← (s.one it.owner).decr it.place⟩

/-- `it += off`, `it + off`, iterator.hpp:299-304, 310-338. -/
def plus (off : Int) (s : Lives F) (it : VIter) : Except Stop VIter := do .ok ⟨it.owner, ← (s.one it.owner).plus off it.place⟩

/-- `it - jt`, iterator.hpp:340-351. -/
def diff (s : Lives F) (it jt : VIter) : Except Stop Int :=
  if it.owner ≠ jt.owner then .error (.exn .invalidIterator) else (s.one it.owner).diff it.place jt.place

/-- `it < jt`, iterator.hpp:394-411. -/
def lt (s : Lives F) (it jt : VIter) : Except Stop Bool :=
  if it.owner ≠ jt.owner then .error (.exn .invalidIterator) else (s.one it.owner).lt it.place jt.place

/-- `x.erase(it)` for an iterator of any variable, value.hpp:366-390. -/
def eraseOf (x : Nat) (it : VIter) : M (Lives F) VIter := fun s =>
  match Live.erase it.place (s.one x) with
  | (.ok jt, c) => (.ok ⟨x, jt⟩, s.back x c)
  | (.error e, c) => (.error e, s.back x c)

/-- `x.erase(first, last)` for iterators of any variables, value.hpp:392-417. -/
def eraseRange (x : Nat) (first last : VIter) : M (Lives F) VIter := fun s =>
  match Live.eraseRange first.place last.place (s.one x) with
  | (.ok jt, c) => (.ok ⟨x, jt⟩, s.back x c)
  | (.error e, c) => (.error e, s.back x c)

end Lives
end Configor
