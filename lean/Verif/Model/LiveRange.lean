import Verif.Model.Live
/-!
# Iterators of a value that changes: arithmetic, and ranges

More functions for `Model/Live`. An iterator of an object that was given up is not looked at by the operators that refuse objects.
-/
namespace Configor

variable {F : Type}

namespace Live

/-- `--it`, iterator.hpp:258-293. -/
def decr (c : Live F) (it : LIter) : Except Stop LIter := do .ok (c.place it (← (← c.resolve it).decr c.content))

/-- `it += off`, `it + off`, iterator.hpp:299-304, 310-338. -/
def plus (off : Int) (c : Live F) (it : LIter) : Except Stop LIter :=
  match c.shape with
  | .map _ _ => .error (.exn .invalidIterator)
  | _ => do .ok (c.place it (← (← c.resolve it).plus off c.content))

/-- `it -= off`, `it - off`, iterator.hpp:295-298, 306-309: the offset is negated first. -/
def minus (off : Int) (c : Live F) (it : LIter) : Except Stop LIter := if inPtrdiff (-off) then c.plus (-off) it else .error .ub

/-- `it - jt`, iterator.hpp:340-351. -/
def diff (c : Live F) (it jt : LIter) : Except Stop Int :=
  match c.shape with
  | .vec _ _ _ => do (← c.resolve it).diff c.content (← c.resolve jt)
  | _ => .error (.exn .invalidIterator)

/-- `it < jt`, iterator.hpp:394-411. -/
def lt (c : Live F) (it jt : LIter) : Except Stop Bool :=
  match c.shape with
  | .map _ _ => .error (.exn .invalidIterator)
  | _ => do (← c.resolve it).lt c.content (← c.resolve jt)

/-- `std::vector::erase` of the elements from `p` up to `q`, value.hpp:410: the iterators at and after `p` are given up. (libstdc++ keeps
them if the range is empty, which the standard does not promise.) -/
def vecEraseRange (n : Nat) (xs : List (Value F)) (marks : List Nat) (cap : Nat) (p q : Nat) : Live F :=
  ⟨n + 1, .vec (xs.take p ++ xs.drop q) (marks.take p ++ List.replicate (xs.length - q + 1) n) cap⟩

/-- `erase(first, last)`, value.hpp:392-417. It is undefined unless `last` is reachable from `first`. -/
def eraseRange (first last : LIter) : M (Live F) LIter := fun c =>
  match c.shape with
  | .plain _ => (.error (.exn .invalidIterator), c)
  | .vec xs marks cap =>
    match c.resolve first, c.resolve last with
    | .ok ⟨_, some p, _, _⟩, .ok ⟨_, some q, _, _⟩ =>
      if p ≤ q then
        let d := vecEraseRange c.next xs marks cap p q
        (.ok (d.place unset ⟨some 0, some p, none, 0⟩), d)
      else (.error .ub, c)
    | _, _ => (.error .ub, c)
  | .map home ms =>
    match c.resolve first, c.resolve last with
    | .ok ⟨_, _, some p, _⟩, .ok ⟨_, _, some q, _⟩ =>
      if p ≤ q then
        let d : Live F := { c with shape := .map home (ms.take p ++ ms.drop q) }
        (.ok (d.place unset ⟨some 0, none, some p, 0⟩), d)
      else (.error .ub, c)
    | _, _ => (.error .ub, c)

end Live
end Configor
