import Verif.Model.Live
/-!
# Iterators of several variables

`Model/Live` has one variable. Here several variables exchange what they hold. An iterator keeps a pointer to the variable it was made
from (iterator.hpp:510) and an iterator of the container that the variable held then. `swap` and moves hand the containers
over, so that the second stays usable for the container, but the first still names the old variable. To use the second together with
another container, e.g. to compare it with the end of that, is undefined.
-/
namespace Configor

variable {F : Type}

/-- The data of variables, numbered, and the next mark or number that was never used. Variables of type `basic_value`,
value.hpp:71-79. -/
structure Lives (F : Type) where
  next : Nat
  vars : Nat → LShape F

/-- `detail::iterator`, iterator.hpp:510-514: `owner` is `value_`. -/
structure VIter where
  owner : Nat
  place : LIter
  deriving DecidableEq

/-- Operations on variables. value.hpp:348-467, 680-746. -/
inductive Deal (F : Type) where
  /-- a change of `x` alone -/
  | edit (x : Nat) (e : Edit F)
  /-- `x.swap(y)` -/
  | swap (x y : Nat)
  /-- `x = y`; the new array, if it is one, has room for `spare` more -/
  | copy (x y spare : Nat)
  /-- `x = std::move(y)` -/
  | move (x y : Nat)

namespace Lives

/-- One of the variables. value.hpp:71-79. -/
def one (s : Lives F) (x : Nat) : Live F := ⟨s.next, s.vars x⟩

/-- The variables after one of them has changed. value.hpp:71-79. -/
def back (s : Lives F) (x : Nat) (c : Live F) : Lives F := ⟨c.next, fun y => if y = x then c.shape else s.vars y⟩

/-- The content of a variable. value.hpp:71-79. -/
def content (s : Lives F) (x : Nat) : Value F := (s.one x).content

/-- `x.begin()`, value.hpp:234-249. -/
def begin (s : Lives F) (x : Nat) : Except Stop VIter := do .ok ⟨x, ← (s.one x).begin⟩

/-- `x.end()`, value.hpp:250-265. -/
def fin (s : Lives F) (x : Nat) : Except Stop VIter := do .ok ⟨x, ← (s.one x).fin⟩

/-- `*it`, iterator.hpp:194-219. -/
def deref (s : Lives F) (it : VIter) : Except Stop (Value F) := (s.one it.owner).deref it.place

/-- `it.key()`, iterator.hpp:184-192. -/
def key (s : Lives F) (it : VIter) : Except Stop (List Nat) := (s.one it.owner).key it.place

/-- `++it`, iterator.hpp:221-256. -/
def incr (s : Lives F) (it : VIter) : Except Stop VIter := do .ok ⟨it.owner, ← (s.one it.owner).incr it.place⟩

/-- `it != jt`, iterator.hpp:353-380. -/
def ne (s : Lives F) (it jt : VIter) : Except Stop Bool :=
  if it.owner ≠ jt.owner then .ok true else (s.one it.owner).ne it.place jt.place

/-- `x.erase(it)` for an iterator of `x`, value.hpp:366-390. -/
def erase (it : VIter) : M (Lives F) VIter := fun s =>
  match Live.erase it.place (s.one it.owner) with
  | (.ok jt, c) => (.ok ⟨it.owner, jt⟩, s.back it.owner c)
  | (.error e, c) => (.error e, s.back it.owner c)

/-- `*it = v`, iterator.hpp:194-219 and value.hpp:689-697. -/
def store (it : VIter) (v : Value F) : M (Lives F) Unit := fun s =>
  match Live.store it.place v (s.one it.owner) with
  | (r, c) => (r, s.back it.owner c)

/-- The variables `x` and `y` exchange their data, value.hpp:680-685. -/
def exchange (x y : Nat) (s : Lives F) : Lives F :=
  ⟨s.next, fun z => if z = x then s.vars y else if z = y then s.vars x else s.vars z⟩

/-- The effect of an operation: value.hpp:348-467, 711-746 for changes, 680-685 for `swap`, 689-697 and 699-707 for the assignments,
which do nothing if both sides are the same variable. -/
def deal (fo : FloatOps F) (g : Growth) : Deal F → M (Lives F) Unit
  | .edit x e => fun s => match Live.act fo g e (s.one x) with | (r, c) => (r, s.back x c)
  | .swap x y => fun s => (.ok (), exchange x y s)
  | .copy x y spare => fun s =>
    if x = y then (.ok (), s) else (.ok (), s.back x (Live.fresh s.next spare (s.content y)))
  | .move x y => fun s =>
    if x = y then (.ok (), s) else (.ok (), exchange x y (s.back x ⟨s.next, .plain .null⟩))

/-- Operations one after the other, where the program catches exceptions; `none` if one of them is undefined. Uses of
value.hpp:348-467, 680-746. -/
def dealAll (fo : FloatOps F) (g : Growth) : List (Deal F) → Lives F → Option (Lives F)
  | [], s => some s
  | d :: ds, s =>
    match deal fo g d s with
    | (.ok _, t) => dealAll fo g ds t
    | (.error (.exn _), t) => dealAll fo g ds t
    | (.error _, _) => none

end Lives
end Configor
