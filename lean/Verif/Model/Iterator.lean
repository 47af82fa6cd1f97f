import Verif.Model.ValueOps
/-!
# Iterators (include/configor/details/iterator.hpp)

An iterator holds the address of a value, an iterator into its array, an iterator into its
object and a number. Container iterators are positions; `none` is a singular iterator, any use
of which but copying is undefined. The functions take the current content `v` of the value the
iterator points to. Use of an iterator after a change of the value is in `Model/Live`.
-/
namespace Configor

variable {F : Type}

/-- `detail::iterator`, iterator.hpp:132-515 (members 510-514; `primitive_iterator`, 34-130).
Constant iterators behave alike. -/
structure Iter where
  target : Option Nat
  arrIt : Option Nat
  objIt : Option Nat
  prim : Int
  deriving DecidableEq, Repr

/-- The range of `ptrdiff_t`, `difference_type` of iterator.hpp:36. -/
def inPtrdiff (i : Int) : Bool := -9223372036854775808 ≤ i && i ≤ 9223372036854775807

namespace Iter

/-- `iterator(value_type*)`, iterator.hpp:145-148: container iterators are value-initialised. -/
def make (a : Option Nat) : Iter := ⟨a, none, none, 0⟩

/-- `check_data`, iterator.hpp:472-478. -/
def checkData (it : Iter) : Except Stop Unit :=
  if it.target = none then .error (.exn .invalidIterator) else .ok ()

/-- `set_begin`, iterator.hpp:414-441. -/
def setBegin (v : Value F) (it : Iter) : Except Stop Iter := do
  it.checkData
  match v with
  | .obj _ => .ok { it with objIt := some 0 }
  | .arr _ => .ok { it with arrIt := some 0 }
  | .null => .ok it
  | _ => .ok { it with prim := 0 }

/-- `set_end`, iterator.hpp:443-470. -/
def setEnd (v : Value F) (it : Iter) : Except Stop Iter := do
  it.checkData
  match v with
  | .obj ms => .ok { it with objIt := some ms.length }
  | .arr xs => .ok { it with arrIt := some xs.length }
  | .null => .ok it
  | _ => .ok { it with prim := 1 }

/-- Comparison of container iterators, iterator.hpp:369, 373, 485, 491. -/
def sameIt : Option Nat → Option Nat → Except Stop Bool
  | some p, some q => .ok (p == q)
  | _, _ => .error .ub

/-- `std::advance` on a container iterator of a container with `n` elements, iterator.hpp:236,
241, 273, 278, 323. -/
def advance (n : Nat) (off : Int) : Option Nat → Except Stop (Option Nat)
  | some p => if 0 ≤ p + off ∧ p + off ≤ n then .ok (some (p + off).toNat) else .error .ub
  | none => .error .ub

/-- `check_iterator`, iterator.hpp:480-507. -/
def checkIterator (v : Value F) (it : Iter) : Except Stop Unit :=
  match v with
  | .obj ms => do if (← sameIt it.objIt (some ms.length)) then .error (.exn .outOfRange) else .ok ()
  | .arr xs => do if (← sameIt it.arrIt (some xs.length)) then .error (.exn .outOfRange) else .ok ()
  | .null => .error (.exn .outOfRange)
  | _ => if it.prim ≠ 0 then .error (.exn .outOfRange) else .ok ()

/-- The member an object iterator points to, iterator.hpp:191, 202. -/
def member (ms : List (List Nat × Value F)) (p : Option Nat) : Except Stop (List Nat × Value F) :=
  match p with
  | some p => match ms[p]? with
    | some m => .ok m
    | none => .error .ub
  | none => .error .ub

/-- `key()`, iterator.hpp:184-192. -/
def key (v : Value F) (it : Iter) : Except Stop (List Nat) := do
  it.checkData
  it.checkIterator v
  match v with
  | .obj ms => do let m ← member ms it.objIt; .ok m.1
  | _ => .error (.exn .invalidIterator)

/-- `value()`, `operator*`, `operator->`, iterator.hpp:194-219: what the reference refers to. -/
def deref (v : Value F) (it : Iter) : Except Stop (Value F) := do
  it.checkData
  it.checkIterator v
  match v with
  | .obj ms => do let m ← member ms it.objIt; .ok m.2
  | .arr xs => match it.arrIt with
    | some p => match xs[p]? with
      | some x => .ok x
      | none => .error .ub
    | none => .error .ub
  | _ => .ok v

/-- `++primitive_it_`, `--primitive_it_`, `primitive_it_ += off`, iterator.hpp:52-56, 65-69, 95-99:
signed overflow is undefined. -/
def primAdd (it : Iter) (off : Int) : Except Stop Iter :=
  if inPtrdiff (it.prim + off) then .ok { it with prim := it.prim + off } else .error .ub

/-- `operator++`, iterator.hpp:228-256, and `operator--`, 265-293; `off` is 1 or -1. -/
def step (off : Int) (v : Value F) (it : Iter) : Except Stop Iter := do
  it.checkData
  match v with
  | .obj ms => do let p ← advance ms.length off it.objIt; .ok { it with objIt := p }
  | .arr xs => do let p ← advance xs.length off it.arrIt; .ok { it with arrIt := p }
  | .null => .ok it
  | _ => it.primAdd off

/-- `operator++`, iterator.hpp:221-256. -/
def incr (v : Value F) (it : Iter) : Except Stop Iter := it.step 1 v

/-- `operator--`, iterator.hpp:258-293. -/
def decr (v : Value F) (it : Iter) : Except Stop Iter := it.step (-1) v

/-- `operator+=`, iterator.hpp:310-338, and `operator+`, 299-304. -/
def plus (off : Int) (v : Value F) (it : Iter) : Except Stop Iter := do
  it.checkData
  match v with
  | .obj _ => .error (.exn .invalidIterator)
  | .arr xs => do let p ← advance xs.length off it.arrIt; .ok { it with arrIt := p }
  | .null => .ok it
  | _ => it.primAdd off

/-- `operator-=` and `operator-`, iterator.hpp:295-298, 306-309: the offset is negated first. -/
def minus (off : Int) (v : Value F) (it : Iter) : Except Stop Iter :=
  if inPtrdiff (-off) then it.plus (-off) v else .error .ub

/-- The difference of two iterators, iterator.hpp:340-351. -/
def diff (v : Value F) (it rhs : Iter) : Except Stop Int := do
  it.checkData
  rhs.checkData
  if it.target ≠ rhs.target then .error (.exn .invalidIterator)
  else match v with
    | .arr _ => match it.arrIt, rhs.arrIt with
      | some p, some q => .ok (p - q)
      | _, _ => .error .ub
    | _ => .error (.exn .invalidIterator)

/-- `operator==`, iterator.hpp:353-380. -/
def eq (v : Value F) (it other : Iter) : Except Stop Bool :=
  if it.target = none then .ok false
  else if it.target ≠ other.target then .ok false
  else match v with
    | .obj _ => sameIt it.objIt other.objIt
    | .arr _ => sameIt it.arrIt other.arrIt
    | _ => .ok (it.prim == other.prim)

/-- `operator<`, iterator.hpp:394-411. -/
def lt (v : Value F) (it other : Iter) : Except Stop Bool := do
  it.checkData
  other.checkData
  if it.target ≠ other.target then .error (.exn .invalidIterator)
  else match v with
    | .obj _ => .error (.exn .invalidIterator)
    | .arr _ => match it.arrIt, other.arrIt with
      | some p, some q => .ok (p < q)
      | _, _ => .error .ub
    | _ => .ok (it.prim < other.prim)

/-- `operator!=`, iterator.hpp:353-356. -/
def ne (v : Value F) (it other : Iter) : Except Stop Bool := do .ok (!(← it.eq v other))

/-- `operator>`, iterator.hpp:382-385. -/
def gt (v : Value F) (it other : Iter) : Except Stop Bool := other.lt v it

/-- `operator>=`, iterator.hpp:386-389. -/
def ge (v : Value F) (it other : Iter) : Except Stop Bool := do .ok (!(← it.lt v other))

/-- `operator<=`, iterator.hpp:390-393. -/
def le (v : Value F) (it other : Iter) : Except Stop Bool := do .ok (!(← other.lt v it))

end Iter

namespace Value

/-- `begin()` of the value at address `a`, value.hpp:234-249. -/
def begin (a : Nat) (v : Value F) : Except Stop Iter := (Iter.make (some a)).setBegin v

/-- `end()` of the value at address `a`, value.hpp:250-265. -/
def fin (a : Nat) (v : Value F) : Except Stop Iter := (Iter.make (some a)).setEnd v

/-- Position of a key in an object, or its length (`std::map::find`, value.hpp:326). -/
def position (k : List Nat) : List (List Nat × Value F) → Nat
  | [] => 0
  | (k', _) :: ms =>
    if ltKey k k' then ms.length + 1
    else if ltKey k' k then position k ms + 1
    else 0

/-- `find(key)`, value.hpp:321-341. -/
def find (a : Nat) (k : List Nat) (v : Value F) : Except Stop Iter :=
  match v with
  | .obj ms => .ok { Iter.make (some a) with objIt := some (position k ms) }
  | v => v.fin a

end Value

/-- `detail::reverse_iterator`, iterator.hpp:517-543, a `std::reverse_iterator`. -/
structure RIter where
  current : Iter
  deriving DecidableEq, Repr

namespace RIter

/-- `rbegin()`, value.hpp:266-277. -/
def rbegin (a : Nat) (v : Value F) : Except Stop RIter := do .ok ⟨← v.fin a⟩

/-- `rend()`, value.hpp:278-289. -/
def rend (a : Nat) (v : Value F) : Except Stop RIter := do .ok ⟨← v.begin a⟩

/-- `operator*` and `value()`: the element before `current`, iterator.hpp:539-542. -/
def deref (v : Value F) (r : RIter) : Except Stop (Value F) := do (← r.current.decr v).deref v

/-- `key()`, iterator.hpp:534-537. -/
def key (v : Value F) (r : RIter) : Except Stop (List Nat) := do (← r.current.decr v).key v

/-- `++` of `std::reverse_iterator`, the base of iterator.hpp:518, steps backwards. -/
def incr (v : Value F) (r : RIter) : Except Stop RIter := do .ok ⟨← r.current.decr v⟩

/-- `--` of `std::reverse_iterator`, the base of iterator.hpp:518, steps forwards. -/
def decr (v : Value F) (r : RIter) : Except Stop RIter := do .ok ⟨← r.current.incr v⟩

/-- `==` of `std::reverse_iterator`, the base of iterator.hpp:518. -/
def eq (v : Value F) (r s : RIter) : Except Stop Bool := r.current.eq v s.current

/-- `+=` and `+` of `std::reverse_iterator`, the base of iterator.hpp:518: `current - n`. -/
def plus (off : Int) (v : Value F) (r : RIter) : Except Stop RIter := do .ok ⟨← r.current.minus off v⟩

/-- `-=` and `-` of `std::reverse_iterator`, the base of iterator.hpp:518: `current + n`. -/
def minus (off : Int) (v : Value F) (r : RIter) : Except Stop RIter := do .ok ⟨← r.current.plus off v⟩

/-- The difference of two `std::reverse_iterator`s, the base of iterator.hpp:518. -/
def diff (v : Value F) (r s : RIter) : Except Stop Int := s.current.diff v r.current

/-- `<` of `std::reverse_iterator`, the base of iterator.hpp:518. -/
def lt (v : Value F) (r s : RIter) : Except Stop Bool := s.current.lt v r.current

end RIter

namespace ValueOps

/-- `erase(pos)` on the value at address `a`, value.hpp:366-390. The iterator must be
dereferenceable and belong to the value. -/
def eraseIter (a : Nat) (pos : Iter) : V F Iter := fun v =>
  match v.fin a with
  | .error e => (.error e, v)
  | .ok result =>
    match v with
    | .obj ms => match pos.objIt with
      | some p =>
        if pos.target = some a ∧ p < ms.length then
          (.ok { result with objIt := some p }, .obj (ms.eraseIdx p))
        else (.error .ub, .obj ms)
      | none => (.error .ub, .obj ms)
    | .arr xs => match pos.arrIt with
      | some p =>
        if pos.target = some a ∧ p < xs.length then
          (.ok { result with arrIt := some p }, .arr (xs.eraseIdx p))
        else (.error .ub, .arr xs)
      | none => (.error .ub, .arr xs)
    | v => (.error (.exn .invalidIterator), v)

/-- `erase(first, last)` on the value at address `a`, value.hpp:392-416. -/
def eraseRange (a : Nat) (first last : Iter) : V F Iter := fun v =>
  match v.fin a with
  | .error e => (.error e, v)
  | .ok result =>
    match v with
    | .obj ms => match first.objIt, last.objIt with
      | some p, some q =>
        if first.target = some a ∧ last.target = some a ∧ p ≤ q ∧ q ≤ ms.length then
          (.ok { result with objIt := some p }, .obj (ms.take p ++ ms.drop q))
        else (.error .ub, .obj ms)
      | _, _ => (.error .ub, .obj ms)
    | .arr xs => match first.arrIt, last.arrIt with
      | some p, some q =>
        if first.target = some a ∧ last.target = some a ∧ p ≤ q ∧ q ≤ xs.length then
          (.ok { result with arrIt := some p }, .arr (xs.take p ++ xs.drop q))
        else (.error .ub, .arr xs)
      | _, _ => (.error .ub, .arr xs)
    | v => (.error (.exn .invalidIterator), v)

end ValueOps
end Configor
