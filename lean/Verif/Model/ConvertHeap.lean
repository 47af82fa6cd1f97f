import Verif.Model.Heap
/-!
# Conversions in memory (include/configor/details/conversion.hpp, value.hpp)

`to_value` and the constructor and assignments that call it, as in `Model/Convert.lean`, but on values in memory. What is converted
is given by its shape: which `to_value` the compiler picks for a type, and for the types of its parts, is known when the
program is compiled.

A local value of a call is a variable: the value being made is variable `k`, and the temporaries that `to_value` makes for parts of
it are variables from `k + 1` on.
-/
namespace Configor

variable {F : Type}

/-- A C++ object that is converted, by the `to_value` for its type. conversion.hpp:55-108, 181-245, 219-481, 786-833. -/
inductive Obj (F : Type) where
  /-- a null pointer, conversion.hpp:219-231, 247-259 -/
  | null
  /-- `bool`, conversion.hpp:55-60 -/
  | bool (b : Bool)
  /-- integers, conversion.hpp:62-69 -/
  | int (i : Int)
  /-- floating point numbers, conversion.hpp:71-75 -/
  | flt (f : F)
  /-- strings and what converts to strings, conversion.hpp:77-96 -/
  | str (s : List Nat)
  /-- a `basic_value`: the part at a path of a variable -/
  | value (x : Nat) (p : List Nat)
  /-- a pointer to an object, conversion.hpp:219-231, 247-259 -/
  | ptr (o : Obj F)
  /-- arrays, vectors, lists, sets and the like, conversion.hpp:181-193, 275-431 -/
  | seq (os : List (Obj F))
  /-- maps with string keys, conversion.hpp:433-481 -/
  | map (ms : List (List Nat × Obj F))
  /-- a class with `CONFIGOR_BIND`: the fields that are written, with their names, conversion.hpp:786-793, 824-827 -/
  | bound (ms : List (List Nat × Obj F))
  /-- an object of a class of the program, whose own `to_value` throws -/
  | throws (e : Err)

/-- Which operand is evaluated first in `c[i] = v` (before C++17 the compiler may choose; since then the right one) and in
`c[name].operator=(v.field)` (since C++17 the left one). conversion.hpp:191, 286, 442, 786. -/
structure Order where
  leftFirst : Bool
  macroLeftFirst : Bool

namespace State

/-- `value_constructor::reset` on a variable, value.hpp:1022-1028. Between `destroy` and the end of `construct` the value
has a type but no data of that type, and that is how it stays if `construct` throws; whatever is done with it
then is undefined, as with a variable that does not live. -/
def reset (x : Var) (v : Value F) : M (State F) Unit := do
  destruct x
  construct x v

/-- The body of a constructor that throws: the object has never lived, so its destructor is not called, and what it owned stays
allocated. value.hpp:155-163. -/
def abandoning (x : Var) (m : M (State F) Unit) : M (State F) Unit := fun s =>
  match m s with
  | (.ok _, s) => (.ok (), s)
  | (.error e, s) =>
    match forget x s with
    | (.ok _, s) => (.error e, s)
    | (.error e', s) => (.error e', s)

/-- `basic_value(_CompatibleTy&& value)`, value.hpp:155-163: variable `x`, where `m` is the call of `to_value` for it. -/
def making (x : Var) (m : M (State F) Unit) : M (State F) Unit := do
  declare x .null
  abandoning x m

/-- If `m` does not end normally, a temporary is destroyed on the way out. For conversion.hpp:191, 442. -/
def leavingTemp (x : Var) (m : M (State F) Unit) : M (State F) Unit := fun s =>
  match m s with
  | (.ok _, s) => (.ok (), s)
  | (.error e, s) =>
    match destruct x s with
    | (.ok _, s) => (.error e, s)
    | (.error e', s) => (.error e', s)

/-- `operator=(basic_value&&)` with a temporary, variable `t`, that is destroyed afterwards. value.hpp:699-707. -/
def moveFrom (dst : M (State F) Loc) (t : Nat) : M (State F) Unit := do
  moveAssign (← dst) (← ref (.user t) [])
  destruct (.user t)

/-- `d = o`, for a reference `d` that is there: a value is copied, anything else is converted to a temporary first.
conversion.hpp:225, 229, value.hpp:689-707. `m` is the call of `to_value` for the temporary `t`. -/
def assignObj (dst : M (State F) Loc) (t : Nat) (o : Obj F) (m : M (State F) Unit) : M (State F) Unit :=
  match o with
  | .value x p => do copyAssign (← dst) (← ref (.user x) p)
  | _ => do
    making (.user t) m
    moveFrom dst t

/-- `c[i] = o` or `c[key] = o`. `touch` is the call of `operator[]` and `dst` is the place it gives; nothing else happens to
`c` until the assignment. conversion.hpp:191, 286, 442, 786. -/
def assignPart (leftFirst : Bool) (touch : M (State F) Unit) (dst : M (State F) Loc) (t : Nat) (o : Obj F) (m : M (State F) Unit) :
    M (State F) Unit :=
  match o with
  | .value _ _ => do
    touch
    assignObj dst t o m
  | _ =>
    if leftFirst then do
      touch
      making (.user t) m
      moveFrom dst t
    else do
      making (.user t) m
      leavingTemp (.user t) touch
      moveFrom dst t

/-- The place of the member `key` of variable `x`. `(*data().object)[key]`, value.hpp:745. -/
def member (x : Nat) (key : List Nat) : M (State F) Loc := do
  match (← read (.var (.user x))) with
  | .obj a => do
    let ms ← onHeap (Heap.map a)
    ref (.user x) [(ms.map Prod.fst).idxOf key]
  | _ => M.stop .ub

mutual

/-- `to_value(c, o)` where `c` is variable `k`. conversion.hpp:55-96, 181-193, 219-481, 786-793, 824-827. -/
def toValue (d : Order) (k : Nat) : Obj F → M (State F) Unit
  | .null => do
    construct (.user (k + 1)) .null
    moveFrom (ref (.user k) []) (k + 1)
  | .bool b => reset (.user k) (.bool b)
  | .int i => reset (.user k) (.int i)
  | .flt f => reset (.user k) (.flt f)
  | .str s => reset (.user k) (.str s)
  | .value x p => do copyAssign (← ref (.user k) []) (← ref (.user x) p)
  | .ptr o => assignObj (ref (.user k) []) (k + 1) o (toValue d (k + 1) o)
  | .seq os => do
    reset (.user k) (.arr [])
    putItems d k 0 os
  | .map ms => do
    reset (.user k) (.obj [])
    putMembers d d.leftFirst k ms
  | .bound ms => putMembers d d.macroLeftFirst k ms
  | .throws e => M.throw e

/-- The loop `c[i] = v[i]`, conversion.hpp:189-192, 284-287 and the like. -/
def putItems (d : Order) (k i : Nat) : List (Obj F) → M (State F) Unit
  | [] => pure ()
  | o :: os => do
    assignPart d.leftFirst (do touchIndex (← ref (.user k) []) i) (ref (.user k) [i]) (k + 1) o (toValue d (k + 1) o)
    putItems d k (i + 1) os

/-- The loop `c[p.first] = p.second`, conversion.hpp:440-443, 465-468, and the statements of `CONFIGOR_BIND`, 786-793. -/
def putMembers (d : Order) (left : Bool) (k : Nat) : List (List Nat × Obj F) → M (State F) Unit
  | [] => pure ()
  | (key, o) :: ms => do
    assignPart left (do touchKey (← ref (.user k) []) key) (member k key) (k + 1) o (toValue d (k + 1) o)
    putMembers d left k ms

end

/-- `basic_value x(o)`, where `x` is variable `k`: the copy constructor, value.hpp:117-145, or the converting one, 155-163. -/
def constructFrom (d : Order) (k : Nat) (o : Obj F) : M (State F) Unit :=
  match o with
  | .value x p => do copyConstruct (.user k) (← ref (.user x) p)
  | _ => making (.user k) (toValue d k o)

/-- `dst = o`, where `dst` is the part at path `p` of variable `x`, with the temporary `t`. value.hpp:689-707, 155-163. -/
def assignFrom (d : Order) (x : Nat) (p : List Nat) (t : Nat) (o : Obj F) : M (State F) Unit :=
  assignObj (ref (.user x) p) t o (toValue d t o)

end State
end Configor
