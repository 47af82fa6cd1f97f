import Verif.Model.Parts
import Verif.Model.Iterator
/-!
# Iterators of a value that changes

`Model/Iterator` has the positions of iterators; here an iterator also knows whether its container still has the place it was made
for. The rules are those of the standard library: a `std::vector` that grows beyond its capacity gives up all iterators, `erase`
gives up those at and after the place, insertion at the end gives up the one at the end; a `std::map` gives up the iterators of
erased members only. Any use of an iterator that was given up is undefined. One variable `c` with its iterators is modelled.
Memory does not run out and indices do not reach the largest size of a vector.
-/
namespace Configor

variable {F : Type}

/-- The data of a variable. Every position of a vector, its end included, has a mark, which is renewed when iterators at the
position are given up. A map and each of its members have numbers. Data of `basic_value`, value.hpp:71-79. -/
inductive LShape (F : Type) where
  | vec (xs : List (Value F)) (marks : List Nat) (cap : Nat)
  | map (home : Nat) (ms : Map.T (Nat × Value F))
  /-- not an array and not an object -/
  | plain (v : Value F)

/-- A variable `c`, and the next mark or number that was never used. Data of `basic_value`, value.hpp:71-79. -/
structure Live (F : Type) where
  next : Nat
  shape : LShape F

/-- The place of an iterator of a `std::map`: a member, or the end of a map. iterator.hpp:512. -/
inductive Spot where
  | node (id : Nat)
  | past (home : Nat)
  deriving DecidableEq

/-- `detail::iterator` of the variable `c`: iterator.hpp:510-514, as `Iter`, with the mark of a position of a vector. -/
structure LIter where
  arr : Option (Nat × Nat)
  obj : Option Spot
  prim : Int
  deriving DecidableEq

namespace Live

/-- The content of the variable. value.hpp:71-79. -/
def content (c : Live F) : Value F :=
  match c.shape with
  | .vec xs _ _ => .arr xs
  | .map _ ms => .obj (ms.map fun m => (m.1, m.2.2))
  | .plain v => v

/-- The capacity of the vector. value.hpp:56. -/
def capacity (c : Live F) : Nat :=
  match c.shape with
  | .vec _ _ cap => cap
  | _ => 0

/-- Where the iterator points to. It is undefined to use one whose place was given up, or a container iterator that was never set.
Uses of iterator.hpp:184-507. -/
def resolve (c : Live F) (it : LIter) : Except Stop Iter :=
  match c.shape with
  | .vec _ marks _ =>
    match it.arr with
    | some (p, m) => if marks[p]? = some m then .ok ⟨some 0, some p, none, it.prim⟩ else .error .ub
    | none => .error .ub
  | .map home ms =>
    match it.obj with
    | some (.node id) =>
      match ms.findIdx? (fun m => m.2.1 == id) with
      | some p => .ok ⟨some 0, none, some p, it.prim⟩
      | none => .error .ub
    | some (.past h) => if h = home then .ok ⟨some 0, none, some ms.length, it.prim⟩ else .error .ub
    | none => .error .ub
  | .plain _ => .ok ⟨some 0, none, none, it.prim⟩

/-- The iterator at the position that `it` has, made from `old`. Assignments to the members of iterator.hpp:510-514. -/
def place (c : Live F) (old : LIter) (it : Iter) : LIter :=
  match c.shape with
  | .vec _ marks _ => { old with arr := it.arrIt.bind fun p => marks[p]?.map fun m => (p, m) }
  | .map home ms =>
    { old with obj := it.objIt.map fun p => match ms[p]? with | some m => .node m.2.1 | none => .past home }
  | .plain _ => { old with prim := it.prim }

/-- `iterator(this)`, iterator.hpp:145-148. -/
def unset : LIter := ⟨none, none, 0⟩

/-- `begin()`, value.hpp:234-249. -/
def begin (c : Live F) : Except Stop LIter := do .ok (c.place unset (← c.content.begin 0))

/-- `end()`, value.hpp:250-265. -/
def fin (c : Live F) : Except Stop LIter := do .ok (c.place unset (← c.content.fin 0))

/-- `find(key)`, value.hpp:321-341. -/
def find (k : List Nat) (c : Live F) : Except Stop LIter := do .ok (c.place unset (← c.content.find 0 k))

/-- `*it`, iterator.hpp:194-219. -/
def deref (c : Live F) (it : LIter) : Except Stop (Value F) := do (← c.resolve it).deref c.content

/-- `it.key()`, iterator.hpp:184-192. -/
def key (c : Live F) (it : LIter) : Except Stop (List Nat) := do (← c.resolve it).key c.content

/-- `++it`, iterator.hpp:221-256. -/
def incr (c : Live F) (it : LIter) : Except Stop LIter := do .ok (c.place it (← (← c.resolve it).incr c.content))

/-- `it != jt`, iterator.hpp:353-380. -/
def ne (c : Live F) (it jt : LIter) : Except Stop Bool := do (← c.resolve it).ne c.content (← c.resolve jt)

/-- A vector with a new storage: all marks are new. `std::vector` at value.hpp:56, 440, 725. -/
def newVec (n : Nat) (xs : List (Value F)) (cap : Nat) : Live F :=
  ⟨n + 1, .vec xs (List.replicate (xs.length + 1) n) cap⟩

/-- A vector gets elements at its end: `emplace_back` and `insert`, value.hpp:440, 725. -/
def append (g : Growth) (n : Nat) (xs : List (Value F)) (marks : List Nat) (cap : Nat) (ys : List (Value F)) : Live F :=
  if xs.length + ys.length ≤ cap then
    ⟨n + 1, .vec (xs ++ ys) (marks.take xs.length ++ List.replicate (ys.length + 1) n) cap⟩
  else newVec n (xs ++ ys) (g cap (xs.length + ys.length))

/-- `std::vector::erase` of the element at `p`, value.hpp:363, 383. -/
def vecErase (n : Nat) (xs : List (Value F)) (marks : List Nat) (cap : Nat) (p : Nat) : Live F :=
  ⟨n + 1, .vec (xs.eraseIdx p) (marks.take p ++ List.replicate (xs.length - p) n) cap⟩

/-- New members with the given numbers. Copy of a `std::map`, value.hpp:689-697. -/
def number (n : Nat) : List (List Nat × Value F) → Map.T (Nat × Value F)
  | [] => []
  | (k, x) :: ms => (k, (n, x)) :: number (n + 1) ms

/-- A variable with new data of the given content, which has room for `spare` more elements. value.hpp:689-707. -/
def fresh (n spare : Nat) : Value F → Live F
  | .arr xs => newVec n xs (xs.length + spare)
  | .obj ms => ⟨n + 1 + ms.length, .map n (number (n + 1) ms)⟩
  | v => ⟨n, .plain v⟩

/-- `erase(it)`, value.hpp:366-390. -/
def erase (it : LIter) : M (Live F) LIter := fun c =>
  match c.resolve it with
  | .error e => (.error e, c)
  | .ok i =>
    match c.shape, i.arrIt, i.objIt with
    | .vec xs marks cap, some p, _ =>
      if p < xs.length then
        let d := vecErase c.next xs marks cap p
        (.ok (d.place unset ⟨some 0, some p, none, 0⟩), d)
      else (.error .ub, c)
    | .map home ms, _, some p =>
      if p < ms.length then
        let d : Live F := { c with shape := .map home (ms.eraseIdx p) }
        (.ok (d.place unset ⟨some 0, none, some p, 0⟩), d)
      else (.error .ub, c)
    | .plain _, _, _ => (.error (.exn .invalidIterator), c)
    | _, _, _ => (.error .ub, c)

/-- `*it = x`, iterator.hpp:194-219 and value.hpp:689-697: the content of the element is exchanged, the element stays. -/
def store (it : LIter) (x : Value F) : M (Live F) Unit := fun c =>
  match c.resolve it with
  | .error e => (.error e, c)
  | .ok i =>
    match i.deref c.content with
    | .error e => (.error e, c)
    | .ok _ =>
      match c.shape, i.arrIt, i.objIt with
      | .vec xs marks cap, some p, _ => (.ok (), { c with shape := .vec (xs.set p x) marks cap })
      | .map home ms, _, some p => (.ok (), { c with shape := .map home (ms.modify p fun m => (m.1, (m.2.1, x))) })
      | .plain _, _, _ => (.ok (), fresh c.next 0 x)
      | _, _, _ => (.error .ub, c)

end Live

/-- Changes of the variable. value.hpp:348-467, 689-746. -/
inductive Edit (F : Type) where
  /-- `c[k] = x` -/
  | put (k : List Nat) (x : Value F)
  /-- `c[i] = x` -/
  | setAt (i : Nat) (x : Value F)
  /-- `c.push_back(x)` -/
  | push (x : Value F)
  /-- `c.erase(k)` -/
  | eraseKey (k : List Nat)
  /-- `c.erase(i)` -/
  | eraseAt (i : Nat)
  /-- `c.clear()` -/
  | clear
  /-- `c = x`; the new array, if it is one, has room for `spare` more -/
  | assign (x : Value F) (spare : Nat)

namespace Live

/-- `c[k] = x` on a map, value.hpp:735-746, 766-779, 689-697. -/
def putMember (n home : Nat) (k : List Nat) (x : Value F) (ms : Map.T (Nat × Value F)) : Except Stop Unit × Live F :=
  let ms1 := Map.emplace k (n, .null) ms
  match Map.find k ms1 with
  | some m => (.ok (), ⟨n + 1, .map home (Map.assign k (m.1, x) ms1)⟩)
  | none => (.error .ub, ⟨n + 1, .map home ms1⟩)

/-- The elements are there: `c[i]`, value.hpp:711-728, for an array. -/
def touch (g : Growth) (i n : Nat) (xs : List (Value F)) (marks : List Nat) (cap : Nat) : Live F :=
  if i ≥ xs.length then append g n xs marks cap (List.replicate (i - xs.length + 1) .null)
  else ⟨n, .vec xs marks cap⟩

/-- `c[i] = x` on an array, value.hpp:711-728, 689-697. -/
def putElem (g : Growth) (i n : Nat) (x : Value F) (xs : List (Value F)) (marks : List Nat) (cap : Nat) : Except Stop Unit × Live F :=
  match touch g i n xs marks cap with
  | ⟨n', .vec ys marks' cap'⟩ => (.ok (), ⟨n', .vec (ys.set i x) marks' cap'⟩)
  | d => (.error .ub, d)

/-- The effect of a change, value.hpp:348-467, 689-746. -/
def act (fo : FloatOps F) (g : Growth) : Edit F → M (Live F) Unit
  | .put k x => fun c => match c.shape with
    | .plain .null => putMember (c.next + 1) c.next k x []
    | .map home ms => putMember c.next home k x ms
    | _ => (.error (.exn .invalidKey), c)
  | .setAt i x => fun c => match c.shape with
    | .plain .null => putElem g i (c.next + 1) x [] [c.next] 0
    | .vec xs marks cap => putElem g i c.next x xs marks cap
    | _ => (.error (.exn .invalidKey), c)
  | .push x => fun c => match c.shape with
    | .plain .null => (.ok (), append g (c.next + 1) [] [c.next] 0 [x])
    | .vec xs marks cap => (.ok (), append g c.next xs marks cap [x])
    | _ => (.error (.exn .typeError), c)
  | .eraseKey k => fun c => match c.shape with
    | .map home ms => (.ok (), { c with shape := .map home (Map.erase k ms) })
    | _ => (.error (.exn .invalidKey), c)
  | .eraseAt i => fun c => match c.shape with
    | .vec xs marks cap => if i < xs.length then (.ok (), vecErase c.next xs marks cap i) else (.error .ub, c)
    | _ => (.error (.exn .invalidKey), c)
  | .clear => fun c => match c.shape with
    | .vec _ _ cap => (.ok (), newVec c.next [] cap)
    | .map home _ => (.ok (), { c with shape := .map home [] })
    | .plain v => let r := ValueOps.clear fo v; (r.1, { c with shape := .plain r.2 })
  | .assign x spare => fun c => (.ok (), fresh c.next spare x)

/-- Changes one after the other, where the program catches exceptions; `none` if one of them is undefined. Uses of
value.hpp:348-467, 689-746. -/
def actAll (fo : FloatOps F) (g : Growth) : List (Edit F) → Live F → Option (Live F)
  | [], c => some c
  | ch :: cs, c =>
    match act fo g ch c with
    | (.ok _, d) => actAll fo g cs d
    | (.error (.exn _), d) => actAll fo g cs d
    | (.error _, _) => none

end Live
end Configor
