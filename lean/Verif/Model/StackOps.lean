import Verif.Model.Serializer
import Verif.Model.ValueOps
import Verif.Model.Heap
/-!
# Dumping, comparing, copying and destroying with a bounded stack; how many comparisons are made

`do_dump`, `operator==`, `operator<`, the copy constructor and the destructor of `basic_value` call themselves for the elements of
arrays and objects. The functions here have room for a number of nested calls; if it does not suffice, they end with `fuel`, or with
`none` where the original cannot fail. All other functions call each other to a fixed depth only.
-/
namespace Configor

variable {F : Type}

namespace Serializer
variable (A : DumpArgs F)

/-- The loop over an array, serializer.hpp:143-152, given `do_dump`. -/
def elemsBy (d : Value F → M Ser Unit) : List (Value F) → M Ser Unit
  | [] => pure ()
  | x :: xs => do
    d x
    if xs.isEmpty then pure () else next A .valueSeparator
    elemsBy d xs

/-- The loop over an object, serializer.hpp:112-127, given `do_dump`. -/
def membersBy (d : Value F → M Ser Unit) : List (List Nat × Value F) → M Ser Unit
  | [] => pure ()
  | (k, v) :: ms => do
    next A .valueString
    putString A k
    next A .nameSeparator
    d v
    if ms.isEmpty then pure () else next A .valueSeparator
    membersBy d ms

/-- `do_dump`, serializer.hpp:97-197, with room for `n` nested calls. -/
def doDumpWithin : Nat → Value F → M Ser Unit
  | 0, _ => M.stop .fuel
  | n + 1, .obj ms => do
    next A .beginObject
    membersBy A (doDumpWithin n) ms
    next A .endObject
  | n + 1, .arr xs => do
    next A .beginArray
    elemsBy A (doDumpWithin n) xs
    next A .endArray
  | _ + 1, .str s => do next A .valueString; putString A s
  | _ + 1, .bool b => next A (if b then .literalTrue else .literalFalse)
  | _ + 1, .int i => do next A .valueInteger; putInteger i
  | _ + 1, .flt f => do next A .valueFloat; putFloat A f
  | _ + 1, .null => next A .literalNull

/-- `basic_serializer::dump`, serializer.hpp:57-71. -/
def dumpWithin (n : Nat) (h : Option Handler) (v : Value F) : M Ser Unit := fun s =>
  match (do doDumpWithin A n v; next A .endOfInput : M Ser Unit) s, h with
  | (.error (.exn e), s), some h => if h.swallows e then (.ok (), s) else (.error (.exn e), s)
  | r, _ => r

end Serializer

/-- `json::dump(str, v, options)`, serializer.hpp:235-242, with room for `n` nested calls of `do_dump`. -/
def jsonDumpWithin (A : DumpArgs F) (n : Nat) (h : Option Handler) (str : List Nat) (v : Value F) : Except Stop Unit × List Nat :=
  let r := Serializer.dumpWithin A n h v (Serializer.init A str)
  (r.1, r.2.os.out)

/-- `std::equal` with a comparison of elements. Used by `operator==` of `std::vector` at value.hpp:828. -/
def equalBy {α : Type} (e : α → α → Option Bool) : List α → List α → Option Bool
  | x :: xs, y :: ys =>
    match e x y with
    | some true => equalBy e xs ys
    | r => r
  | _, _ => some true

/-- `operator==` of `std::pair`, for `operator==` of `std::map` at value.hpp:830. -/
def pairBy (e : Value F → Value F → Option Bool) (p q : List Nat × Value F) : Option Bool :=
  if p.1 == q.1 then e p.2 q.2 else some false

/-- `operator==`, value.hpp:821-854, with room for `n` nested calls. The containers compare their sizes first. -/
def Value.eqWithin (fo : FloatOps F) : Nat → Value F → Value F → Option Bool
  | 0, _, _ => none
  | n + 1, .arr xs, .arr ys => if xs.length = ys.length then equalBy (eqWithin fo n) xs ys else some false
  | n + 1, .obj xs, .obj ys => if xs.length = ys.length then equalBy (pairBy (eqWithin fo n)) xs ys else some false
  | _ + 1, .null, .null => some true
  | _ + 1, .str s, .str t => some (s == t)
  | _ + 1, .bool a, .bool b => some (a == b)
  | _ + 1, .int a, .int b => some (a == b)
  | _ + 1, .flt a, .flt b => some (fo.eq a b)
  | _ + 1, .int a, .flt b => some (fo.eq (fo.ofInt a) b)
  | _ + 1, .flt a, .int b => some (fo.eq a (fo.ofInt b))
  | _ + 1, _, _ => some false

/-- `std::lexicographical_compare` with a comparison of elements. Used by `operator<` of containers at value.hpp:899, 902. -/
def lexBy {α : Type} (l : α → α → Option Bool) : List α → List α → Option Bool
  | [], [] => some false
  | [], _ :: _ => some true
  | _ :: _, [] => some false
  | x :: xs, y :: ys =>
    match l x y with
    | none => none
    | some true => some true
    | some false =>
      match l y x with
      | none => none
      | some true => some false
      | some false => lexBy l xs ys

/-- `operator<` of `std::pair`, for `operator<` of `std::map` at value.hpp:902. -/
def pairLess (l : Value F → Value F → Option Bool) (p q : List Nat × Value F) : Option Bool :=
  if ltKey p.1 q.1 then some true else if ltKey q.1 p.1 then some false else l p.2 q.2

/-- `operator<`, value.hpp:889-933, with room for `n` nested calls. -/
def Value.ltWithin (fo : FloatOps F) : Nat → Value F → Value F → Option Bool
  | 0, _, _ => none
  | n + 1, .arr xs, .arr ys => lexBy (ltWithin fo n) xs ys
  | n + 1, .obj xs, .obj ys => lexBy (pairLess (ltWithin fo n)) xs ys
  | _ + 1, .null, .null => some false
  | _ + 1, .str s, .str t => some (ltKey s t)
  | _ + 1, .bool a, .bool b => some (!a && b)
  | _ + 1, .int a, .int b => some (a < b)
  | _ + 1, .flt a, .flt b => some (fo.lt a b)
  | _ + 1, .int a, .flt b => some (fo.lt (fo.ofInt a) b)
  | _ + 1, .flt a, .int b => some (fo.lt a (fo.ofInt b))
  | _ + 1, _, _ => some false

namespace State

/-- The destructor, value.hpp:165-169, 1037-1053, for values nested at most `n` deep. -/
def destructWithin (n : Nat) (x : Var) : M (State F) Unit := do
  let c ← read (.var x)
  onHeap (Heap.destroy n c)
  forget x

/-- The copy constructor, value.hpp:117-145, for values nested at most `n` deep. -/
def copyConstructWithin (n : Nat) (x : Var) (src : Loc) : M (State F) Unit := do
  let c ← read src
  let c' ← onHeap (Heap.copy n c)
  declare x c'

end State

mutual
/-- `operator==`, value.hpp:821-854, and how many calls of it were made, itself included. -/
def Value.eqCounted (fo : FloatOps F) : Value F → Value F → Bool × Nat
  | .arr xs, .arr ys =>
    if xs.length = ys.length then
      let r := eqElemsCounted fo xs ys
      (r.1, 1 + r.2)
    else (false, 1)
  | .obj xs, .obj ys =>
    if xs.length = ys.length then
      let r := eqMembersCounted fo xs ys
      (r.1, 1 + r.2)
    else (false, 1)
  | .null, .null => (true, 1)
  | .str s, .str t => (s == t, 1)
  | .bool a, .bool b => (a == b, 1)
  | .int a, .int b => (a == b, 1)
  | .flt a, .flt b => (fo.eq a b, 1)
  | .int a, .flt b => (fo.eq (fo.ofInt a) b, 1)
  | .flt a, .int b => (fo.eq a (fo.ofInt b), 1)
  | _, _ => (false, 1)

/-- `std::equal` on the elements of vectors, value.hpp:828: up to the first difference. -/
def eqElemsCounted (fo : FloatOps F) : List (Value F) → List (Value F) → Bool × Nat
  | x :: xs, y :: ys =>
    let a := Value.eqCounted fo x y
    if a.1 then
      let r := eqElemsCounted fo xs ys
      (r.1, a.2 + r.2)
    else a
  | _, _ => (true, 0)

/-- `std::equal` on the members of maps, value.hpp:830: keys are compared first. -/
def eqMembersCounted (fo : FloatOps F) : List (List Nat × Value F) → List (List Nat × Value F) → Bool × Nat
  | (k, x) :: xs, (l, y) :: ys =>
    if k == l then
      let a := Value.eqCounted fo x y
      if a.1 then
        let r := eqMembersCounted fo xs ys
        (r.1, a.2 + r.2)
      else a
    else (false, 0)
  | _, _ => (true, 0)
end

mutual
/-- `operator<`, value.hpp:889-933, and how many calls of it were made, itself included. -/
def Value.ltCounted (fo : FloatOps F) : Value F → Value F → Bool × Nat
  | .arr xs, .arr ys =>
    let r := ltElemsCounted fo xs ys
    (r.1, 1 + r.2)
  | .obj xs, .obj ys =>
    let r := ltMembersCounted fo xs ys
    (r.1, 1 + r.2)
  | .null, .null => (false, 1)
  | .str s, .str t => (ltKey s t, 1)
  | .bool a, .bool b => (!a && b, 1)
  | .int a, .int b => (a < b, 1)
  | .flt a, .flt b => (fo.lt a b, 1)
  | .int a, .flt b => (fo.lt (fo.ofInt a) b, 1)
  | .flt a, .int b => (fo.lt a (fo.ofInt b), 1)
  | _, _ => (false, 1)
termination_by v w => sizeOf v + sizeOf w

/-- `std::lexicographical_compare` on the elements of vectors, value.hpp:899: `x < y`, then `y < x`. -/
def ltElemsCounted (fo : FloatOps F) : List (Value F) → List (Value F) → Bool × Nat
  | [], [] => (false, 0)
  | [], _ :: _ => (true, 0)
  | _ :: _, [] => (false, 0)
  | x :: xs, y :: ys =>
    let a := Value.ltCounted fo x y
    if a.1 then (true, a.2)
    else
      let b := Value.ltCounted fo y x
      if b.1 then (false, a.2 + b.2)
      else
        let r := ltElemsCounted fo xs ys
        (r.1, a.2 + b.2 + r.2)
termination_by v w => sizeOf v + sizeOf w

/-- `std::lexicographical_compare` on the members of maps, value.hpp:902, with `operator<` of `std::pair`: the values are compared
if neither key is less. -/
def ltMembersCounted (fo : FloatOps F) : List (List Nat × Value F) → List (List Nat × Value F) → Bool × Nat
  | [], [] => (false, 0)
  | [], _ :: _ => (true, 0)
  | _ :: _, [] => (false, 0)
  | (k, x) :: xs, (l, y) :: ys =>
    if ltKey k l then (true, 0)
    else if ltKey l k then (false, 0)
    else
      let a := Value.ltCounted fo x y
      if a.1 then (true, a.2)
      else
        let b := Value.ltCounted fo y x
        if b.1 then (false, a.2 + b.2)
        else
          let r := ltMembersCounted fo xs ys
          (r.1, a.2 + b.2 + r.2)
termination_by v w => sizeOf v + sizeOf w
end

end Configor
