import Verif.Model.Value
import Verif.Model.Float
/-!
# Operations of `basic_value` (include/configor/details/value.hpp)

An operation that may change a value is a computation whose state is the content of that
value. A member function that returns a reference (`operator[]`, `at`) takes what is done with
the reference as an argument: `withIndex i f` is "`c[i]`, then `f` on the element". This is exact
for expressions that use the reference before `c` is changed in another way. Ownership and
allocation are the subject of `Model/Heap.lean`; here memory never runs out, except that
a `std::vector` does not grow beyond `max_size()`.
-/
namespace Configor

variable {F α : Type}

/-- `value_constant::type`, declare.hpp. declare.hpp:57-66. -/
inductive VType where
  | null | bool | int | flt | str | arr | obj
  deriving DecidableEq, Repr

/-- `type()`, value.hpp:181-184. -/
def Value.type : Value F → VType
  | .null => .null
  | .bool _ => .bool
  | .int _ => .int
  | .flt _ => .flt
  | .str _ => .str
  | .arr _ => .arr
  | .obj _ => .obj

/-- `basic_value(value_constant::type)`, value.hpp:87-115. -/
def Value.ofType (fo : FloatOps F) : VType → Value F
  | .null => .null
  | .bool => .bool false
  | .int => .int 0
  | .flt => .flt (fo.ofInt 0)
  | .str => .str []
  | .arr => .arr []
  | .obj => .obj []

/-- `size()`, value.hpp:292-305. -/
def Value.size : Value F → Nat
  | .null => 0
  | .arr xs => xs.length
  | .obj ms => ms.length
  | _ => 1

/-- `empty()`, value.hpp:307-319. -/
def Value.empty : Value F → Bool
  | .null => true
  | .obj ms => ms.isEmpty
  | .arr xs => xs.isEmpty
  | _ => false

/-- `count(key)`, value.hpp:343-346; `std::map::count` is 0 or 1. -/
def Value.count (k : List Nat) : Value F → Nat
  | .obj ms => if (Map.find k ms).isSome then 1 else 0
  | _ => 0

/-- `2^64`, the range of `size_type`. value.hpp:63. -/
def sizeRange : Nat := 18446744073709551616

/-- `max_size()` of a `std::vector` of 16-byte elements. For value.hpp:725. -/
def vectorMax : Nat := 576460752303423487

namespace ValueOps

/-- Operations on a value. Members of `basic_value`, value.hpp:81-816. -/
abbrev V (F α : Type) := M (Value F) α

/-- `c = x`, as far as the content of `c` is concerned; value.hpp:689-707. -/
def assign (x : Value F) : V F Unit := fun _ => (.ok (), x)

/-- `erase(key)`, value.hpp:348-355. -/
def eraseKey (k : List Nat) : V F Nat
  | .obj ms => (.ok (if (Map.find k ms).isSome then 1 else 0), .obj (Map.erase k ms))
  | v => (.error (.exn .invalidKey), v)

/-- `erase(index)`, value.hpp:357-364: `vector::erase` of an iterator that is not
dereferenceable is undefined. -/
def eraseIndex (i : Nat) : V F Unit
  | .arr xs => if i < xs.length then (.ok (), .arr (xs.eraseIdx i)) else (.error .ub, .arr xs)
  | v => (.error (.exn .invalidKey), v)

/-- `push_back`, `emplace_back`, value.hpp:418-440. -/
def pushBack (x : Value F) : V F Unit
  | .null => (.ok (), .arr [x])
  | .arr xs => (.ok (), .arr (xs ++ [x]))
  | v => (.error (.exn .typeError), v)

/-- `clear()`, value.hpp:442-467. -/
def clear (fo : FloatOps F) : V F Unit
  | .int _ => (.ok (), .int 0)
  | .flt _ => (.ok (), .flt (fo.ofInt 0))
  | .bool _ => (.ok (), .bool false)
  | .str _ => (.ok (), .str [])
  | .arr _ => (.ok (), .arr [])
  | .obj _ => (.ok (), .obj [])
  | .null => (.ok (), .null)

/-- Use of a reference to element `i` of a vector. value.hpp:727, 763. -/
def onElem (i : Nat) (f : V F α) (xs : List (Value F)) : Except Stop α × Value F :=
  match xs[i]? with
  | none => (.error .ub, .arr xs)
  | some x => ((f x).1, .arr (xs.set i (f x).2))

/-- Use of a reference to the mapped value of a key that is present. value.hpp:745, 778, 799, 815. -/
def onMember (k : List Nat) (f : V F α) (ms : Map.T (Value F)) : Except Stop α × Value F :=
  match Map.find k ms with
  | none => (.error .ub, .obj ms)
  | some x => ((f x).1, .obj (Map.assign k (f x).2 ms))

/-- The vector part of `operator[](index)`, value.hpp:723-727. The number of new elements is
computed in `size_type`; `vector::insert` throws if it exceeds the room up to `max_size()`. -/
def growTo (i : Nat) (f : V F α) (xs : List (Value F)) : Except Stop α × Value F :=
  if i ≥ xs.length then
    if (i - xs.length + 1) % sizeRange > vectorMax - xs.length then (.error (.exn .lengthError), .arr xs)
    else onElem i f (xs ++ List.replicate ((i - xs.length + 1) % sizeRange) .null)
  else onElem i f xs

/-- `c[index]` and the use of the result, value.hpp:711-728. -/
def withIndex (i : Nat) (f : V F α) : V F α
  | .null => growTo i f []
  | .arr xs => growTo i f xs
  | v => (.error (.exn .invalidKey), v)

/-- `c[key]` and the use of the result, value.hpp:735-746, 766-779; a C string is first converted
to a key. `std::map::operator[]` inserts a null value if the key is missing. -/
def withKey (k : List Nat) (f : V F α) : V F α
  | .null => onMember k f (Map.emplace k .null [])
  | .obj ms => onMember k f (Map.emplace k .null ms)
  | v => (.error (.exn .invalidKey), v)

/-- `c.at(index)` and `c[index]` on a constant, value.hpp:730-733, 753-764, and the use of the
result, which is not constant. -/
def atIndex (i : Nat) (f : V F α) : V F α
  | .arr xs => if i ≥ xs.length then (.error (.exn .outOfRange), .arr xs) else onElem i f xs
  | v => (.error (.exn .invalidKey), v)

/-- `c.at(key)` and `c[key]` on a constant, value.hpp:748-751, 781-816. -/
def atKey (k : List Nat) (f : V F α) : V F α
  | .obj ms => if (Map.find k ms).isNone then (.error (.exn .outOfRange), .obj ms) else onMember k f ms
  | v => (.error (.exn .invalidKey), v)

/-- Reading through a reference. For the `const` overloads, value.hpp:730-733, 748-751, 781-785. -/
def read : V F (Value F) := fun v => (.ok v, v)

end ValueOps

/-! ## Comparison -/

mutual
/-- `operator==`, value.hpp:821-854. -/
def Value.eq (fo : FloatOps F) : Value F → Value F → Bool
  | .arr xs, .arr ys => eqElems fo xs ys
  | .obj xs, .obj ys => eqMembers fo xs ys
  | .null, .null => true
  | .str s, .str t => s == t
  | .bool a, .bool b => a == b
  | .int a, .int b => a == b
  | .flt a, .flt b => fo.eq a b
  | .int a, .flt b => fo.eq (fo.ofInt a) b
  | .flt a, .int b => fo.eq a (fo.ofInt b)
  | _, _ => false

/-- `operator==` of `std::vector`: same length and equal elements. Used at value.hpp:821-854. -/
def eqElems (fo : FloatOps F) : List (Value F) → List (Value F) → Bool
  | [], [] => true
  | x :: xs, y :: ys => Value.eq fo x y && eqElems fo xs ys
  | _, _ => false

/-- `operator==` of `std::map`: same size and equal members. Used at value.hpp:821-854. -/
def eqMembers (fo : FloatOps F) : List (List Nat × Value F) → List (List Nat × Value F) → Bool
  | [], [] => true
  | (k, x) :: xs, (l, y) :: ys => k == l && Value.eq fo x y && eqMembers fo xs ys
  | _, _ => false
end

mutual
/-- `operator<`, value.hpp:889-933. -/
def Value.lt (fo : FloatOps F) : Value F → Value F → Bool
  | .arr xs, .arr ys => ltElems fo xs ys
  | .obj xs, .obj ys => ltMembers fo xs ys
  | .null, .null => false
  | .str s, .str t => ltKey s t
  | .bool a, .bool b => !a && b
  | .int a, .int b => a < b
  | .flt a, .flt b => fo.lt a b
  | .int a, .flt b => fo.lt (fo.ofInt a) b
  | .flt a, .int b => fo.lt a (fo.ofInt b)
  | _, _ => false
termination_by v w => sizeOf v + sizeOf w

/-- `operator<` of `std::vector`: `std::lexicographical_compare`. Used at value.hpp:889-933. -/
def ltElems (fo : FloatOps F) : List (Value F) → List (Value F) → Bool
  | [], [] => false
  | [], _ :: _ => true
  | _ :: _, [] => false
  | x :: xs, y :: ys =>
    if Value.lt fo x y then true else if Value.lt fo y x then false else ltElems fo xs ys
termination_by v w => sizeOf v + sizeOf w

/-- `operator<` of `std::map`: `std::lexicographical_compare` with `operator<` of `std::pair`.
Used at value.hpp:889-933. -/
def ltMembers (fo : FloatOps F) : List (List Nat × Value F) → List (List Nat × Value F) → Bool
  | [], [] => false
  | [], _ :: _ => true
  | _ :: _, [] => false
  | (k, x) :: xs, (l, y) :: ys =>
    if ltKey k l || (!ltKey l k && Value.lt fo x y) then true
    else if ltKey l k || (!ltKey k l && Value.lt fo y x) then false
    else ltMembers fo xs ys
termination_by v w => sizeOf v + sizeOf w
end

/-- `operator!=`, value.hpp:870-873. -/
def Value.ne (fo : FloatOps F) (v w : Value F) : Bool := !Value.eq fo v w
/-- `operator<=`, value.hpp:949-952. -/
def Value.le (fo : FloatOps F) (v w : Value F) : Bool := !Value.lt fo w v
/-- `operator>`, value.hpp:968-971. -/
def Value.gt (fo : FloatOps F) (v w : Value F) : Bool := Value.lt fo w v
/-- `operator>=`, value.hpp:987-990. -/
def Value.ge (fo : FloatOps F) (v w : Value F) : Bool := !Value.lt fo v w

/-! ## Makers -/

/-- `make_object`, value.hpp:1127-1146, 1169-1173: `emplace` keeps the first of two members
with one key. -/
def makeObject (l : List (List Nat × Value F)) : Value F :=
  .obj (l.foldl (fun ms p => Map.emplace p.1 p.2 ms) [])

/-- `make_array`, value.hpp:1148-1165, 1175-1179. -/
def makeArray (l : List (Value F)) : Value F := .arr l

end Configor
