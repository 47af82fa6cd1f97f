import Verif.Model.Basic
/-!
# Values (include/configor/details/value.hpp)

This file has the tree type and `std::map`; the operations are in `Model/ValueOps.lean`.
-/
namespace Configor

/-- `basic_value` (value.hpp:46-1007) as a tree: the tagged union of value.hpp:71-79, 1005-1006.
`F` is the floating type. Strings are lists of code units, objects are the sequence
of members of the `std::map` in iteration order. Heap representation is the subject
of `Model/Heap.lean`. -/
inductive Value (F : Type) where
  | null
  | bool (b : Bool)
  | int (i : Int)
  | flt (f : F)
  | str (s : List Nat)
  | arr (xs : List (Value F))
  | obj (ms : List (List Nat × Value F))

/-- `std::basic_string::operator<`: lexicographic by code unit (unsigned for `char`).
`std::less<string_type>`, value.hpp:57-58. -/
def ltKey : List Nat → List Nat → Bool
  | [], [] => false
  | [], _ :: _ => true
  | _ :: _, [] => false
  | a :: as, b :: bs => if a < b then true else if b < a then false else ltKey as bs

namespace Map
variable {V : Type}

/-- Members of a `std::map<string, V>` in iteration order.
`object_type`, value.hpp:57-58, configor.hpp:52. -/
abbrev T (V : Type) := List (List Nat × V)

/-- `std::map::emplace(k, v)`: no effect if the key is present.
Used at parser.hpp:189, value.hpp:1140. -/
def emplace (k : List Nat) (v : V) : T V → T V
  | [] => [(k, v)]
  | (k', v') :: ms =>
    if ltKey k k' then (k, v) :: (k', v') :: ms
    else if ltKey k' k then (k', v') :: emplace k v ms
    else (k', v') :: ms

/-- `std::map::find(k)`: the member found, if any. Used at value.hpp:326, 345, 794, 810. -/
def find (k : List Nat) : T V → Option V
  | [] => none
  | (k', v') :: ms =>
    if ltKey k k' then none
    else if ltKey k' k then find k ms
    else some v'

/-- `m[k] = v` on a key that is present: replaces the mapped value. See value.hpp:745, 778. -/
def assign (k : List Nat) (v : V) : T V → T V
  | [] => []
  | (k', v') :: ms =>
    if ltKey k k' then (k', v') :: ms
    else if ltKey k' k then (k', v') :: assign k v ms
    else (k', v) :: ms

/-- `std::map::erase(k)`. Used at value.hpp:354. -/
def erase (k : List Nat) : T V → T V
  | [] => []
  | (k', v') :: ms =>
    if ltKey k k' then (k', v') :: ms
    else if ltKey k' k then (k', v') :: erase k ms
    else ms

end Map
end Configor
