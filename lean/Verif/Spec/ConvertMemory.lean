import Verif.Spec.ParseMemory
import Verif.Model.ConvertHeap
/-!
# Converting objects: what is said about a call

What an object is converted to, as a tree, and what remains in memory when that is ended by an exception.
-/
namespace Spec
open Configor

variable {F : Type}

mutual
/-- How many strings, arrays and objects there are in a value: each of them has a block of memory. -/
def blocks : Value F → Nat
  | .str _ => 1
  | .arr xs => blocksAll xs + 1
  | .obj ms => blocksMembers ms + 1
  | _ => 0

/-- The same for the elements of an array. -/
def blocksAll : List (Value F) → Nat
  | [] => 0
  | x :: xs => blocks x + blocksAll xs

/-- The same for the members of an object. -/
def blocksMembers : List (List Nat × Value F) → Nat
  | [] => 0
  | (_, x) :: ms => blocks x + blocksMembers ms
end

/-- The members of an object, in the order of their keys, after `v` was assigned to the one with key `k`. -/
def setMember (k : List Nat) (v : Value F) : List (List Nat × Value F) → List (List Nat × Value F)
  | [] => [(k, v)]
  | (k', v') :: ms =>
    if ltKey k k' then (k, v) :: (k', v') :: ms
    else if ltKey k' k then (k', v') :: setMember k v ms
    else (k', v) :: ms

/-- The members of an object; null has none. -/
def membersOf : Value F → List (List Nat × Value F)
  | .obj ms => ms
  | _ => []

mutual
/-- What an object is converted to, when `E` has the contents of the variables. Or the exception that is thrown by the first
part that cannot be converted, with the number of strings, arrays and objects in the values that were being made. These are the
values for the objects around that part, each with the elements and members it had got. -/
def convert (d : Order) (E : Env F) : Obj F → Except (Err × Nat) (Value F)
  | .null => .ok .null
  | .bool b => .ok (.bool b)
  | .int i => .ok (.int i)
  | .flt f => .ok (.flt f)
  | .str s => .ok (.str s)
  | .value x p => .ok ((E.get ⟨x, p⟩).getD .null)
  | .ptr o => convert d E o
  | .seq os => convertAll d E [] os
  | .map ms => convertMembers d E d.leftFirst (.obj []) ms
  | .bound ms => convertMembers d E d.macroLeftFirst .null ms
  | .throws e => .error (e, 0)

/-- An array, after the elements in `done`. -/
def convertAll (d : Order) (E : Env F) (done : List (Value F)) : List (Obj F) → Except (Err × Nat) (Value F)
  | [] => .ok (.arr done)
  | o :: os => match convert d E o with
    | .ok v => convertAll d E (done ++ [v]) os
    | .error (e, n) => .error (e, n + blocks (.arr done))

/-- An object, after the members in `c`. A null becomes an object with the first member: when `left`, before the
member is converted. -/
def convertMembers (d : Order) (E : Env F) (left : Bool) (c : Value F) : List (List Nat × Obj F) → Except (Err × Nat) (Value F)
  | [] => .ok c
  | (k, o) :: ms => match convert d E o with
    | .ok v => convertMembers d E left (.obj (setMember k v (membersOf c))) ms
    | .error (e, n) => .error (e, n + blocks (if left then fillWith (.obj []) c else c))
end

mutual
/-- The values of the program that are parts of the object. -/
def valuesIn : Obj F → List Ref
  | .value x p => [⟨x, p⟩]
  | .ptr o => valuesIn o
  | .seq os => valuesInAll os
  | .map ms => valuesInMembers ms
  | .bound ms => valuesInMembers ms
  | _ => []

/-- The same for the elements. -/
def valuesInAll : List (Obj F) → List Ref
  | [] => []
  | o :: os => valuesIn o ++ valuesInAll os

/-- The same for the members. -/
def valuesInMembers : List (List Nat × Obj F) → List Ref
  | [] => []
  | (_, o) :: ms => valuesIn o ++ valuesInMembers ms
end

/-- What `convert` gives, without the number of blocks: the value or the exception. -/
def outcome : Except (Err × Nat) (Value F) → Except Stop (Value F)
  | .ok v => .ok v
  | .error (e, _) => .error (.exn e)

/-- The values that are parts of the object exist. -/
def Valid (E : Env F) (o : Obj F) : Prop := ∀ r ∈ valuesIn o, E.get r ≠ none

/-- Numbers, strings, sequences and maps: `to_value` destroys what was there before. -/
def Resets : Obj F → Prop
  | .bool _ | .int _ | .flt _ | .str _ | .seq _ | .map _ => True
  | _ => False

/-- Memory for the new content itself can be had: strings, arrays and objects need a block and its first content, which are the next
two allocations; numbers need none. -/
def ContentFits (s : State F) : Obj F → Prop
  | .str _ | .seq _ | .map _ => s.heap.plan s.heap.tick = true ∧ s.heap.plan (s.heap.tick + 1) = true
  | _ => True

/-- `L'` has `n` blocks that are not in `L`, and all that are. -/
def MoreBy (n : Nat) (L L' : Nat → Prop) : Prop := ∃ l : List Nat, l.Nodup ∧ l.length = n ∧ ∀ a, (a ∈ l → ¬ L a) ∧ (L' a ↔ L a ∨ a ∈ l)

end Spec
