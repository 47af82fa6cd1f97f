import Verif.Spec.Calls
/-! # The height and the size of a value, as a tree -/
namespace Spec
open Configor (Value)

variable {F : Type}

mutual
/-- The values on the longest way from the value to an innermost one, both included. -/
def height : Value F → Nat
  | .arr xs => 1 + heightElems xs
  | .obj ms => 1 + heightMembers ms
  | _ => 1

/-- `height` of the highest element. -/
def heightElems : List (Value F) → Nat
  | [] => 0
  | x :: xs => max (height x) (heightElems xs)

/-- `height` of the highest member. -/
def heightMembers : List (List Nat × Value F) → Nat
  | [] => 0
  | (_, x) :: ms => max (height x) (heightMembers ms)
end

mutual
/-- The number of values the value consists of, itself included. -/
def nodes : Value F → Nat
  | .arr xs => 1 + nodesElems xs
  | .obj ms => 1 + nodesMembers ms
  | _ => 1

/-- The sum over the elements. -/
def nodesElems : List (Value F) → Nat
  | [] => 0
  | x :: xs => nodes x + nodesElems xs

/-- The sum over the members. -/
def nodesMembers : List (List Nat × Value F) → Nat
  | [] => 0
  | (_, x) :: ms => nodes x + nodesMembers ms
end

end Spec
