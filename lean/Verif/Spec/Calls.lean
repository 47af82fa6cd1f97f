import Verif.Spec.Grammar
/-! # Characters of a text that make calls of the parser nest -/
namespace Spec

/-- How many characters of an input satisfy `p`. Malformed ones (`none`) do not. -/
def countOf (p : Nat → Bool) (l : List (Option Nat)) : Nat := l.countP fun x => x.elim false p

/-- `/` -/
def isSlash (c : Nat) : Bool := c == 0x2F

/-- `[` or `{` -/
def isOpen (c : Nat) : Bool := c == 0x5B || c == 0x7B

/-- The text of `k` empty comments. -/
def emptyComments : Nat → List Nat
  | 0 => []
  | k + 1 => [0x2F, 0x2A, 0x2A, 0x2F] ++ emptyComments k

/-- `k` opening brackets. -/
def opened (k : Nat) : List Nat := List.replicate k 0x5B

variable {F : Type}
open Configor (Value)

mutual
/-- How deep arrays and objects nest: `0` for other values. -/
def nest : Value F → Nat
  | .arr xs => 1 + nestElems xs
  | .obj ms => 1 + nestMembers ms
  | _ => 0

/-- `nest` of the deepest element. -/
def nestElems : List (Value F) → Nat
  | [] => 0
  | x :: xs => max (nest x) (nestElems xs)

/-- `nest` of the deepest member. -/
def nestMembers : List (List Nat × Value F) → Nat
  | [] => 0
  | (_, x) :: ms => max (nest x) (nestMembers ms)
end

end Spec
