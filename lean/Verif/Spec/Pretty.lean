import Verif.Model.Serializer
/-!
# Indented texts, line by line

The layout a user expects: every element, member and closing bracket on a line of its own, indented
by its depth times the step.
-/
namespace Spec
open Configor (Value)

variable {F : Type}

/-- A line: how deep it is nested, and what is on it after the indentation. -/
abbrev Line' := Nat × List Nat

/-- More characters at the end of the last line. -/
def onLast (t : List Nat) : List Line' → List Line'
  | [] => []
  | [(d, l)] => [(d, l ++ t)]
  | l :: ls => l :: onLast t ls

/-- More characters at the beginning of the first line. -/
def onFirst (t : List Nat) : List Line' → List Line'
  | [] => []
  | (d, l) :: ls => (d, t ++ l) :: ls

/-- The lines of several items, with a comma behind all but the last of them. -/
def withCommas : List (List Line') → List Line'
  | [] => []
  | [i] => i
  | i :: is => onLast [0x2C] i ++ withCommas is

mutual
/-- The lines of a value at depth `d`. `tok v` is the text of a scalar or string on its own; between the colon and a member's
value there is one indent character. -/
def linesOf (tok : Value F → List Nat) (ch d : Nat) : Value F → List Line'
  | .arr xs => (d, [0x5B]) :: withCommas (elemLines tok ch (d + 1) xs) ++ [(d, [0x5D])]
  | .obj ms => (d, [0x7B]) :: withCommas (memberLines tok ch (d + 1) ms) ++ [(d, [0x7D])]
  | .null => [(d, tok .null)]
  | .bool b => [(d, tok (.bool b))]
  | .int i => [(d, tok (.int i))]
  | .flt f => [(d, tok (.flt f))]
  | .str s => [(d, tok (.str s))]

/-- The lines of each element of an array. -/
def elemLines (tok : Value F → List Nat) (ch d : Nat) : List (Value F) → List (List Line')
  | [] => []
  | x :: xs => linesOf tok ch d x :: elemLines tok ch d xs

/-- The lines of each member of an object. -/
def memberLines (tok : Value F → List Nat) (ch d : Nat) : List (List Nat × Value F) → List (List Line')
  | [] => []
  | (k, v) :: ms => onFirst (tok (.str k) ++ [0x3A, ch]) (linesOf tok ch d v) :: memberLines tok ch d ms
end

/-- The text of lines: `width d` indent characters before a line of depth `d`, line ends between the lines. -/
def textOfLines (width : Nat → Nat) (ch : Nat) (ls : List Line') : List Nat :=
  [0x0A].intercalate (ls.map fun l => List.replicate (width l.1) ch ++ l.2)

mutual
/-- How many arrays and objects are nested in one another. -/
def levels : Value F → Nat
  | .arr xs => levelsAll xs + 1
  | .obj ms => levelsMembers ms + 1
  | _ => 0

/-- The maximum over the elements of an array. -/
def levelsAll : List (Value F) → Nat
  | [] => 0
  | x :: xs => max (levels x) (levelsAll xs)

/-- The maximum over the members of an object. -/
def levelsMembers : List (List Nat × Value F) → Nat
  | [] => 0
  | (_, v) :: ms => max (levels v) (levelsMembers ms)
end

end Spec
