import Verif.Spec.Dump
/-!
# The text of a value, with marks

The printer of `Spec/Dump`, which says of each character of the text whether it stands for a character of a string or key that is written
as itself or as `\u` escape.
-/
namespace Spec
open Configor (Value)

variable {F : Type} (P : Printer F)

/-- Characters with the same mark. -/
def tagged (b : Bool) (l : List Nat) : List (Nat × Bool) := l.map fun c => (c, b)

/-- A string literal; see `Printer.literal`. -/
def Printer.markedLiteral (s : List Nat) : List (Nat × Bool) :=
  tagged false [0x22] ++ (P.txt s).flatMap (fun c => tagged (shortEscape c).isNone (charText P.uesc P.enc c)) ++ tagged false [0x22]

/-- See `Printer.items`. -/
def Printer.markedItems (d : Nat) : List (List (Nat × Bool)) → List (Nat × Bool)
  | [] => []
  | [t] => tagged false (P.style.indent d) ++ t
  | t :: ts => tagged false (P.style.indent d) ++ t ++ tagged false [0x2C] ++ tagged false P.style.nl ++ Printer.markedItems d ts

/-- See `Printer.block`. -/
def Printer.markedBlock (d : Nat) (op cl : Nat) (ts : List (List (Nat × Bool))) : List (Nat × Bool) :=
  tagged false [op] ++ (if ts = [] then [] else tagged false P.style.nl ++ P.markedItems (d + 1) ts) ++ tagged false P.style.nl ++
    tagged false (P.style.indent d) ++ tagged false [cl]

mutual
/-- The text of a value at depth `d` with marks; see `Printer.text`. -/
def Printer.marked (d : Nat) : Value F → List (Nat × Bool)
  | .str s => P.markedLiteral s
  | .arr xs => P.markedBlock d 0x5B 0x5D (Printer.markedElems (d + 1) xs)
  | .obj ms => P.markedBlock d 0x7B 0x7D (Printer.markedMembers (d + 1) ms)
  | .null => tagged false [0x6E, 0x75, 0x6C, 0x6C]
  | .bool b => tagged false (if b then [0x74, 0x72, 0x75, 0x65] else [0x66, 0x61, 0x6C, 0x73, 0x65])
  | .int i => tagged false (P.num i)
  | .flt f => tagged false (P.flt f)

/-- See `Printer.texts`. -/
def Printer.markedElems (d : Nat) : List (Value F) → List (List (Nat × Bool))
  | [] => []
  | x :: xs => Printer.marked d x :: Printer.markedElems d xs

/-- See `Printer.members`. -/
def Printer.markedMembers (d : Nat) : List (List Nat × Value F) → List (List (Nat × Bool))
  | [] => []
  | (k, v) :: ms => (P.markedLiteral k ++ tagged false [0x3A] ++ tagged false P.style.space ++ Printer.marked d v) :: Printer.markedMembers d ms
end

/-- Of a marked text, all has arrived up to the last marked character at least. -/
def MarkedArrived (all : List (Nat × Bool)) (got : List Nat) : Prop :=
  ∃ a b, all = a ++ b ∧ got = a.map Prod.fst ∧ ∀ c ∈ b, c.2 = false

end Spec
