import Verif.Model.Value
/-!
# Values with U+FFFD in place of U+FFFF
-/
set_option autoImplicit false
namespace Spec
open Configor

variable {F : Type}

/-- The UTF-16 units of a text, with U+FFFD in place of U+FFFF. -/
def patchText (s : List Nat) : List Nat := s.map fun u => if u = 0xFFFF then 0xFFFD else u

mutual
/-- The value with U+FFFD in place of U+FFFF in all strings and keys. -/
def patch : Value F → Value F
  | .str s => .str (patchText s)
  | .arr xs => .arr (patchElems xs)
  | .obj ms => .obj (patchMembers ms)
  | v => v

def patchElems : List (Value F) → List (Value F)
  | [] => []
  | x :: xs => patch x :: patchElems xs

def patchMembers : List (List Nat × Value F) → List (List Nat × Value F)
  | [] => []
  | (k, x) :: ms => (patchText k, patch x) :: patchMembers ms
end

end Spec
