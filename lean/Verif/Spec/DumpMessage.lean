import Verif.Spec.Message
import Verif.Spec.Dump
/-!
# What the message of a failed dump says
-/
set_option autoImplicit false
namespace Spec
open Configor

variable {F : Type}

mutual
/-- The keys and strings of a value in the order in which they are written. -/
def texts : Value F → List (List Nat)
  | .str s => [s]
  | .arr xs => textsElems xs
  | .obj ms => textsMembers ms
  | _ => []

/-- Those of the elements of an array. -/
def textsElems : List (Value F) → List (List Nat)
  | [] => []
  | x :: xs => texts x ++ textsElems xs

/-- Those of the members of an object: the key before the value. -/
def textsMembers : List (List Nat × Value F) → List (List Nat)
  | [] => []
  | (k, v) :: ms => k :: (texts v ++ textsMembers ms)
end

/-- What is wrong in a string: behind code points `q` that can be written there is something that cannot, at the place `k`; and
the message about it. -/
inductive Trouble (A : DumpArgs F) (s : List Nat) : List Nat → Prop where
  /-- a malformed character; the code shown is what the decoder makes of it -/
  | malformed {q k m} : (∀ c ∈ q, Writable A c) → ReadOn (A.se.decode A.sw (strSBuf A.sw)) (onString s) q (readUpTo s k) →
      Delivers (A.se.decode A.sw (strSBuf A.sw)) (readUpTo s k) [none] →
      Shown (text! "unexpected character") (malformedCode A.se (s.drop k)) m → Trouble A s m
  /-- a code point that cannot be written -/
  | encode {q k c l m} : (∀ c ∈ q, Writable A c) → ReadOn (A.se.decode A.sw (strSBuf A.sw)) (onString s) q (readUpTo s k) →
      Delivers (A.se.decode A.sw (strSBuf A.sw)) (readUpTo s k) (some c :: l) → ¬ Writable A c →
      Shown (text! "encoding failed with codepoint") c m → Trouble A s m

end Spec
