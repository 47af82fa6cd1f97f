import Verif.Model.Value
/-! The strings inside a value. -/
namespace Spec
open Configor (Value)

/-- `s` is a string or a key somewhere in the value. -/
inductive HasText {F : Type} : Value F → List Nat → Prop where
  | str {s} : HasText (.str s) s
  | elem {xs x s} : x ∈ xs → HasText x s → HasText (.arr xs) s
  | key {ms k v} : (k, v) ∈ ms → HasText (.obj ms) k
  | member {ms k v s} : (k, v) ∈ ms → HasText v s → HasText (.obj ms) s

end Spec
