import Verif.Model.Convert
/-!
# What conversions should do
-/
namespace Spec
open Configor

variable {F T S : Type}

/-- `value(x).get<T>() == x`. -/
def RoundTrip (E : Conv F T) (x : T) : Prop := ∃ v, E.toValue x = .ok v ∧ E.get v = .ok x

/-- `i` is a number of an integral type of `w` bits. -/
def InRange (signed : Bool) (w : Nat) (i : Int) : Prop :=
  if signed then -2 ^ (w - 1) ≤ i ∧ i < 2 ^ (w - 1) else 0 ≤ i ∧ i < 2 ^ w

/-- A strict total order. -/
structure Total (lt : T → T → Bool) : Prop where
  irrefl : ∀ a, lt a a = false
  trans : ∀ a b c, lt a b = true → lt b c = true → lt a c = true
  total : ∀ a b, lt a b = false → lt b a = false → a = b

/-- `x` is the target of a read that cannot fail half way: a failed `get(x)` leaves it. -/
def Keeps (E : Conv F T) : Prop := ∀ v t t', E.getInto v t = (.ok false, t') → t' = t

/-- `get(x)` gives what `get<T>()` gives, whatever `x` was. -/
def Replaces (E : Conv F T) : Prop := ∀ v t t', E.getInto v t = (.ok true, t') → E.get v = .ok t'

/-- Getters and setters of different fields do not interfere, and a getter sees what the setter
of the field has set. -/
structure Lenses (fs : List (Field F S)) : Prop where
  same : ∀ f ∈ fs, ∀ x s, f.get (f.set x s) = x
  other : fs.Pairwise fun f g => (∀ x s, g.get (f.set x s) = g.get s) ∧ (∀ x s, f.get (g.set x s) = f.get s)

/-- Reads with this converter end or throw; they have no undefined behaviour. -/
def Safe (E : Conv F T) : Prop := ∀ v t, ∃ b t', E.getInto v t = (.ok b, t')

/-- The member of a value with a key, if it is an object that has one. -/
def member : Value F → List Nat → Option (Value F)
  | .obj ms, k => ms.lookup k
  | _, _ => none

/-- The field is left out when written: it is `OPTIONAL` and has the value `T{}`. -/
def Omitted (f : Field F S) (s : S) : Prop := f.optional = true ∧ f.isZero (f.get s) = true

/-- Two structs agree on the bound fields. -/
def Agree (fs : List (Field F S)) (s s' : S) : Prop := ∀ f ∈ fs, f.get s = f.get s'

end Spec
