import Verif.Model.LivesRange
import Verif.Spec.Live
/-!
# Iterators of several variables: what should be true of them
-/
namespace Spec
open Configor

variable {F : Type}

/-- The iterator may be used, and is at position `p` of the variable it was made from. -/
def Points (s : Lives F) (p : Nat) (it : VIter) : Prop := PointsAt (s.one it.owner) p it.place

/-- Every use of the iterator is undefined, but for `!=` with iterators of other variables, which is true, and arithmetic that is refused. -/
structure Undefined (s : Lives F) (it : VIter) : Prop where
  deref : s.deref it = .error .ub
  key : s.key it = .error .ub
  incr : s.incr it = .error .ub
  ne : ∀ jt, s.ne it jt = if it.owner = jt.owner then .error .ub else .ok true
  erase : (Lives.erase it s).1 = .error .ub
  store : ∀ v, (Lives.store it v s).1 = .error .ub
  decr : s.decr it = .error .ub
  plus : (s.content it.owner).type = .arr → ∀ off, s.plus off it = .error .ub
  distance : (s.content it.owner).type = .arr → ∀ jt, it.owner = jt.owner → s.diff it jt = .error .ub ∧ s.lt it jt = .error .ub
  eraseFrom : ∀ jt, (Lives.eraseRange it.owner it jt s).1 = .error .ub
  eraseTo : ∀ jt, (Lives.eraseRange it.owner jt it s).1 = .error .ub

/-- The operation assigns values with ordered members only, and uses no index that a vector cannot have. -/
def UsualDeal : Deal F → Prop
  | .edit _ e => Usual e
  | _ => True

/-- The operation changes the variable, or takes from it. -/
def Touches (x : Nat) : Deal F → Prop
  | .edit y _ => x = y
  | .swap y z => x = y ∨ x = z
  | .copy y _ _ => x = y
  | .move y z => x = y ∨ x = z

/-- The states a program can reach: all variables are null; then operations of any kind, also through iterators. -/
inductive Dealt (fo : FloatOps F) (g : Growth) : Lives F → Prop where
  | start {n} : Dealt fo g ⟨n, fun _ => .plain .null⟩
  | deal {s d r t} : Dealt fo g s → UsualDeal d → Lives.deal fo g d s = (r, t) → Dealt fo g t
  | erase {s it r t} : Dealt fo g s → Lives.erase it s = (r, t) → Dealt fo g t
  | eraseOf {s x it r t} : Dealt fo g s → Lives.eraseOf x it s = (r, t) → Dealt fo g t
  | eraseRange {s x it jt r t} : Dealt fo g s → Lives.eraseRange x it jt s = (r, t) → Dealt fo g t
  | store {s it v r t} : Dealt fo g s → KeysSorted v → Lives.store it v s = (r, t) → Dealt fo g t

/-- What an operation does to the contents. -/
def exchanged (fo : FloatOps F) : Deal F → (Nat → Value F) → Except Stop Unit × (Nat → Value F)
  | .edit x e, V => let r := effect fo e (V x); (r.1, fun z => if z = x then r.2 else V z)
  | .swap x y, V => (.ok (), fun z => if z = x then V y else if z = y then V x else V z)
  | .copy x y _, V => (.ok (), fun z => if z = x then V y else V z)
  | .move x y, V => (.ok (), fun z => if z = x then V y else if z = y then .null else V z)

/-- Array or object. -/
def Container (v : Value F) : Prop := v.type = .arr ∨ v.type = .obj

/-- The iterator was made for one kind of container only, as `begin()`, `end()`, `find` and `++` make them. -/
def VIter.OfOneKind (it : VIter) : Prop := it.place.arr = none ∨ it.place.obj = none

end Spec
