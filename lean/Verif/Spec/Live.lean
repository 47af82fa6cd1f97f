import Verif.Model.LiveRange
import Verif.Spec.Values
import Verif.Spec.Dump
/-!
# Iterators of a value that changes: what should be true of them

`PointsAt c p it`: the iterator may be used, and is at position `p` of the present content of `c`. The changes mean what they mean for
values without iterators (`effect`). Then the loops of programs that change the value they go through.
-/
namespace Spec
open Configor

variable {F : Type}

/-- The iterator `it` of `c` may be used, and is at position `p`: `0` is the first element, `size()` the end. -/
def PointsAt (c : Live F) (p : Nat) (it : LIter) : Prop := ∃ i, c.resolve it = .ok i ∧ IterAt 0 c.content p i

/-- Every use of the iterator is undefined. -/
structure Useless (c : Live F) (it : LIter) : Prop where
  deref : c.deref it = .error .ub
  key : c.key it = .error .ub
  incr : c.incr it = .error .ub
  ne : ∀ jt, c.ne it jt = .error .ub
  erase : Live.erase it c = (.error .ub, c)
  store : ∀ x, Live.store it x c = (.error .ub, c)
  decr : c.decr it = .error .ub
  plus : c.content.type = .arr → ∀ off, c.plus off it = .error .ub
  distance : c.content.type = .arr → ∀ jt, c.diff it jt = .error .ub ∧ c.lt it jt = .error .ub
  eraseFrom : ∀ jt, Live.eraseRange it jt c = (.error .ub, c)
  eraseTo : ∀ jt, Live.eraseRange jt it c = (.error .ub, c)

/-- What a change does to the content of the variable, whoever has iterators of it. -/
def effect (fo : FloatOps F) : Edit F → Value F → Except Stop Unit × Value F
  | .put k x, v => ValueOps.withKey k (ValueOps.assign x) v
  | .setAt i x, v => ValueOps.withIndex i (ValueOps.assign x) v
  | .push x, v => ValueOps.pushBack x v
  | .eraseKey k, v => let r := ValueOps.eraseKey k v; (r.1.map fun _ => (), r.2)
  | .eraseAt i, v => ValueOps.eraseIndex i v
  | .clear, v => ValueOps.clear fo v
  | .assign x _, v => ValueOps.assign x v

/-- The change assigns values with ordered members only, and uses no index that a vector cannot have. -/
def Usual : Edit F → Prop
  | .put _ x => KeysSorted x
  | .setAt i x => i < vectorMax ∧ KeysSorted x
  | .push x => KeysSorted x
  | .assign x _ => KeysSorted x
  | _ => True

/-- The variables a program can have: made with some content, and then changed in any way, also through iterators. -/
inductive Lived (fo : FloatOps F) (g : Growth) : Live F → Prop where
  | start {n spare v} : KeysSorted v → Lived fo g (Live.fresh n spare v)
  | act {c ch r d} : Lived fo g c → Usual ch → Live.act fo g ch c = (r, d) → Lived fo g d
  | erase {c it r d} : Lived fo g c → Live.erase it c = (r, d) → Lived fo g d
  | store {c it x r d} : Lived fo g c → KeysSorted x → Live.store it x c = (r, d) → Lived fo g d
  | eraseRange {c it jt r d} : Lived fo g c → Live.eraseRange it jt c = (r, d) → Lived fo g d

/-- The change does not remove the member with the key. -/
def KeepsMember (k : List Nat) : Edit F → Prop
  | .eraseKey j => j ≠ k
  | .clear => False
  | .assign _ _ => False
  | _ => True

/-- The change does not remove the element at the position, nor one before it. -/
def KeepsElement (p : Nat) : Edit F → Prop
  | .eraseAt i => p < i
  | .clear => False
  | .assign _ _ => False
  | _ => True

/-- The change gives up the iterators at position `p` of the array `c`: the array gets a new storage, elements at or before the
position are removed, or the position is the end and elements are added there. -/
def DropsAt (c : Live F) (p : Nat) : Edit F → Prop
  | .push _ => c.capacity < c.content.size + 1 ∨ p = c.content.size
  | .setAt i _ => c.content.size ≤ i ∧ (c.capacity < i + 1 ∨ p = c.content.size)
  | .eraseAt i => i ≤ p
  | .clear => True
  | .assign _ _ => True
  | _ => False

/-- The content without the element at the position. -/
def lessAt (p : Nat) : Value F → Value F
  | .arr xs => .arr (xs.take p ++ xs.drop (p + 1))
  | .obj ms => .obj (ms.take p ++ ms.drop (p + 1))
  | v => v

/-- The content without the elements from position `p` up to position `q`. -/
def lessRange (p q : Nat) : Value F → Value F
  | .arr xs => .arr (xs.take p ++ xs.drop q)
  | .obj ms => .obj (ms.take p ++ ms.drop q)
  | v => v

/-- `it = c.erase(it)`, `k` times. -/
def eraseTimes : Nat → LIter → M (Live F) LIter
  | 0, it => fun c => (.ok it, c)
  | k + 1, it => fun c =>
    match Live.erase it c with
    | (.error e, d) => (.error e, d)
    | (.ok jt, d) => eraseTimes k jt d

/-- The content with another element at the position. -/
def withAt (p : Nat) (x : Value F) : Value F → Value F
  | .arr xs => .arr (xs.set p x)
  | .obj ms => .obj (ms.modify p fun m => (m.1, x))
  | _ => x

/-- `for (auto it = c.begin(); it != c.end();) { if (test(it)) it = c.erase(it); else ++it; }` from an iterator on; at most `n`
rounds. -/
def eraseLoop (test : Live F → LIter → Except Stop Bool) : Nat → LIter → M (Live F) Unit
  | 0, _ => fun c => (.error .fuel, c)
  | n + 1, it => fun c =>
    match c.fin with
    | .error e => (.error e, c)
    | .ok last =>
      match c.ne it last with
      | .error e => (.error e, c)
      | .ok false => (.ok (), c)
      | .ok true =>
        match test c it with
        | .error e => (.error e, c)
        | .ok true =>
          match Live.erase it c with
          | (.error e, d) => (.error e, d)
          | (.ok jt, d) => eraseLoop test n jt d
        | .ok false =>
          match c.incr it with
          | .error e => (.error e, c)
          | .ok jt => eraseLoop test n jt c

/-- The whole loop. -/
def eraseIf (test : Live F → LIter → Except Stop Bool) (n : Nat) : M (Live F) Unit := fun c =>
  match c.begin with
  | .error e => (.error e, c)
  | .ok it => eraseLoop test n it c

/-- `p(*it)` -/
def testValue (p : Value F → Bool) (c : Live F) (it : LIter) : Except Stop Bool :=
  match c.deref it with
  | .error e => .error e
  | .ok x => .ok (p x)

/-- `p(it.key(), it.value())` -/
def testMember (p : List Nat → Value F → Bool) (c : Live F) (it : LIter) : Except Stop Bool :=
  match c.key it, c.deref it with
  | .error e, _ => .error e
  | _, .error e => .error e
  | .ok k, .ok x => .ok (p k x)

/-- `for (auto& e : c) body(e)` from an iterator on, where `body` uses the iterator of `e`; at most `n` rounds. The end is taken
once, before the first round. -/
def forLoop (body : LIter → M (Live F) Unit) : Nat → LIter → LIter → M (Live F) Unit
  | 0, _, _ => fun c => (.error .fuel, c)
  | n + 1, it, last => fun c =>
    match c.ne it last with
    | .error e => (.error e, c)
    | .ok false => (.ok (), c)
    | .ok true =>
      match body it c with
      | (.error e, d) => (.error e, d)
      | (.ok _, d) =>
        match d.incr it with
        | .error e => (.error e, d)
        | .ok jt => forLoop body n jt last d

/-- The whole loop. -/
def forEach (body : LIter → M (Live F) Unit) (n : Nat) : M (Live F) Unit := fun c =>
  match c.begin, c.fin with
  | .ok it, .ok last => forLoop body n it last c
  | .error e, _ => (.error e, c)
  | _, .error e => (.error e, c)

/-- `e = f(e)` -/
def update (f : Value F → Value F) (it : LIter) : M (Live F) Unit := fun c =>
  match c.deref it with
  | .error e => (.error e, c)
  | .ok x => Live.store it (f x) c

end Spec
