import Verif.Model.Iterator
import Verif.Spec.Dump
/-!
# What the operations of a value should do

Objects as finite maps, arrays as lists, paths into a tree, loops over iterators, kinds of
values. Also the small client programs the properties speak about.
-/
namespace Spec
open Configor Configor.ValueOps

variable {F : Type}

/-! ## Programs -/

/-- Operations one after the other; the first one that does not end normally ends it. -/
def inOrder : List (V F Unit) → V F Unit
  | [] => fun v => (.ok (), v)
  | m :: ms => fun v =>
    match m v with
    | (.ok _, v') => inOrder ms v'
    | (.error e, v') => (.error e, v')

/-- A change of a value, made directly or through a reference to a part. -/
inductive Change (F : Type) where
  /-- `c = x` -/
  | assign (x : Value F)
  /-- a change of `c[i]` -/
  | index (i : Nat) (m : Change F)
  /-- a change of `c[k]` -/
  | key (k : List Nat) (m : Change F)
  /-- a change of `c.at(i)` -/
  | atIndex (i : Nat) (m : Change F)
  /-- a change of `c.at(k)` -/
  | atKey (k : List Nat) (m : Change F)
  /-- `c.push_back(x)` -/
  | push (x : Value F)
  /-- `c.erase(k)` -/
  | eraseKey (k : List Nat)
  /-- `c.erase(i)` -/
  | eraseIndex (i : Nat)
  /-- `c.erase(pos)` -/
  | erase (a : Nat) (pos : Iter)
  /-- `c.erase(first, last)` -/
  | eraseRange (a : Nat) (first last : Iter)
  /-- `c.clear()` -/
  | clear

/-- The call, its result dropped. -/
def drop {α : Type} (m : V F α) : V F Unit := fun v =>
  match m v with
  | (.ok _, v') => (.ok (), v')
  | (.error e, v') => (.error e, v')

/-- The call behind a change. -/
def Change.run (fo : FloatOps F) : Change F → V F Unit
  | .assign x => ValueOps.assign x
  | .index i m => withIndex i (m.run fo)
  | .key k m => withKey k (m.run fo)
  | .atIndex i m => ValueOps.atIndex i (m.run fo)
  | .atKey k m => ValueOps.atKey k (m.run fo)
  | .push x => pushBack x
  | .eraseKey k => drop (ValueOps.eraseKey k)
  | .eraseIndex i => ValueOps.eraseIndex i
  | .erase a pos => drop (eraseIter a pos)
  | .eraseRange a p q => drop (ValueOps.eraseRange a p q)
  | .clear => ValueOps.clear fo

/-- The values a change puts in. -/
def Change.values : Change F → List (Value F)
  | .assign x => [x]
  | .push x => [x]
  | .index _ m => m.values
  | .key _ m => m.values
  | .atIndex _ m => m.values
  | .atKey _ m => m.values
  | _ => []

/-! ## Objects as finite maps -/

/-- A finite map, by its lookup function. -/
abbrev FMap (F : Type) := List Nat → Option (Value F)

/-- Operations on an object. -/
inductive MapOp (F : Type) where
  | set (k : List Nat) (v : Value F)
  | erase (k : List Nat)
  | clear

/-- What they mean for a finite map. -/
def MapOp.apply (m : FMap F) : MapOp F → FMap F
  | .set k v => fun j => if j = k then some v else m j
  | .erase k => fun j => if j = k then none else m j
  | .clear => fun _ => none

/-- The calls `c[k] = v`, `c.erase(k)`, `c.clear()`. -/
def MapOp.run (fo : FloatOps F) : MapOp F → V F Unit
  | .set k v => withKey k (ValueOps.assign v)
  | .erase k => drop (ValueOps.eraseKey k)
  | .clear => ValueOps.clear fo

/-- The object has exactly the members of the map: read by `at`, counted by `count` and
`size`. -/
structure Represents (v : Value F) (m : FMap F) : Prop where
  object : v.type = .obj
  present : ∀ k x, m k = some x → ValueOps.atKey k read v = (.ok x, v) ∧ v.count k = 1
  absent : ∀ k, m k = none → ValueOps.atKey k read v = (.error (.exn .outOfRange), v) ∧ v.count k = 0
  size : ∃ ks : List (List Nat), ks.Nodup ∧ (∀ k, k ∈ ks ↔ m k ≠ none) ∧ v.size = ks.length

/-! ## Arrays as lists -/

/-- The list with `x` at position `i`; a gap is filled with nulls. -/
def setAt (xs : List (Value F)) (i : Nat) (x : Value F) : List (Value F) :=
  (List.range (max xs.length (i + 1))).map fun j => if j = i then x else xs[j]?.getD .null

/-- Operations on an array. -/
inductive SeqOp (F : Type) where
  | push (x : Value F)
  | set (i : Nat) (x : Value F)
  | erase (i : Nat)
  | clear

/-- What they mean for a list. -/
def SeqOp.apply (xs : List (Value F)) : SeqOp F → List (Value F)
  | .push x => xs ++ [x]
  | .set i x => setAt xs i x
  | .erase i => xs.take i ++ xs.drop (i + 1)
  | .clear => []

/-- The calls `c.push_back(x)`, `c[i] = x`, `c.erase(i)`, `c.clear()`. -/
def SeqOp.run (fo : FloatOps F) : SeqOp F → V F Unit
  | .push x => pushBack x
  | .set i x => withIndex i (ValueOps.assign x)
  | .erase i => ValueOps.eraseIndex i
  | .clear => ValueOps.clear fo

/-- An operation that is allowed on a list: indices to erase exist, indices to assign are below
the largest size of a vector. -/
def SeqOp.Allowed (xs : List (Value F)) : SeqOp F → Prop
  | .set i _ => i < vectorMax
  | .erase i => i < xs.length
  | _ => True

/-- All operations are allowed when their turn comes. -/
def AllAllowed : List (Value F) → List (SeqOp F) → Prop
  | _, [] => True
  | xs, op :: ops => op.Allowed xs ∧ AllAllowed (op.apply xs) ops

/-! ## Paths -/

/-- One step into a tree. -/
inductive PathStep where
  | idx (i : Nat)
  | key (k : List Nat)
  deriving DecidableEq

/-- The part of a tree at a path. -/
def lookup : Value F → List PathStep → Option (Value F)
  | v, [] => some v
  | .arr xs, .idx i :: p => xs[i]?.bind fun x => lookup x p
  | .obj ms, .key k :: p => (ms.lookup k).bind fun x => lookup x p
  | _, _ :: _ => none

/-- A step can be taken with `operator[]`: the value is null or a container of the right kind. -/
def Fits : Value F → PathStep → Prop
  | .null, _ => True
  | .arr _, .idx _ => True
  | .obj _, .key _ => True
  | _, _ => False

/-- `c[k1][k2]...[kn]` and the use of the result. -/
def withPath {α : Type} (f : V F α) : List PathStep → V F α
  | [] => f
  | .idx i :: p => withIndex i (withPath f p)
  | .key k :: p => withKey k (withPath f p)

/-- Neither path leads to the other. -/
def Diverge (p q : List PathStep) : Prop := ¬ p <+: q ∧ ¬ q <+: p

/-- All indices on the path are below the largest size of a vector. -/
def Small (p : List PathStep) : Prop := ∀ i, PathStep.idx i ∈ p → i < vectorMax

/-! ## Iteration -/

/-- The elements a loop over the value should visit. -/
def elements : Value F → List (Value F)
  | .null => []
  | .arr xs => xs
  | .obj ms => ms.map Prod.snd
  | v => [v]

/-- `for (auto it = first; it != last; ++it) visit(*it)`: the values visited, in order; at most
`n` steps. -/
def loop (v : Value F) : Nat → Iter → Iter → Except Stop (List (Value F))
  | 0, _, _ => .error .fuel
  | n + 1, it, last =>
    match it.eq v last with
    | .error e => .error e
    | .ok true => .ok []
    | .ok false =>
      match it.deref v with
      | .error e => .error e
      | .ok x =>
        match it.incr v with
        | .error e => .error e
        | .ok it' =>
          match loop v n it' last with
          | .error e => .error e
          | .ok xs => .ok (x :: xs)

/-- The same loop collecting `it.key()`. -/
def keyLoop (v : Value F) : Nat → Iter → Iter → Except Stop (List (List Nat))
  | 0, _, _ => .error .fuel
  | n + 1, it, last =>
    match it.eq v last with
    | .error e => .error e
    | .ok true => .ok []
    | .ok false =>
      match it.key v with
      | .error e => .error e
      | .ok x =>
        match it.incr v with
        | .error e => .error e
        | .ok it' =>
          match keyLoop v n it' last with
          | .error e => .error e
          | .ok xs => .ok (x :: xs)

/-- The same loop with reverse iterators. -/
def reverseLoop (v : Value F) : Nat → RIter → RIter → Except Stop (List (Value F))
  | 0, _, _ => .error .fuel
  | n + 1, it, last =>
    match it.eq v last with
    | .error e => .error e
    | .ok true => .ok []
    | .ok false =>
      match it.deref v with
      | .error e => .error e
      | .ok x =>
        match it.incr v with
        | .error e => .error e
        | .ok it' =>
          match reverseLoop v n it' last with
          | .error e => .error e
          | .ok xs => .ok (x :: xs)

/-- `it` is an iterator of the value `v` at address `a`, at position `p`: `0` is the first
element, `size()` the end. -/
def IterAt (a : Nat) (v : Value F) (p : Nat) (it : Iter) : Prop :=
  it.target = some a ∧ p ≤ (elements v).length ∧
  match v with
  | .arr _ => it.arrIt = some p
  | .obj _ => it.objIt = some p
  | _ => it.prim = p

/-! ## Comparison -/

/-- There is no floating point number in the value. -/
def FloatFree (v : Value F) : Prop := ∀ f, ¬ HasFloat v f

/-- Kinds of values that can be compared with each other: one kind of scalar, or arrays or
objects whose elements are of one kind. -/
inductive Kind where
  | null | bool | int | flt | str
  | arr (k : Kind)
  | obj (k : Kind)

/-- The value is of the kind, and its floating point numbers satisfy `Q`. -/
inductive HasKind (Q : F → Prop) : Kind → Value F → Prop where
  | null : HasKind Q .null .null
  | bool {b} : HasKind Q .bool (.bool b)
  | int {i} : HasKind Q .int (.int i)
  | flt {f} : Q f → HasKind Q .flt (.flt f)
  | str {s} : HasKind Q .str (.str s)
  | arr {k xs} : (∀ x ∈ xs, HasKind Q k x) → HasKind Q (.arr k) (.arr xs)
  | obj {k ms} : (∀ m ∈ ms, HasKind Q k m.2) → HasKind Q (.obj k) (.obj ms)

/-- A strict weak order on the elements that satisfy `P`. -/
structure StrictWeak {α : Type} (P : α → Prop) (r : α → α → Bool) : Prop where
  irrefl : ∀ a, P a → r a a = false
  trans : ∀ a b c, P a → P b → P c → r a b = true → r b c = true → r a c = true
  incomp : ∀ a b c, P a → P b → P c → r a b = false → r b a = false → r b c = false → r c b = false →
    r a c = false ∧ r c a = false

end Spec
