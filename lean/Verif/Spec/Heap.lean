import Verif.Model.Heap
/-!
# What memory stands for

A cell stands for a tree and owns the blocks that hold it. Programs are sequences of commands on
variables and parts of variables; their meaning is given on trees, where nothing is shared.
-/
namespace Spec
open Configor

variable {F : Type}

/-! ## Parts of trees -/

/-- The elements or members of a value, in order. -/
def kids : Value F → List (Value F)
  | .arr xs => xs
  | .obj ms => ms.map Prod.snd
  | _ => []

/-- The value with other elements or members in their places. -/
def withKids : Value F → List (Value F) → Value F
  | .arr _, xs => .arr xs
  | .obj ms, xs => .obj ((ms.map Prod.fst).zip xs)
  | v, _ => v

/-- The part at a path: the `i`-th element or member, and so on. -/
def part : Value F → List Nat → Option (Value F)
  | v, [] => some v
  | v, i :: p => (kids v)[i]?.bind fun x => part x p

/-- The value with `w` instead of the part at a path. -/
def replace : Value F → List Nat → Value F → Value F
  | _, [], w => w
  | v, i :: p, w => match (kids v)[i]? with
    | some x => withKids v ((kids v).set i (replace x p w))
    | none => v

/-! ## Cells and trees -/

/-- `R` holds of the elements of three lists, one by one. -/
inductive All3 {A B C : Type} (R : A → B → C → Prop) : List A → List B → List C → Prop where
  | nil : All3 R [] [] []
  | cons {a b c as bs cs} : R a b c → All3 R as bs cs → All3 R (a :: as) (b :: bs) (c :: cs)

/-- A scalar or a string: no block, or one. -/
def Flat (mem : Nat → Option (Block F)) : Cell F → Value F → List Nat → Prop
  | .null, .null, fp => fp = []
  | .bool a, .bool b, fp => a = b ∧ fp = []
  | .int a, .int b, fp => a = b ∧ fp = []
  | .flt a, .flt b, fp => a = b ∧ fp = []
  | .str a, .str s, fp => mem a = some (.str s) ∧ fp = [a]
  | _, _, _ => False

/-- Cell and block are those of an array or object at address `a`, with as many elements and with the same keys. -/
def Node (a : Nat) : Cell F → Block F → Value F → Prop
  | .arr a', .arr _, .arr _ => a' = a
  | .obj a', .obj ms, .obj ms' => a' = a ∧ ms.map Prod.fst = ms'.map Prod.fst
  | _, _, _ => False

/-- In memory `mem` the cell stands for the tree, and holds it in exactly the blocks of the list: one for each
string, array and object in the tree. The tree is nested at most `n` deep. -/
def Repr (mem : Nat → Option (Block F)) : Nat → Cell F → Value F → List Nat → Prop
  | 0, c, v, fp => Flat mem c v fp
  | n + 1, c, v, fp => Flat mem c v fp ∨
    ∃ a b fps, mem a = some b ∧ Node a c b v ∧ All3 (Repr mem n) b.cells (kids v) fps ∧ fp = a :: fps.flatten

/-- The variable is dead, or it stands for a value. -/
def Stands (mem : Nat → Option (Block F)) : Option (Cell F) → Option (Value F) → List Nat → Prop
  | none, none, fp => fp = []
  | some c, some v, fp => ∃ n, Repr mem n c v fp
  | _, _, _ => False

/-- The contents of all variables, with the blocks each of them owns: no block is owned twice, within a variable or by
two of them. -/
structure Owns (s : State F) (V : Var → Option (Value F)) (fp : Var → List Nat) : Prop where
  stands : ∀ x, Stands s.heap.mem (s.vars x) (V x) (fp x)
  nodup : ∀ x, (fp x).Nodup
  disjoint : ∀ x y, x ≠ y → ∀ a ∈ fp x, a ∉ fp y
  fresh : ∀ a, s.heap.next ≤ a → s.heap.mem a = none

/-- The contents of the variables of a program. -/
abbrev Env (F : Type) := Nat → Option (Value F)

/-- No other variables are alive. -/
def Env.all (E : Env F) : Var → Option (Value F)
  | .user n => E n
  | _ => none

/-- The variables of the program have the given contents, every block belongs to one place in one of them, and exactly
the blocks in `L` are allocated and belong to none. -/
def Holds (s : State F) (E : Env F) (L : Nat → Prop) : Prop :=
  ∃ fp, Owns s E.all fp ∧ ∀ a, L a ↔ s.heap.mem a ≠ none ∧ ∀ x, a ∉ fp x

/-- No blocks. -/
def nothing : Nat → Prop := fun _ => False

/-! ## Programs -/

/-- A reference to a part of a variable. -/
structure Ref where
  var : Nat
  path : List Nat
  deriving DecidableEq

/-- A statement of a program. -/
inductive Cmd (F : Type) where
  /-- `basic_value x(v)`, for a scalar, a string, an empty array or object -/
  | new (x : Nat) (v : Value F)
  /-- `basic_value x(src)` -/
  | copy (x : Nat) (src : Ref)
  /-- `basic_value x(std::move(src))` -/
  | move (x : Nat) (src : Ref)
  /-- the end of the life of `x` -/
  | delete (x : Nat)
  /-- `dst = src` -/
  | copyAssign (dst src : Ref)
  /-- `dst = std::move(src)` -/
  | moveAssign (dst src : Ref)
  /-- `a.swap(b)` -/
  | swap (a b : Ref)
  /-- `dst.clear()` -/
  | clear (dst : Ref)
  /-- `dst.push_back(src)` -/
  | push (dst src : Ref)
  /-- `dst.push_back(std::move(src))` -/
  | pushMove (dst src : Ref)
  /-- `dst[k]` -/
  | key (dst : Ref) (k : List Nat)
  /-- `dst[i]` -/
  | index (dst : Ref) (i : Nat)
  /-- `dst.erase(…)` of the `i`-th element or member -/
  | erase (dst : Ref) (i : Nat)

namespace Cmd

/-- A command as a call; `fo` has the floating point zero. -/
def run (fo : FloatOps F) : Cmd F → M (State F) Unit
  | .new x v => State.construct (.user x) v
  | .copy x r => do State.copyConstruct (.user x) (← State.ref (.user r.var) r.path)
  | .move x r => do State.moveConstruct (.user x) (← State.ref (.user r.var) r.path)
  | .delete x => State.destruct (.user x)
  | .copyAssign d r => do
    State.copyAssign (← State.ref (.user d.var) d.path) (← State.ref (.user r.var) r.path)
  | .moveAssign d r => do
    State.moveAssign (← State.ref (.user d.var) d.path) (← State.ref (.user r.var) r.path)
  | .swap d r => do
    State.swap (← State.ref (.user d.var) d.path) (← State.ref (.user r.var) r.path)
  | .clear d => do State.clear (fo.ofInt 0) (← State.ref (.user d.var) d.path)
  | .push d r => do
    State.pushBack (← State.ref (.user d.var) d.path) (← State.ref (.user r.var) r.path)
  | .pushMove d r => do
    State.pushMove (← State.ref (.user d.var) d.path) (← State.ref (.user r.var) r.path)
  | .key d k => do State.touchKey (← State.ref (.user d.var) d.path) k
  | .index d i => do State.touchIndex (← State.ref (.user d.var) d.path) i
  | .erase d i => do State.eraseAt (← State.ref (.user d.var) d.path) i

end Cmd

/-- The value a reference refers to. -/
def Env.get (E : Env F) (r : Ref) : Option (Value F) := (E r.var).bind fun v => part v r.path

/-- The contents after a value was assigned through a reference. -/
def Env.set (E : Env F) (r : Ref) (w : Value F) : Env F :=
  fun x => if x = r.var then (E x).map fun v => replace v r.path w else E x

/-- The contents after a variable was declared with a value, or died. -/
def Env.bind (E : Env F) (x : Nat) (w : Option (Value F)) : Env F := fun y => if y = x then w else E y

/-- The same, if there is a value to assign. -/
def Env.put (E : Env F) (r : Ref) : Option (Value F) → Env F
  | some w => E.set r w
  | none => E

/-- `r` is a part of `q`, and not all of it. -/
def Ref.Inside (r q : Ref) : Prop := r.var = q.var ∧ q.path <+: r.path ∧ r.path ≠ q.path

/-- A value without elements. -/
def Childless (v : Value F) : Prop := kids v = []

/-- `v` instead of null. -/
def fillWith (v : Value F) : Value F → Value F
  | .null => v
  | u => u

/-- A value of the same type with nothing in it. -/
def emptied (zero : F) : Value F → Value F
  | .null => .null
  | .bool _ => .bool false
  | .int _ => .int 0
  | .flt _ => .flt zero
  | .str _ => .str []
  | .arr _ => .arr []
  | .obj _ => .obj []

/-- A container without its `i`-th element or member. -/
def erased (i : Nat) : Value F → Value F
  | .arr xs => .arr (xs.eraseIdx i)
  | .obj ms => .obj (ms.eraseIdx i)
  | v => v

/-- An array with one more element. -/
def appended : Option (Value F) → Option (Value F) → Option (Value F)
  | some (.arr us), some w => some (.arr (us ++ [w]))
  | _, _ => none

/-- An object with a null member `k`, unless it has one already. -/
def keyed (k : List Nat) : Option (Value F) → Option (Value F)
  | some (.obj ms) => some (.obj (Map.emplace k .null ms))
  | _ => none

/-- An array with null elements up to number `i`. -/
def indexed (i : Nat) : Option (Value F) → Option (Value F)
  | some (.arr us) => some (.arr (us ++ List.replicate (i + 1 - us.length) .null))
  | _ => none

namespace Cmd

/-- What some commands do first: a null becomes an empty container. -/
def begun : Cmd F → Env F → Env F
  | .push d _, E => E.put d ((E.get d).map (fillWith (.arr [])))
  | .pushMove d _, E => E.put d ((E.get d).map (fillWith (.arr [])))
  | .index d _, E => E.put d ((E.get d).map (fillWith (.arr [])))
  | .key d _, E => E.put d ((E.get d).map (fillWith (.obj [])))
  | _, E => E

/-- What a command means: the contents of the variables after it. -/
def meaning (fo : FloatOps F) (c : Cmd F) (E : Env F) : Env F :=
  match c with
  | .new x v => E.bind x (some v)
  | .copy x r => E.bind x (E.get r)
  | .move x r => (E.set r .null).bind x (E.get r)
  | .delete x => E.bind x none
  | .copyAssign d r => E.put d (E.get r)
  | .moveAssign d r => if d = r then E else (E.set r .null).put d (E.get r)
  | .swap a b => (E.put a (E.get b)).put b (E.get a)
  | .clear d => E.put d ((E.get d).map (emptied (fo.ofInt 0)))
  | .push d r =>
    let E := begun (.push d r) E
    E.put d (appended (E.get d) (E.get r))
  | .pushMove d r =>
    let E := begun (.pushMove d r) E
    let w := E.get r
    let E := E.set r .null
    E.put d (appended (E.get d) w)
  | .key d k =>
    let E := begun (.key d k) E
    E.put d (keyed k (E.get d))
  | .index d i =>
    let E := begun (.index d i) E
    E.put d (indexed i (E.get d))
  | .erase d i => E.put d ((E.get d).map (erased i))

/-- The reference refers to null or an array. -/
def ArrayLike (E : Env F) (d : Ref) : Prop := E.get d = some .null ∨ ∃ us, E.get d = some (.arr us)

/-- The reference refers to null or an object. -/
def ObjectLike (E : Env F) (d : Ref) : Prop := E.get d = some .null ∨ ∃ ms, E.get d = some (.obj ms)

/-- Commands whose variables and references exist, on containers of the right type. Moving a value into a part of
itself, and swapping a value with a part of itself, are left out. -/
def Allowed (c : Cmd F) (E : Env F) : Prop :=
  match c with
  | .new x v => E x = none ∧ Childless v
  | .copy x r => E x = none ∧ E.get r ≠ none
  | .move x r => E x = none ∧ E.get r ≠ none
  | .delete x => E x ≠ none
  | .copyAssign d r => E.get d ≠ none ∧ E.get r ≠ none
  | .moveAssign d r => E.get d ≠ none ∧ E.get r ≠ none ∧ ¬ d.Inside r
  | .swap a b => E.get a ≠ none ∧ E.get b ≠ none ∧ ¬ a.Inside b ∧ ¬ b.Inside a
  | .clear d => E.get d ≠ none
  | .push d r => ArrayLike E d ∧ E.get r ≠ none
  | .pushMove d r => ArrayLike E d ∧ E.get r ≠ none ∧ d ≠ r ∧ ¬ d.Inside r
  | .key d _ => ObjectLike E d
  | .index d _ => ArrayLike E d
  | .erase d i => ∃ u, E.get d = some u ∧ i < (kids u).length

/-- The variables a command names. -/
def vars : Cmd F → List Nat
  | .new x _ => [x]
  | .copy x r => [x, r.var]
  | .move x r => [x, r.var]
  | .delete x => [x]
  | .copyAssign d r => [d.var, r.var]
  | .moveAssign d r => [d.var, r.var]
  | .swap a b => [a.var, b.var]
  | .clear d => [d.var]
  | .push d r => [d.var, r.var]
  | .pushMove d r => [d.var, r.var]
  | .key d _ => [d.var]
  | .index d _ => [d.var]
  | .erase d _ => [d.var]

/-- The variables a command may change: all it names, but not those it only copies from. -/
def targets : Cmd F → List Nat
  | .copy x _ => [x]
  | .copyAssign d _ => [d.var]
  | .push d _ => [d.var]
  | c => c.vars

/-- Moves, swaps, destruction, `clear` and `erase`. -/
def AllocatesNothing : Cmd F → Prop
  | .move _ _ | .delete _ | .moveAssign _ _ | .swap _ _ | .clear _ | .erase _ _ => True
  | _ => False

/-- Commands one after the other, until one fails. -/
def runAll (fo : FloatOps F) : List (Cmd F) → M (State F) Unit
  | [] => pure ()
  | c :: cs => do
    c.run fo
    runAll fo cs

end Cmd

/-- Each command is allowed for the contents the ones before it leave. -/
def ProgramAllowed (fo : FloatOps F) : Env F → List (Cmd F) → Prop
  | _, [] => True
  | E, c :: cs => c.Allowed E ∧ ProgramAllowed fo (c.meaning fo E) cs

/-! ## Histories -/

/-- The contents of the variables, as far as reading can tell. -/
def Shows (s : State F) (E : Env F) : Prop :=
  ∀ x, match s.vars (.user x), E x with
    | none, none => True
    | some c, some v => ∃ n fp, Repr s.heap.mem n c v fp
    | _, _ => False

/-- No variables and no memory; `plan t` says whether the `t`-th allocation succeeds. -/
def start (plan : Nat → Bool) : State F where
  heap := { mem := fun _ => none, next := 0, plan := plan, tick := 0 }
  vars := fun _ => none

/-- States after any number of commands, each allowed for the contents at the time. Commands that were ended by a
failed allocation are followed by others: the program has caught the exception. -/
inductive Reach (fo : FloatOps F) : State F → Prop where
  | start (plan : Nat → Bool) : Reach fo (start plan)
  | step {s s' : State F} {E : Env F} {c : Cmd F} {r : Except Stop Unit} :
    Reach fo s → Shows s E → c.Allowed E → c.run fo s = (r, s') → Reach fo s'

/-- From one state to another, by commands that do not change the variable `x`. -/
inductive Without (fo : FloatOps F) (x : Nat) : State F → State F → Prop where
  | refl (s : State F) : Without fo x s s
  | step {s s' s'' : State F} {E : Env F} {c : Cmd F} {r : Except Stop Unit} :
    Without fo x s s' → Shows s' E → c.Allowed E → x ∉ c.targets → c.run fo s' = (r, s'') → Without fo x s s''

end Spec
