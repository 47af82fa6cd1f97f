import Verif.Model.Heap
/-!
# The operations of `Model/Heap` as sequences of steps

A thread can be interrupted between any two accesses to memory. Here the operations of `Model/Heap` are programs that consist of single
steps: an allocation, the construction or deallocation of a block, an access to a block or to a variable. Reading or replacing the
content of one block is one step.
-/
namespace Configor

variable {F : Type}

/-- A program: its result, or its first step and the rest of it, which depends on how the step ended. Model infrastructure for the
functions at value.hpp:81-169, 348-467, 680-816. -/
inductive Prog (σ α : Type) : Type 1 where
  | done (r : Except Stop α)
  | step {β : Type} (m : M σ β) (rest : Except Stop β → Prog σ α)

namespace Prog
variable {σ α β : Type}

/-- One program after another. Model infrastructure (`;`), see value.hpp:689-707. -/
def bind : Prog σ α → (α → Prog σ β) → Prog σ β
  | .done (.ok a), f => f a
  | .done (.error e), _ => .done (.error e)
  | .step m k, f => .step m fun r => bind (k r) f

instance : Monad (Prog σ) where
  pure a := .done (.ok a)
  bind := bind

/-- A single step. Model infrastructure: an access to memory, e.g. value.hpp:683. -/
def act (m : M σ α) : Prog σ α := .step m .done

/-- Stop abnormally. See exception.hpp:25-94. -/
def stop (e : Stop) : Prog σ α := .done (.error e)

/-- If the program does not end normally, `cleanup` is done on the way out. See `Heap.unwinding`. value.hpp:1106. -/
def unwinding : Prog σ α → Prog σ Unit → Prog σ α
  | .done (.ok a), _ => .done (.ok a)
  | .done (.error e), cleanup => bind cleanup fun _ => .done (.error e)
  | .step m k, cleanup => .step m fun r => unwinding (k r) cleanup

/-- All steps of a program, without interruption. See value.hpp:81-169, 348-467, 680-816. -/
def run : Prog σ α → M σ α
  | .done r => fun s => (r, s)
  | .step m k => fun s => run (k (m s).1) (m s).2

/-- How many steps a program makes without interruption. See value.hpp:81-169, 348-467, 680-816. -/
def cost : Prog σ α → σ → Nat
  | .done _, _ => 0
  | .step m k, s => cost (k (m s).1) (m s).2 + 1

end Prog

namespace Steps
open Prog

/-- A step on the heap. Model infrastructure for value.hpp:1098-1118. -/
def heap {α : Type} (m : M (Heap F) α) : Prog (State F) α := act (State.onHeap m)

/-- See `Heap.allocate`. value.hpp:1105. -/
def allocate : Prog (State F) Nat := do
  heap Heap.attempt
  heap Heap.extend

/-- See `Heap.attemptIf`. value.hpp:439, 725, 745, 1106. -/
def attemptIf (needed : Bool) : Prog (State F) Unit := if needed then heap Heap.attempt else pure ()

/-- See `Heap.each`. value.hpp:1116. -/
def each (d : Cell F → Prog (State F) Unit) : List (Cell F) → Prog (State F) Unit
  | [] => pure ()
  | c :: cs => do d c; each d cs

/-- See `Heap.destroy`. value.hpp:1037-1053, 1110-1118. -/
def destroy : Nat → Cell F → Prog (State F) Unit
  | _, .str a => do
    let _ ← heap (Heap.string a)
    heap (Heap.free a)
  | 0, .arr _ => stop .fuel
  | 0, .obj _ => stop .fuel
  | n + 1, .arr a => do
    let cs ← heap (Heap.vector a)
    each (destroy n) cs
    heap (Heap.free a)
  | n + 1, .obj a => do
    let ms ← heap (Heap.map a)
    each (destroy n) (ms.map Prod.snd)
    heap (Heap.free a)
  | _, _ => pure ()

/-- See `Heap.copyAll`. value.hpp:117-145, 1106. -/
def copyAll (f : Cell F → Prog (State F) (Cell F)) (d : Cell F → Prog (State F) Unit) : List (Cell F) → Prog (State F) (List (Cell F))
  | [] => pure []
  | c :: cs => do
    heap Heap.attempt
    let c' ← f c
    let cs' ← unwinding (copyAll f d cs) (d c')
    pure (c' :: cs')

/-- See `Heap.copy`. value.hpp:117-145, 1056-1090, 1098-1108. -/
def copy : Nat → Cell F → Prog (State F) (Cell F)
  | _, .str a => do
    let s ← heap (Heap.string a)
    let p ← allocate
    heap Heap.attempt
    heap (Heap.put p (.str s))
    pure (.str p)
  | 0, .arr _ => stop .fuel
  | 0, .obj _ => stop .fuel
  | n + 1, .arr a => do
    let cs ← heap (Heap.vector a)
    let p ← allocate
    heap Heap.attempt
    let cs' ← copyAll (copy n) (destroy n) cs
    heap (Heap.put p (.arr cs'))
    pure (.arr p)
  | n + 1, .obj a => do
    let ms ← heap (Heap.map a)
    let p ← allocate
    heap Heap.attempt
    let cs' ← copyAll (copy n) (destroy n) (ms.map Prod.snd)
    heap (Heap.put p (.obj ((ms.map Prod.fst).zip cs')))
    pure (.obj p)
  | _, c => pure c

/-- See `Heap.create`. value.hpp:1098-1108. -/
def create (b : Block F) : Prog (State F) Nat := do
  let p ← allocate
  heap Heap.attempt
  heap (Heap.put p b)
  pure p

/-- See `State.read`. value.hpp:1005-1006. -/
def read (l : Loc) : Prog (State F) (Cell F) := act (State.read l)

/-- See `State.write`. value.hpp:1005-1006. -/
def write (l : Loc) (c : Cell F) : Prog (State F) Unit := act (State.write l c)

/-- See `State.declare`. value.hpp:81-163. -/
def declare (x : Var) (c : Cell F) : Prog (State F) Unit := act (State.declare x c)

/-- See `State.forget`. value.hpp:165-169. -/
def forget (x : Var) : Prog (State F) Unit := act (State.forget x)

/-- See `State.depth`: a bound for the model only. value.hpp:1037-1053, 117-145. -/
def depth : Prog (State F) Nat := act (M.gets State.depth)

/-- See `State.destruct`. value.hpp:165-169. -/
def destruct (x : Var) : Prog (State F) Unit := do
  let c ← read (.var x)
  let n ← depth
  destroy n c
  forget x

/-- See `State.construct`. value.hpp:81-115, 155-163. -/
def construct (x : Var) : Value F → Prog (State F) Unit
  | .str s => do declare x (.str (← create (.str s)))
  | .arr _ => do declare x (.arr (← create (.arr [])))
  | .obj _ => do declare x (.obj (← create (.obj [])))
  | .null => declare x .null
  | .bool b => declare x (.bool b)
  | .int i => declare x (.int i)
  | .flt f => declare x (.flt f)

/-- See `State.copyConstruct`. value.hpp:117-145. -/
def copyConstruct (x : Var) (src : Loc) : Prog (State F) Unit := do
  let c ← read src
  let n ← depth
  let c' ← copy n c
  declare x c'

/-- See `State.moveConstruct`. value.hpp:147-153. -/
def moveConstruct (x : Var) (src : Loc) : Prog (State F) Unit := do
  let c ← read src
  declare x c
  write src .null

/-- See `State.swap`. value.hpp:681-685. -/
def swap (l r : Loc) : Prog (State F) Unit := do
  let a ← read l
  let b ← read r
  write l b
  write r a

/-- See `State.copyAssign`. value.hpp:689-697. -/
def copyAssign (dst src : Loc) : Prog (State F) Unit :=
  if dst = src then pure ()
  else do
    copyConstruct .tmp src
    swap dst (.var .tmp)
    destruct .tmp

/-- See `State.moveAssign`. value.hpp:699-707. -/
def moveAssign (dst src : Loc) : Prog (State F) Unit :=
  if dst = src then pure ()
  else do
    moveConstruct .tmp dst
    swap dst src
    destruct .tmp

/-- See `State.become`. value.hpp:435-438, 713-716, 737-740, 769-772. -/
def become (dst : Loc) (v : Value F) : Prog (State F) Unit := do
  construct .arg v
  moveAssign dst (.var .arg)
  destruct .arg

/-- See `State.fill`. value.hpp:435-438 and the like. -/
def fill (dst : Loc) (v : Value F) : Prog (State F) Unit := do
  match (← read dst) with
  | .null => become dst v
  | _ => pure ()

/-- See `State.asArray`. value.hpp:431-438, 713-721. -/
def asArray (e : Err) (dst : Loc) : Prog (State F) Nat := do
  fill dst (.arr [])
  match (← read dst) with
  | .arr a => pure a
  | _ => stop (.exn e)

/-- See `State.asObject`. value.hpp:737-744. -/
def asObject (e : Err) (dst : Loc) : Prog (State F) Nat := do
  fill dst (.obj [])
  match (← read dst) with
  | .obj a => pure a
  | _ => stop (.exn e)

/-- See `State.pushBack`. value.hpp:418-440. -/
def pushBack (dst src : Loc) : Prog (State F) Unit := do
  let a ← asArray .typeError dst
  heap Heap.attempt
  let c ← read src
  let n ← depth
  let c' ← copy n c
  let cs ← heap (Heap.vector a)
  heap (Heap.put a (.arr (cs ++ [c'])))

/-- See `State.pushMove`. value.hpp:423-440. -/
def pushMove (dst src : Loc) : Prog (State F) Unit := do
  let a ← asArray .typeError dst
  heap Heap.attempt
  let c ← read src
  write src .null
  let cs ← heap (Heap.vector a)
  heap (Heap.put a (.arr (cs ++ [c])))

/-- See `State.touchKey`. value.hpp:735-746. -/
def touchKey (dst : Loc) (k : List Nat) : Prog (State F) Unit := do
  let a ← asObject .invalidKey dst
  let ms ← heap (Heap.map a)
  attemptIf (Map.find k ms).isNone
  heap (Heap.put a (.obj (Map.emplace k .null ms)))

/-- See `State.touchIndex`. value.hpp:711-728. -/
def touchIndex (dst : Loc) (i : Nat) : Prog (State F) Unit := do
  let a ← asArray .invalidKey dst
  let cs ← heap (Heap.vector a)
  attemptIf (decide (cs.length ≤ i))
  heap (Heap.put a (.arr (cs ++ List.replicate (i + 1 - cs.length) .null)))

/-- See `State.clear`. value.hpp:442-467. -/
def clear (zero : F) (dst : Loc) : Prog (State F) Unit := do
  let n ← depth
  match (← read dst) with
  | .null => pure ()
  | .bool _ => write dst (.bool false)
  | .int _ => write dst (.int 0)
  | .flt _ => write dst (.flt zero)
  | .str a => do
    let _ ← heap (Heap.string a)
    heap (Heap.put a (.str []))
  | .arr a => do
    let cs ← heap (Heap.vector a)
    each (destroy n) cs
    heap (Heap.put a (.arr []))
  | .obj a => do
    let ms ← heap (Heap.map a)
    each (destroy n) (ms.map Prod.snd)
    heap (Heap.put a (.obj []))

/-- See `State.eraseAt`. value.hpp:348-390. -/
def eraseAt (dst : Loc) (i : Nat) : Prog (State F) Unit := do
  let n ← depth
  match (← read dst) with
  | .arr a => do
    let cs ← heap (Heap.vector a)
    match cs[i]? with
    | some c => do
      destroy n c
      heap (Heap.put a (.arr (cs.eraseIdx i)))
    | none => stop .ub
  | .obj a => do
    let ms ← heap (Heap.map a)
    match ms[i]? with
    | some m => do
      destroy n m.2
      heap (Heap.put a (.obj (ms.eraseIdx i)))
    | none => stop .ub
  | _ => stop (.exn .invalidKey)

/-- See `State.locate`. value.hpp:711-816. -/
def locate (here : Loc) (c : Cell F) : List Nat → Prog (State F) Loc
  | [] => pure here
  | i :: p => do
    let a ← match c with
      | .arr a => pure a
      | .obj a => pure a
      | _ => stop (.exn .invalidKey)
    let c' ← read (.slot a i)
    locate (.slot a i) c' p

/-- See `State.ref`. value.hpp:711-816. -/
def ref (x : Var) (p : List Nat) : Prog (State F) Loc := do
  locate (.var x) (← read (.var x)) p

end Steps

/-! ## Several threads -/

/-- The memory of threads. Addresses below `start` are the same for all of them; from `start` on, each thread numbers the blocks it has
allocated itself, so that different threads mean different blocks by one such number, as allocators never give one address to two
of them. Each thread has its own local variables and its own plan of failing allocations; the variables of the program are there for
all. value.hpp:71-79, 689-707, 1098-1118. -/
structure Joint (F : Type) where
  start : Nat
  mem : Nat → Option (Block F)
  heaps : Nat → Heap F
  vars : Nat → Option (Cell F)
  locals : Nat → Var → Option (Cell F)

namespace Joint

/-- What thread `i` can access. value.hpp:71-79, 689-707. -/
def view (g : Joint F) (i : Nat) : State F where
  heap := { g.heaps i with mem := fun a => if a < g.start then g.mem a else (g.heaps i).mem a }
  vars
    | .user x => g.vars x
    | y => g.locals i y

/-- The memory after thread `i` has changed what it can access to `s`. value.hpp:71-79, 689-707. -/
def back (g : Joint F) (i : Nat) (s : State F) : Joint F where
  start := g.start
  mem a := if a < g.start then s.heap.mem a else g.mem a
  heaps := upd g.heaps i s.heap
  vars x := s.vars (.user x)
  locals := upd g.locals i s.vars

/-- When the threads begin: all blocks are there for all. value.hpp:71-79. -/
def of (s : State F) : Joint F where
  start := s.heap.next
  mem := s.heap.mem
  heaps _ := s.heap
  vars x := s.vars (.user x)
  locals _ := s.vars

end Joint

/-- Threads: what each of them still has to do, and the memory. value.hpp:71-79, 81-816. -/
structure Threads (F : Type) where
  todo : Nat → Prog (State F) Unit
  joint : Joint F

namespace Threads

/-- Thread `i` makes one step, if it has not ended. See value.hpp:81-816. -/
def turn (T : Threads F) (i : Nat) : Threads F :=
  match T.todo i with
  | .done _ => T
  | .step m k =>
    let r := m (T.joint.view i)
    ⟨fun j => if j = i then k r.1 else T.todo j, T.joint.back i r.2⟩

/-- Threads make steps in the given order. See value.hpp:81-816. -/
def turns (T : Threads F) (sched : List Nat) : Threads F := sched.foldl turn T

end Threads
end Configor
