import Verif.Model.ValueOps
/-!
# Memory (include/configor/details/value.hpp)

Values with their heap blocks. A `basic_value` is a cell: a type tag and either a number or the
address of a block; a block is the `std::string`, `std::vector` or `std::map` that the value owns,
together with the buffer or the nodes the container owns itself. Elements of containers are
cells too.

Every allocation may fail, as `Heap.plan` decides. An allocation that is not made (an empty
vector has no buffer, a short string none either) is one that succeeds.
-/
namespace Configor

variable {F : Type}

/-- `basic_value`: `type_` and `data_`, value.hpp:71-79, 1005-1006. -/
inductive Cell (F : Type) where
  | null
  | bool (b : Bool)
  | int (i : Int)
  | flt (f : F)
  | str (a : Nat)
  | arr (a : Nat)
  | obj (a : Nat)

/-- What an address holds; `raw` is memory that has been allocated and not (yet) constructed.
What `create_data` makes, value.hpp:1098-1108. -/
inductive Block (F : Type) where
  | raw
  | str (s : List Nat)
  | arr (cs : List (Cell F))
  | obj (ms : List (List Nat × Cell F))

namespace Block

/-- The values in a block. For value.hpp:71-79. -/
def cells : Block F → List (Cell F)
  | .arr cs => cs
  | .obj ms => ms.map Prod.snd
  | _ => []

/-- The block with other values in their places. For value.hpp:71-79. -/
def withCells : Block F → List (Cell F) → Block F
  | .arr _, cs => .arr cs
  | .obj ms, cs => .obj ((ms.map Prod.fst).zip cs)
  | b, _ => b

end Block

/-- The heap. Addresses from `next` on have never been used; the `tick`-th attempt to allocate is
the next one. `allocator_type`, value.hpp:1103-1105, configor.hpp:54-55. -/
structure Heap (F : Type) where
  mem : Nat → Option (Block F)
  next : Nat
  plan : Nat → Bool
  tick : Nat

/-- A function changed in one place. Model infrastructure: an assignment, e.g. value.hpp:683-684. -/
def upd {A B : Type} [DecidableEq A] (f : A → B) (a : A) (b : B) : A → B := fun x => if x = a then b else f x

namespace Heap

/-- An allocation by a container for itself. For value.hpp:439, 725, 745, 1106. -/
def attempt : M (Heap F) Unit := fun h =>
  if h.plan h.tick then (.ok (), { h with tick := h.tick + 1 })
  else (.error (.exn .badAlloc), { h with tick := h.tick + 1 })

/-- An allocation that is made only when needed. For value.hpp:439, 725, 745, 1106. -/
def attemptIf (needed : Bool) : M (Heap F) Unit := if needed then attempt else pure ()

/-- A new address. For value.hpp:1105. -/
def extend : M (Heap F) Nat := fun h =>
  (.ok h.next, { h with mem := upd h.mem h.next (some .raw), next := h.next + 1 })

/-- `allocator_traits::allocate(allocator, 1)`, value.hpp:1105. -/
def allocate : M (Heap F) Nat := do
  attempt
  extend

/-- `allocator_traits::construct`, value.hpp:1106, when the container has been built. -/
def put (a : Nat) (b : Block F) : M (Heap F) Unit := fun h =>
  match h.mem a with
  | some _ => (.ok (), { h with mem := upd h.mem a (some b) })
  | none => (.error .ub, h)

/-- `allocator_traits::deallocate`, value.hpp:1117. -/
def free (a : Nat) : M (Heap F) Unit := fun h =>
  match h.mem a with
  | some _ => (.ok (), { h with mem := upd h.mem a none })
  | none => (.error .ub, h)

/-- The string at an address. `data().string`, value.hpp:71-79. -/
def string (a : Nat) : M (Heap F) (List Nat) := fun h =>
  match h.mem a with
  | some (.str s) => (.ok s, h)
  | _ => (.error .ub, h)

/-- The vector at an address. `data().vector`, value.hpp:71-79. -/
def vector (a : Nat) : M (Heap F) (List (Cell F)) := fun h =>
  match h.mem a with
  | some (.arr cs) => (.ok cs, h)
  | _ => (.error .ub, h)

/-- The map at an address. `data().object`, value.hpp:71-79. -/
def map (a : Nat) : M (Heap F) (List (List Nat × Cell F)) := fun h =>
  match h.mem a with
  | some (.obj ms) => (.ok ms, h)
  | _ => (.error .ub, h)

/-- One after the other. The loops in the destructors of containers, value.hpp:1116. -/
def each (d : Cell F → M (Heap F) Unit) : List (Cell F) → M (Heap F) Unit
  | [] => pure ()
  | c :: cs => do d c; each d cs

/-- `destroy`, value.hpp:1037-1053, 1110-1118: the destructor of the container destroys the elements.
The first argument bounds the depth. -/
def destroy : Nat → Cell F → M (Heap F) Unit
  | _, .str a => do
    let _ ← string a
    free a
  | 0, .arr _ => M.stop .fuel
  | 0, .obj _ => M.stop .fuel
  | n + 1, .arr a => do
    let cs ← vector a
    each (destroy n) cs
    free a
  | n + 1, .obj a => do
    let ms ← map a
    each (destroy n) (ms.map Prod.snd)
    free a
  | _, _ => pure ()

/-- If `m` does not end normally, `cleanup` is done on the way out. For value.hpp:1106, 693, 703. -/
def unwinding {α : Type} (m : M (Heap F) α) (cleanup : M (Heap F) Unit) : M (Heap F) α := fun h =>
  match m h with
  | (.ok a, h) => (.ok a, h)
  | (.error e, h) =>
    match cleanup h with
    | (.ok _, h) => (.error e, h)
    | (.error e', h) => (.error e', h)

/-- Copies of the elements of a container; `attempt` is for the node of a `std::map` and its key. If
one fails, the container destroys those it has.
The copy constructors of containers, value.hpp:117-145, 1106. -/
def copyAll (f : Cell F → M (Heap F) (Cell F)) (d : Cell F → M (Heap F) Unit) : List (Cell F) → M (Heap F) (List (Cell F))
  | [] => pure []
  | c :: cs => do
    attempt
    let c' ← f c
    let cs' ← unwinding (copyAll f d cs) (d c')
    pure (c' :: cs')

/-- The copy constructor, value.hpp:117-145, with `construct`, 1056-1090, and `create_data`,
1098-1108: if the construction of the container throws, the memory for it is not given back. -/
def copy : Nat → Cell F → M (Heap F) (Cell F)
  | _, .str a => do
    let s ← string a
    let p ← allocate
    attempt
    put p (.str s)
    pure (.str p)
  | 0, .arr _ => M.stop .fuel
  | 0, .obj _ => M.stop .fuel
  | n + 1, .arr a => do
    let cs ← vector a
    let p ← allocate
    attempt
    let cs' ← copyAll (copy n) (destroy n) cs
    put p (.arr cs')
    pure (.arr p)
  | n + 1, .obj a => do
    let ms ← map a
    let p ← allocate
    attempt
    let cs' ← copyAll (copy n) (destroy n) (ms.map Prod.snd)
    put p (.obj ((ms.map Prod.fst).zip cs'))
    pure (.obj p)
  | _, c => pure c

/-- `create_data` for an empty container or a given string, value.hpp:1098-1108. -/
def create (b : Block F) : M (Heap F) Nat := do
  let p ← allocate
  attempt
  put p b
  pure p

end Heap

/-- Variables of type `basic_value`: those of the program, and the local ones `tmp` and `old` of the assignment
operators (`tmp`), and the argument of an assignment that is a temporary (`arg`). `ghost` is not used by the
code; proofs use it. value.hpp:689-707. -/
inductive Var where
  | user (n : Nat)
  | tmp
  | arg
  | ghost
  deriving DecidableEq

/-- The address of a value: a variable, or an element of a container. See value.hpp:711-816. -/
inductive Loc where
  | var (x : Var)
  | slot (a i : Nat)
  deriving DecidableEq

/-- The memory: live variables and the heap. See value.hpp:1005-1006, 1098-1118. -/
structure State (F : Type) where
  heap : Heap F
  vars : Var → Option (Cell F)

namespace State

/-- The bound for `destroy` and `copy`: values cannot be nested deeper than there are blocks.
For value.hpp:1037-1053, 117-145. -/
def depth (s : State F) : Nat := s.heap.next + 1

/-- An operation on the heap. Model infrastructure for value.hpp:1098-1118. -/
def onHeap {α : Type} (m : M (Heap F) α) : M (State F) α := fun s =>
  match m s.heap with
  | (r, h) => (r, { s with heap := h })

/-- The value at an address. value.hpp:1005-1006. -/
def read (l : Loc) : M (State F) (Cell F) := fun s =>
  match l with
  | .var x => match s.vars x with
    | some c => (.ok c, s)
    | none => (.error .ub, s)
  | .slot a i => match s.heap.mem a with
    | some b => match b.cells[i]? with
      | some c => (.ok c, s)
      | none => (.error .ub, s)
    | none => (.error .ub, s)

/-- Another value at an address. value.hpp:1005-1006. -/
def write (l : Loc) (c : Cell F) : M (State F) Unit := fun s =>
  match l with
  | .var x => match s.vars x with
    | some _ => (.ok (), { s with vars := upd s.vars x (some c) })
    | none => (.error .ub, s)
  | .slot a i => match s.heap.mem a with
    | some b =>
      if i < b.cells.length then
        (.ok (), { s with heap := { s.heap with mem := upd s.heap.mem a (some (b.withCells (b.cells.set i c))) } })
      else (.error .ub, s)
    | none => (.error .ub, s)

/-- A variable begins to live. value.hpp:81-163. -/
def declare (x : Var) (c : Cell F) : M (State F) Unit := fun s => (.ok (), { s with vars := upd s.vars x (some c) })

/-- A variable no longer lives. value.hpp:165-169. -/
def forget (x : Var) : M (State F) Unit := fun s => (.ok (), { s with vars := upd s.vars x none })

/-- The end of the life of a variable: the destructor, value.hpp:165-169. -/
def destruct (x : Var) : M (State F) Unit := do
  let c ← read (.var x)
  let n ← M.gets depth
  onHeap (Heap.destroy n c)
  forget x

/-- The constructors from a type and from a scalar or a string, value.hpp:81-115, 155-163. For arrays and objects only
the empty one can be constructed this way; the elements of the argument are ignored. -/
def construct (x : Var) : Value F → M (State F) Unit
  | .str s => do declare x (.str (← onHeap (Heap.create (.str s))))
  | .arr _ => do declare x (.arr (← onHeap (Heap.create (.arr []))))
  | .obj _ => do declare x (.obj (← onHeap (Heap.create (.obj []))))
  | .null => declare x .null
  | .bool b => declare x (.bool b)
  | .int i => declare x (.int i)
  | .flt f => declare x (.flt f)

/-- The copy constructor of a variable, value.hpp:117-145. -/
def copyConstruct (x : Var) (src : Loc) : M (State F) Unit := do
  let c ← read src
  let n ← M.gets depth
  let c' ← onHeap (Heap.copy n c)
  declare x c'

/-- The move constructor of a variable, value.hpp:147-153. -/
def moveConstruct (x : Var) (src : Loc) : M (State F) Unit := do
  let c ← read src
  declare x c
  write src .null

/-- `swap`, value.hpp:681-685. -/
def swap (l r : Loc) : M (State F) Unit := do
  let a ← read l
  let b ← read r
  write l b
  write r a

/-- `operator=(const basic_value&)`, value.hpp:689-697. -/
def copyAssign (dst src : Loc) : M (State F) Unit :=
  if dst = src then pure ()
  else do
    copyConstruct .tmp src
    swap dst (.var .tmp)
    destruct .tmp

/-- `operator=(basic_value&&)`, value.hpp:699-707. -/
def moveAssign (dst src : Loc) : M (State F) Unit :=
  if dst = src then pure ()
  else do
    moveConstruct .tmp dst
    swap dst src
    destruct .tmp

/-- `*this = value_constant::array` and the like at the beginning of `operator[]` and `emplace_back`,
value.hpp:435-438, 713-716, 737-740, 769-772: a temporary is constructed and move-assigned. -/
def become (dst : Loc) (v : Value F) : M (State F) Unit := do
  construct .arg v
  moveAssign dst (.var .arg)
  destruct .arg

/-- `if (is_null()) *this = value_constant::…;`, value.hpp:435-438 and the like. -/
def fill (dst : Loc) (v : Value F) : M (State F) Unit := do
  match (← read dst) with
  | .null => become dst v
  | _ => pure ()

/-- The beginning of `emplace_back` and `operator[](size_type)`, value.hpp:431-438 (where the test comes first, to the same
effect), 713-721: the vector, or `e`. -/
def asArray (e : Err) (dst : Loc) : M (State F) Nat := do
  fill dst (.arr [])
  match (← read dst) with
  | .arr a => pure a
  | _ => M.throw e

/-- The beginning of `operator[](const key_type&)`, value.hpp:737-744: the map, or `e`. -/
def asObject (e : Err) (dst : Loc) : M (State F) Nat := do
  fill dst (.obj [])
  match (← read dst) with
  | .obj a => pure a
  | _ => M.throw e

/-- `push_back(const basic_value&)`, value.hpp:418-440. The vector makes room and copies; then the
element is there. -/
def pushBack (dst src : Loc) : M (State F) Unit := do
  let a ← asArray .typeError dst
  onHeap Heap.attempt
  let c ← read src
  let n ← M.gets depth
  let c' ← onHeap (Heap.copy n c)
  let cs ← onHeap (Heap.vector a)
  onHeap (Heap.put a (.arr (cs ++ [c'])))

/-- `push_back(basic_value&&)`, value.hpp:423-440. -/
def pushMove (dst src : Loc) : M (State F) Unit := do
  let a ← asArray .typeError dst
  onHeap Heap.attempt
  let c ← read src
  write src .null
  let cs ← onHeap (Heap.vector a)
  onHeap (Heap.put a (.arr (cs ++ [c])))

/-- `c[key]`, value.hpp:735-746: a member that is missing is inserted. -/
def touchKey (dst : Loc) (k : List Nat) : M (State F) Unit := do
  let a ← asObject .invalidKey dst
  let ms ← onHeap (Heap.map a)
  onHeap (Heap.attemptIf (Map.find k ms).isNone)
  onHeap (Heap.put a (.obj (Map.emplace k .null ms)))

/-- `c[index]`, value.hpp:711-728, for indices that do not reach the largest size of a vector: missing elements are
inserted. -/
def touchIndex (dst : Loc) (i : Nat) : M (State F) Unit := do
  let a ← asArray .invalidKey dst
  let cs ← onHeap (Heap.vector a)
  onHeap (Heap.attemptIf (decide (cs.length ≤ i)))
  onHeap (Heap.put a (.arr (cs ++ List.replicate (i + 1 - cs.length) .null)))

/-- `clear()`, value.hpp:442-467; `zero` is `float_type(0.0)`. -/
def clear (zero : F) (dst : Loc) : M (State F) Unit := do
  let n ← M.gets depth
  match (← read dst) with
  | .null => pure ()
  | .bool _ => write dst (.bool false)
  | .int _ => write dst (.int 0)
  | .flt _ => write dst (.flt zero)
  | .str a => do
    let _ ← onHeap (Heap.string a)
    onHeap (Heap.put a (.str []))
  | .arr a => do
    let cs ← onHeap (Heap.vector a)
    onHeap (Heap.each (Heap.destroy n) cs)
    onHeap (Heap.put a (.arr []))
  | .obj a => do
    let ms ← onHeap (Heap.map a)
    onHeap (Heap.each (Heap.destroy n) (ms.map Prod.snd))
    onHeap (Heap.put a (.obj []))

/-- `erase` of the `i`-th element or member, value.hpp:348-390. The vector moves the elements behind it;
this comes down to destroying one. -/
def eraseAt (dst : Loc) (i : Nat) : M (State F) Unit := do
  let n ← M.gets depth
  match (← read dst) with
  | .arr a => do
    let cs ← onHeap (Heap.vector a)
    match cs[i]? with
    | some c => do
      onHeap (Heap.destroy n c)
      onHeap (Heap.put a (.arr (cs.eraseIdx i)))
    | none => M.stop .ub
  | .obj a => do
    let ms ← onHeap (Heap.map a)
    match ms[i]? with
    | some m => do
      onHeap (Heap.destroy n m.2)
      onHeap (Heap.put a (.obj (ms.eraseIdx i)))
    | none => M.stop .ub
  | _ => M.throw .invalidKey

/-- A reference to a part of a value: to the `i`-th element or member, and so on. `at` and `operator[]`
find the number for a key (`Model/ValueOps.lean`). value.hpp:711-816. -/
def locate (here : Loc) (c : Cell F) : List Nat → M (State F) Loc
  | [] => pure here
  | i :: p => do
    let a ← match c with
      | .arr a => pure a
      | .obj a => pure a
      | _ => M.throw .invalidKey
    let c' ← read (.slot a i)
    locate (.slot a i) c' p

/-- A reference to a part of a variable. value.hpp:711-816. -/
def ref (x : Var) (p : List Nat) : M (State F) Loc := do
  locate (.var x) (← read (.var x)) p

end State
end Configor
