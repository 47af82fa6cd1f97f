import Verif.Model.ValueOps
/-!
# Parts of a value in the same expression

What is new here against `Model/ValueOps`: an array has a storage that changes when it grows beyond its capacity, and references
point into a storage. A reference into a storage that was given up must not be used. Members of an object stay where they are
(`std::map`). The memory for the storage is not modelled, and indices do not reach the largest size of a vector.
-/
namespace Configor

variable {F : Type}

/-- A `std::vector` of values: the elements, how many fit into the storage, and which storage it is. value.hpp:56. -/
structure Vec (F : Type) where
  elems : List (Value F)
  cap : Nat
  storage : Nat

/-- A variable `c`. Data of `basic_value`, value.hpp:71-79. -/
inductive Held (F : Type) where
  | vec (v : Vec F)
  | obj (ms : Map.T (Value F))
  /-- not an array and not an object -/
  | plain (v : Value F)

/-- The content of a variable. value.hpp:71-79. -/
def Held.content : Held F → Value F
  | .vec v => .arr v.elems
  | .obj ms => .obj ms
  | .plain v => v

/-- A `basic_value&`: an element of a storage, a member, or `c` itself. value.hpp:711-745. -/
inductive PartRef where
  | elem (storage i : Nat)
  | member (k : List Nat)
  | whole
  deriving DecidableEq

/-- The index or the key of `c[…]`. value.hpp:711, 735. -/
inductive PartAt where
  | index (i : Nat)
  | key (k : List Nat)

/-- How much capacity a vector gets when it needs `needed`: a choice of the standard library. value.hpp:725, 440. -/
abbrev Growth := Nat → Nat → Nat

/-- The vector has at least the capacity it needs. value.hpp:725, 440. -/
def Growth.Enough (g : Growth) : Prop := ∀ cap needed, needed ≤ g cap needed

/-- A storage for `n` elements: the old one if they fit, otherwise a new one. `std::vector` at value.hpp:725, 440. -/
def Vec.reserve (g : Growth) (n : Nat) (v : Vec F) : Vec F :=
  if n ≤ v.cap then v else { v with cap := g v.cap n, storage := v.storage + 1 }

/-- `c[index]`, value.hpp:711-728, for an array. -/
def Vec.touch (g : Growth) (i : Nat) (v : Vec F) : Vec F :=
  if i ≥ v.elems.length then
    let w := v.reserve g (i + 1)
    { w with elems := v.elems ++ List.replicate (i - v.elems.length + 1) .null }
  else v

/-- A new empty array: `*this = value_constant::array`, value.hpp:715, 437. -/
def Vec.empty : Vec F := ⟨[], 0, 0⟩

/-- `c[…]`, value.hpp:711-728, 735-746, 766-779: the reference, and what it does to `c`. -/
def access (g : Growth) : PartAt → M (Held F) PartRef
  | .index i => fun
    | .plain .null => let v := Vec.touch g i .empty; (.ok (.elem v.storage i), .vec v)
    | .vec v => let v := v.touch g i; (.ok (.elem v.storage i), .vec v)
    | c => (.error (.exn .invalidKey), c)
  | .key k => fun
    | .plain .null => (.ok (.member k), .obj (Map.emplace k .null []))
    | .obj ms => (.ok (.member k), .obj (Map.emplace k .null ms))
    | c => (.error (.exn .invalidKey), c)

/-- Reading through a reference: `basic_value tmp{ rhs }`, value.hpp:693. -/
def loadPart : PartRef → M (Held F) (Value F)
  | .elem st i => fun
    | .vec v =>
      if v.storage = st then (match v.elems[i]? with | some x => (.ok x, .vec v) | none => (.error .ub, .vec v))
      else (.error .ub, .vec v)
    | c => (.error .ub, c)
  | .member k => fun
    | .obj ms => match Map.find k ms with | some x => (.ok x, .obj ms) | none => (.error .ub, .obj ms)
    | c => (.error .ub, c)
  | .whole => fun c => (.ok c.content, c)

/-- Writing through a reference: `this->swap(tmp)`, value.hpp:694, after which `tmp` is destroyed. A write to the whole is not
needed here. -/
def storePart (x : Value F) : PartRef → M (Held F) Unit
  | .elem st i => fun
    | .vec v =>
      if v.storage = st ∧ i < v.elems.length then (.ok (), .vec { v with elems := v.elems.set i x }) else (.error .ub, .vec v)
    | c => (.error .ub, c)
  | .member k => fun
    | .obj ms => if (Map.find k ms).isSome then (.ok (), .obj (Map.assign k x ms)) else (.error .ub, .obj ms)
    | c => (.error .ub, c)
  | .whole => fun c => (.error .ub, c)

/-- `operator=(const basic_value&)`, value.hpp:689-697. -/
def copyTo (dst src : PartRef) : M (Held F) Unit :=
  if dst = src then pure ()
  else do
    let x ← loadPart src
    storePart x dst

/-- `operator=(basic_value&&)`, value.hpp:699-707: `*this` is moved away, which leaves null, and is exchanged with `rhs`. Used for
two parts of `c`, neither of which is within the other. -/
def moveTo (dst src : PartRef) : M (Held F) Unit :=
  if dst = src then pure ()
  else do
    let x ← loadPart src
    storePart x dst
    storePart .null src

/-- Which side of `c[x] = …c[y]…` is evaluated first: unspecified until C++17, the right one since then. Uses of value.hpp:689-746. -/
inductive Side where
  | left
  | right

/-- `c[x]` and `c[y]`, in the given order; the result is the pair of references. value.hpp:711-746. -/
def bothParts (g : Growth) (first : Side) (x y : PartAt) : M (Held F) (PartRef × PartRef) :=
  match first with
  | .left => do
    let dst ← access g x
    let src ← access g y
    pure (dst, src)
  | .right => do
    let src ← access g y
    let dst ← access g x
    pure (dst, src)

/-- `c[x] = c[y]`, value.hpp:689-746. -/
def assignPart (g : Growth) (first : Side) (x y : PartAt) : M (Held F) Unit := do
  let r ← bothParts g first x y
  copyTo r.1 r.2

/-- `c[x] = std::move(c[y])`, value.hpp:699-746. -/
def movePart (g : Growth) (first : Side) (x y : PartAt) : M (Held F) Unit := do
  let r ← bothParts g first x y
  moveTo r.1 r.2

/-- `c[x] = c`, value.hpp:689-746. In either order, as naming `c` does nothing. -/
def assignWhole (g : Growth) (x : PartAt) : M (Held F) Unit := do
  let dst ← access g x
  copyTo dst .whole

/-- `emplace_back(src)`, value.hpp:428-441: null becomes an array first; `std::vector::emplace_back` makes the new element before
it gives up the old storage. -/
def emplaceBack (g : Growth) (src : PartRef) : M (Held F) Unit := fun c =>
  match c with
  | .plain .null =>
    match loadPart src (.vec Vec.empty) with
    | (.ok x, _) => let w := Vec.reserve g 1 (Vec.empty : Vec F); (.ok (), .vec { w with elems := [x] })
    | (.error e, c) => (.error e, c)
  | .vec v =>
    match loadPart src (.vec v) with
    | (.ok x, _) => let w := v.reserve g (v.elems.length + 1); (.ok (), .vec { w with elems := v.elems ++ [x] })
    | (.error e, c) => (.error e, c)
  | c => (.error (.exn .typeError), c)

/-- `c.push_back(c[y])`, value.hpp:418-441, 711-745. -/
def pushPart (g : Growth) (y : PartAt) : M (Held F) Unit := do
  let src ← access g y
  emplaceBack g src

/-- `c.push_back(c)`, value.hpp:418-441. -/
def pushSelf (g : Growth) : M (Held F) Unit := emplaceBack g .whole

end Configor
