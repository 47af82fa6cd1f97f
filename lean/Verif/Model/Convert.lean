import Verif.Model.Iterator
/-!
# Conversions (include/configor/details/conversion.hpp)

Every pair of overloads `to_value`/`from_value` is a converter between a C++ type `T` and
values; overloads for containers and structs are functions from converters to converters, as the
templates are. Overload resolution (`enable_if`) is not modelled. The use of
memory is not modelled: allocation does not fail.
-/
namespace Configor
open ValueOps

/-- The two overloads for a type, and `T{}`. `fromValue v` is a computation on the target.
conversion.hpp:53-481. -/
structure Conv (F T : Type) where
  toValue : T → Except Stop (Value F)
  fromValue : Value F → M T Unit
  zero : T

variable {F T S : Type}

namespace Conv

/-- `get<T>()`, value.hpp:583-591, 626-631: a new `T{}`, then `from_value`. -/
def get (E : Conv F T) (v : Value F) : Except Stop T :=
  match E.fromValue v E.zero with
  | (.ok _, t) => .ok t
  | (.error e, _) => .error e

/-- `get(x)`, value.hpp:608-613, 654-669: all exceptions are swallowed; the result tells whether there was
one. -/
def getInto (E : Conv F T) (v : Value F) : M T Bool := fun t =>
  match E.fromValue v t with
  | (.ok _, t) => (.ok true, t)
  | (.error (.exn _), t) => (.ok false, t)
  | (.error e, t) => (.error e, t)

/-! ## Scalars -/

/-- A value as a signed number of `w` bits. For conversion.hpp:68, 130. -/
def wrapS (w : Nat) (i : Int) : Int := (i + 2 ^ (w - 1)) % 2 ^ w - 2 ^ (w - 1)

/-- A value as an unsigned number of `w` bits. For conversion.hpp:130. -/
def wrapU (w : Nat) (i : Int) : Int := i % 2 ^ w

/-- `static_cast` to an integral type. conversion.hpp:68, 130. -/
def castTo (signed : Bool) (w : Nat) (i : Int) : Int := if signed then wrapS w i else wrapU w i

/-- `bool`, conversion.hpp:55-60, 114-121. -/
def bool : Conv F Bool where
  toValue b := .ok (.bool b)
  fromValue
    | .bool b => fun _ => (.ok (), b)
    | _ => M.throw .typeError
  zero := false

/-- An integral type of `w` bits, conversion.hpp:62-69, 123-131. -/
def int (signed : Bool) (w : Nat) : Conv F Int where
  toValue i := .ok (.int (castTo true 64 i))
  fromValue
    | .int i => fun _ => (.ok (), castTo signed w i)
    | _ => M.throw .typeError
  zero := 0

/-- A floating point type `G`, conversion.hpp:71-75, 133-139; `widen` and `narrow` are the casts to
and from `float_type`. -/
def flt {G : Type} (widen : G → F) (narrow : F → G) (zero : G) : Conv F G where
  toValue x := .ok (.flt (widen x))
  fromValue
    | .flt f => fun _ => (.ok (), narrow f)
    | _ => M.throw .typeError
  zero := zero

/-- `string_type`, conversion.hpp:77-96, 141-158. -/
def str : Conv F (List Nat) where
  toValue s := .ok (.str s)
  fromValue
    | .str s => fun _ => (.ok (), s)
    | _ => M.throw .typeError
  zero := []

/-- `basic_value` itself: copies, value.hpp:563-567, 595-599. -/
def val : Conv F (Value F) where
  toValue v := .ok v
  fromValue v := fun _ => (.ok (), v)
  zero := .null

/-- `array_type`, conversion.hpp:98-103, 160-172. -/
def arrayType : Conv F (List (Value F)) where
  toValue xs := .ok (.arr xs)
  fromValue
    | .null => fun _ => (.ok (), [])
    | .arr xs => fun _ => (.ok (), xs)
    | _ => M.throw .typeError
  zero := []

/-- `object_type`, conversion.hpp:105-110, 174-186. -/
def objectType : Conv F (Map.T (Value F)) where
  toValue ms := .ok (.obj ms)
  fromValue
    | .null => fun _ => (.ok (), [])
    | .obj ms => fun _ => (.ok (), ms)
    | _ => M.throw .typeError
  zero := []

/-! ## Sequences -/

/-- The loop `c[i] = v[i]`, conversion.hpp:198-201, 280-283, 301-304, ...: the element is
converted to a temporary, which is moved to its place. -/
def toLoop (E : Conv F T) : Nat → List T → Value F → Except Stop (Value F)
  | _, [], c => .ok c
  | i, x :: xs, c => do
    let y ← E.toValue x
    match withIndex i (assign y) c with
    | (.ok _, c) => toLoop E (i + 1) xs c
    | (.error e, _) => .error e

/-- `c[i].get<T>()` for a constant `c`. conversion.hpp:213, 292, 314, 336, 359, 383, 406, 429. -/
def item (E : Conv F T) (c : Value F) (i : Nat) : Except Stop T :=
  match (atIndex i read c).1 with
  | .ok x => E.get x
  | .error e => .error e

/-- The loop `v[i] = c[i].get<T>()` over the indices given.
conversion.hpp:211-214, 290-293, 312-315, 334-337. -/
def fill (E : Conv F T) (c : Value F) : List Nat → M (List T) Unit
  | [] => fun t => (.ok (), t)
  | i :: is => fun t =>
    match E.item c i with
    | .error e => (.error e, t)
    | .ok x => fill E c is (t.set i x)

/-- The loop `v.push_back(c[i].get<T>())`. conversion.hpp:357-360. -/
def push (E : Conv F T) (c : Value F) : List Nat → M (List T) Unit
  | [] => fun t => (.ok (), t)
  | i :: is => fun t =>
    match E.item c i with
    | .error e => (.error e, t)
    | .ok x => push E c is (t ++ [x])

/-- The loop `v.push_front(c[i].get<T>())`. conversion.hpp:381-384. -/
def pushFront (E : Conv F T) (c : Value F) : List Nat → M (List T) Unit
  | [] => fun t => (.ok (), t)
  | i :: is => fun t =>
    match E.item c i with
    | .error e => (.error e, t)
    | .ok x => pushFront E c is (x :: t)

/-- `v.resize(n)`. conversion.hpp:311, 333. -/
def resize (zero : T) (n : Nat) (t : List T) : List T := t.take n ++ List.replicate (n - t.length) zero

/-- C arrays, conversion.hpp:190-215, and `std::array`, 275-294, of length `n`. -/
def array (n : Nat) (E : Conv F T) : Conv F (List T) where
  toValue xs := toLoop E 0 xs (.arr [])
  fromValue c := fill E c (List.range (min c.size n))
  zero := List.replicate n E.zero

/-- `std::vector`, conversion.hpp:296-316, and `std::deque`, 318-338. -/
def vector (E : Conv F T) : Conv F (List T) where
  toValue xs := toLoop E 0 xs (.arr [])
  fromValue c := fun t => fill E c (List.range c.size) (resize E.zero c.size t)
  zero := []

/-- `std::list`, conversion.hpp:340-361. -/
def list (E : Conv F T) : Conv F (List T) where
  toValue xs := toLoop E 0 xs (.arr [])
  fromValue c := fun _ => push E c (List.range c.size) []
  zero := []

/-- `std::forward_list`, conversion.hpp:363-385. -/
def forwardList (E : Conv F T) : Conv F (List T) where
  toValue xs := toLoop E 0 xs (.arr [])
  fromValue c := fun _ => pushFront E c ((List.range c.size).map fun i => c.size - i - 1) []
  zero := []

/-! ## Sets -/

/-- The loop `v.insert(c[i].get<T>())`; `insert` is that of the set.
conversion.hpp:404-407, 427-430. -/
def insertAll (E : Conv F T) (insert : T → List T → List T) (c : Value F) : List Nat → M (List T) Unit
  | [] => fun t => (.ok (), t)
  | i :: is => fun t =>
    match E.item c i with
    | .error e => (.error e, t)
    | .ok x => insertAll E insert c is (insert x t)

/-- `std::set::insert`; the elements in iteration order. Used at conversion.hpp:406. -/
def setInsert (lt : T → T → Bool) (x : T) : List T → List T
  | [] => [x]
  | y :: ys => if lt x y then x :: y :: ys else if lt y x then y :: setInsert lt x ys else y :: ys

/-- `std::unordered_set::insert`: no effect if the element is there, otherwise it gets a place that
depends on the content. Used at conversion.hpp:429. -/
def hashInsert [BEq T] (place : List T → T → Nat) (x : T) (t : List T) : List T :=
  if t.contains x then t else t.take (place t x) ++ x :: t.drop (place t x)

/-- `std::set`, conversion.hpp:387-408, and `std::unordered_set`, 410-431. -/
def set (E : Conv F T) (insert : T → List T → List T) : Conv F (List T) where
  toValue xs := toLoop E 0 xs (.arr [])
  fromValue c := fun _ => insertAll E insert c (List.range c.size) []
  zero := []

/-! ## Maps -/

/-- The loop `c[p.first] = p.second`, conversion.hpp:440-443, 465-468. -/
def toMembers (E : Conv F T) : List (List Nat × T) → Value F → Except Stop (Value F)
  | [], c => .ok c
  | (k, x) :: xs, c => do
    let y ← E.toValue x
    match withKey k (assign y) c with
    | (.ok _, c) => toMembers E xs c
    | (.error e, _) => .error e

/-- The loop over `cbegin()`, `cend()`, conversion.hpp:450-456, 475-481. The order in which
`key()` and `value()` are evaluated is not specified; here it is `key()` first. `emplace` is that
of the map; `n` bounds the loop. -/
def emplaceAll (E : Conv F T) (emplace : List Nat → T → List (List Nat × T) → List (List Nat × T)) (c : Value F) :
    Nat → Iter → Iter → M (List (List Nat × T)) Unit
  | 0, _, _ => M.stop .fuel
  | n + 1, it, last => fun t =>
    match it.eq c last with
    | .error e => (.error e, t)
    | .ok true => (.ok (), t)
    | .ok false =>
      match it.key c with
      | .error e => (.error e, t)
      | .ok k =>
        match it.deref c with
        | .error e => (.error e, t)
        | .ok v =>
          match E.get v with
          | .error e => (.error e, t)
          | .ok x =>
            match it.incr c with
            | .error e => (.error e, emplace k x t)
            | .ok it => emplaceAll E emplace c n it last (emplace k x t)

/-- `std::unordered_map::emplace`. Used at conversion.hpp:479. -/
def hashEmplace (place : List (List Nat × T) → List Nat → Nat) (k : List Nat) (x : T) (t : List (List Nat × T)) :
    List (List Nat × T) :=
  if t.any (fun p => p.1 == k) then t else t.take (place t k) ++ (k, x) :: t.drop (place t k)

/-- `std::map`, conversion.hpp:433-456, and `std::unordered_map`, 458-481, with string keys. The
target is not cleared. -/
def map (E : Conv F T) (emplace : List Nat → T → List (List Nat × T) → List (List Nat × T)) : Conv F (List (List Nat × T)) where
  toValue xs := toMembers E xs (.obj [])
  fromValue c := fun t =>
    match c.begin 0, c.fin 0 with
    | .ok it, .ok last => emplaceAll E emplace c (c.size + 1) it last t
    | .error e, _ => (.error e, t)
    | _, .error e => (.error e, t)
  zero := []

/-! ## Pointers -/

/-- `std::unique_ptr`, conversion.hpp:219-245, and `std::shared_ptr`, 247-273. -/
def ptr (E : Conv F T) : Conv F (Option T) where
  toValue
    | some x => E.toValue x
    | none => .ok .null
  fromValue c := fun t =>
    match c with
    | .null => (.ok (), none)
    | c => match E.get c with
      | .ok x => (.ok (), some x)
      | .error e => (.error e, t)
  zero := none

end Conv

/-! ## `CONFIGOR_BIND` -/

/-- One `REQUIRED(field, name)` or `OPTIONAL(field, name)`, conversion.hpp:786-817. `isZero x` is
`x == decltype(v.field){}`. -/
structure Field (F S : Type) where
  T : Type
  conv : Conv F T
  get : S → T
  set : T → S → S
  name : List Nat
  optional : Bool
  isZero : T → Bool

namespace Field

/-- `__CONFIGOR_TO_CONF_REQUIRED`, `__CONFIGOR_TO_CONF_OPTIONAL`, conversion.hpp:786, 789-793. -/
def write (f : Field F S) (s : S) (c : Value F) : Except Stop (Value F) :=
  if f.optional && f.isZero (f.get s) then .ok c
  else do
    let y ← f.conv.toValue (f.get s)
    match withKey f.name (assign y) c with
    | (.ok _, c) => .ok c
    | (.error e, _) => .error e

/-- `__CONFIGOR_FROM_CONF_REQUIRED`, `__CONFIGOR_FROM_CONF_OPTIONAL`, conversion.hpp:787, 794-798. -/
def read (f : Field F S) (c : Value F) : M S Unit := fun s =>
  if f.optional && c.count f.name == 0 then (.ok (), s)
  else
    match (atKey f.name ValueOps.read c).1 with
    | .error e => (.error e, s)
    | .ok x =>
      match f.conv.getInto x (f.get s) with
      | (.ok _, t) => (.ok (), f.set t s)
      | (.error e, t) => (.error e, f.set t s)

end Field

/-- The `to_value` of `CONFIGOR_BIND`, conversion.hpp:824-827. -/
def writeAll (s : S) : List (Field F S) → Value F → Except Stop (Value F)
  | [], c => .ok c
  | f :: fs, c => do writeAll s fs (← f.write s c)

/-- The `from_value` of `CONFIGOR_BIND`, conversion.hpp:828-832. -/
def readAll (c : Value F) : List (Field F S) → M S Unit
  | [], s => (.ok (), s)
  | f :: fs, s =>
    match f.read c s with
    | (.ok _, s) => readAll c fs s
    | (.error e, s) => (.error e, s)

/-- A struct bound with `CONFIGOR_BIND`, conversion.hpp:823-832. The value that `to_value` fills is
null at first (value.hpp:155-163). -/
def Conv.bind (fields : List (Field F S)) (zero : S) : Conv F S where
  toValue s := writeAll s fields .null
  fromValue c := readAll c fields
  zero := zero

/-! ## Pointers and references into a value -/

/-- `get_ptr<T*>()`, value.hpp:472-545, where `T` is the type that stores values of type `t`: whether the
pointer is not null. There is no overload for null. -/
def Value.hasPtr (t : VType) (v : Value F) : Bool := v.type == t && t != .null

/-- `get<T&>()`, value.hpp:549-559, 639-652: the reference refers to the data of the value. -/
def Value.getRef (t : VType) (v : Value F) : Except Stop (Value F) :=
  if v.hasPtr t then .ok v else .error (.exn .typeError)

end Configor
