import Verif.Model.Convert
import Verif.Model.Message
/-!
# The messages of failed conversions

The functions here follow `from_value` of `Model/Convert` and say in addition which message an exception carries.
-/
set_option autoImplicit false
namespace Configor
open ValueOps

variable {F T S : Type}

/-- `to_string(value_constant::type)`, declare.hpp:69-89. -/
def VType.text : VType → List Nat
  | .obj => text! "object"
  | .arr => text! "array"
  | .str => text! "string"
  | .int => text! "integer"
  | .flt => text! "float"
  | .bool => text! "boolean"
  | .null => text! "null"

/-- An exception with its message. exception.hpp:37-74. -/
abbrev Said := Stop × List Nat

/-- `configor_type_error(message)`, exception.hpp:50-57. -/
def typeErrorSaid (message : List Nat) : Said := (.exn .typeError, text! "value type error: " ++ message)

/-- `configor_invalid_key(message)`, exception.hpp:59-66. -/
def invalidKeySaid (message : List Nat) : Said := (.exn .invalidKey, text! "invalid value key error: " ++ message)

/-- `configor_invalid_iterator(message)`, exception.hpp:68-75. -/
def invalidIteratorSaid (message : List Nat) : Said := (.exn .invalidIterator, text! "invalid value iterator error: " ++ message)

/-- `std::out_of_range(message)`, e.g. value.hpp:761. -/
def outOfRangeSaid (message : List Nat) : Said := (.exn .outOfRange, message)

/-- `make_conversion_error`, conversion.hpp:45-50. -/
def conversionSaid (t want : VType) : Said :=
  typeErrorSaid (text! "cannot convert type '" ++ t.text ++ text! "' to type '" ++ want.text ++ text! "' (implicitly)")

/-- `c[i]` on a constant, value.hpp:730-733, 753-764. -/
def Value.atIndexSaid (i : Nat) : Value F → Except Said (Value F)
  | .arr xs =>
    match xs[i]? with
    | some x => .ok x
    | none => .error (outOfRangeSaid (text! "operator[] index out of range"))
  | _ => .error (invalidKeySaid (text! "operator[] called on a non-array type"))

/-- `c["name"]` on a constant, value.hpp:781-785, 802-816. -/
def Value.atKeySaid (k : List Nat) : Value F → Except Said (Value F)
  | .obj ms =>
    match Map.find k ms with
    | some x => .ok x
    | none => .error (outOfRangeSaid (text! "operator[] key out of range"))
  | _ => .error (invalidKeySaid (text! "operator[] called on a non-object object"))

namespace Iter

/-- `check_data` and `check_iterator`, iterator.hpp:472-507. -/
def checkSaid (v : Value F) (it : Iter) : Except Said Unit :=
  match it.checkData with
  | .error e => .error (e, (invalidIteratorSaid (text! "iterator is empty")).2)
  | .ok _ =>
    match it.checkIterator v, v with
    | .error e, .obj _ => .error (e, text! "object iterator out of range")
    | .error e, .arr _ => .error (e, text! "array iterator out of range")
    | .error e, .null => .error (e, text! "null iterator out of range")
    | .error e, _ => .error (e, text! "primitive iterator out of range")
    | .ok _, _ => .ok ()

/-- `key()`, iterator.hpp:184-192. -/
def keySaid (v : Value F) (it : Iter) : Except Said (List Nat) :=
  match it.checkSaid v with
  | .error e => .error e
  | .ok _ =>
    match it.key v with
    | .error e => .error (e, (invalidIteratorSaid (text! "cannot use key() with non-object type")).2)
    | .ok k => .ok k

/-- `value()`, iterator.hpp:194-209. -/
def derefSaid (v : Value F) (it : Iter) : Except Said (Value F) :=
  match it.checkSaid v with
  | .error e => .error e
  | .ok _ =>
    match it.deref v with
    | .error e => .error (e, [])
    | .ok x => .ok x

end Iter

/-- `from_value` for a type, with the messages of its exceptions, and `T{}`. conversion.hpp:112-481. -/
structure Reader (F T : Type) where
  fromValue : Value F → MM T Unit
  zero : T

namespace Reader

/-- `get<T>()`, value.hpp:583-591, 626-631; see `Conv.get`. -/
def get (R : Reader F T) (v : Value F) : Except Said T :=
  match R.fromValue v R.zero with
  | (.ok _, t) => .ok t
  | (.error e, _) => .error e

/-- `throw make_conversion_error(c.type(), want)`, e.g. conversion.hpp:119. -/
def refuse (want : VType) (c : Value F) : MM T Unit := fun t => (.error (conversionSaid c.type want), t)

/-- `bool`, conversion.hpp:114-121. -/
def bool : Reader F Bool where
  fromValue
    | .bool b => fun _ => (.ok (), b)
    | c => refuse .bool c
  zero := false

/-- An integral type of `w` bits, conversion.hpp:123-131. -/
def int (signed : Bool) (w : Nat) : Reader F Int where
  fromValue
    | .int i => fun _ => (.ok (), Conv.castTo signed w i)
    | c => refuse .int c
  zero := 0

/-- A floating point type, conversion.hpp:133-139. -/
def flt {G : Type} (narrow : F → G) (zero : G) : Reader F G where
  fromValue
    | .flt f => fun _ => (.ok (), narrow f)
    | c => refuse .flt c
  zero := zero

/-- `string_type`, conversion.hpp:141-158. -/
def str : Reader F (List Nat) where
  fromValue
    | .str s => fun _ => (.ok (), s)
    | c => refuse .str c
  zero := []

/-- `basic_value` itself, value.hpp:563-567, 595-599. -/
def val : Reader F (Value F) where
  fromValue v := fun _ => (.ok (), v)
  zero := .null

/-- `array_type`, conversion.hpp:160-172. -/
def arrayType : Reader F (List (Value F)) where
  fromValue
    | .null => fun _ => (.ok (), [])
    | .arr xs => fun _ => (.ok (), xs)
    | c => refuse .arr c
  zero := []

/-- `object_type`, conversion.hpp:174-186. -/
def objectType : Reader F (Map.T (Value F)) where
  fromValue
    | .null => fun _ => (.ok (), [])
    | .obj ms => fun _ => (.ok (), ms)
    | c => refuse .obj c
  zero := []

/-- `c[i].get<T>()` for a constant `c`. conversion.hpp:213, 292, 314, 336, 359, 383, 406, 429. -/
def item (R : Reader F T) (c : Value F) (i : Nat) : Except Said T :=
  match c.atIndexSaid i with
  | .ok x => R.get x
  | .error e => .error e

/-- The loops over the elements: `put i x` does to the container what the body of the loop does with the element at `i`.
conversion.hpp:211-214, 290-293, 312-315, 334-337, 357-360, 381-384, 404-407, 427-430. -/
def each (R : Reader F T) (c : Value F) (put : Nat → T → List T → List T) : List Nat → MM (List T) Unit
  | [] => fun t => (.ok (), t)
  | i :: is => fun t =>
    match R.item c i with
    | .error e => (.error e, t)
    | .ok x => each R c put is (put i x t)

/-- C arrays, conversion.hpp:203-215, and `std::array`, 285-294, of length `n`. -/
def array (n : Nat) (R : Reader F T) : Reader F (List T) where
  fromValue c := each R c (fun i x t => t.set i x) (List.range (min c.size n))
  zero := List.replicate n R.zero

/-- `std::vector`, conversion.hpp:307-316, and `std::deque`, 329-338. -/
def vector (R : Reader F T) : Reader F (List T) where
  fromValue c := fun t => each R c (fun i x t => t.set i x) (List.range c.size) (Conv.resize R.zero c.size t)
  zero := []

/-- `std::list`, conversion.hpp:351-361. -/
def list (R : Reader F T) : Reader F (List T) where
  fromValue c := fun _ => each R c (fun _ x t => t ++ [x]) (List.range c.size) []
  zero := []

/-- `std::forward_list`, conversion.hpp:375-385: from the last element to the first. -/
def forwardList (R : Reader F T) : Reader F (List T) where
  fromValue c := fun _ => each R c (fun _ x t => x :: t) ((List.range c.size).map fun i => c.size - i - 1) []
  zero := []

/-- `std::set`, conversion.hpp:398-408, and `std::unordered_set`, 421-431. -/
def set (R : Reader F T) (insert : T → List T → List T) : Reader F (List T) where
  fromValue c := fun _ => each R c (fun _ x t => insert x t) (List.range c.size) []
  zero := []

/-- The arguments `iter.key()` and `iter.value().get<T>()`, conversion.hpp:454, 479; which of them is evaluated first is not
specified. -/
def entry (R : Reader F T) (valueFirst : Bool) (c : Value F) (it : Iter) : Except Said (List Nat × T) :=
  let value : Except Said T := match it.derefSaid c with | .ok v => R.get v | .error e => .error e
  match valueFirst, it.keySaid c, value with
  | _, .ok k, .ok x => .ok (k, x)
  | true, _, .error e => .error e
  | true, .error e, .ok _ => .error e
  | false, .error e, _ => .error e
  | false, .ok _, .error e => .error e

/-- The loop over `cbegin()`, `cend()`, conversion.hpp:450-456, 475-481; see `Conv.emplaceAll`. The iterators are those of `c`, so
that their comparison and increment do not throw. -/
def emplaceAll (R : Reader F T) (emplace : List Nat → T → List (List Nat × T) → List (List Nat × T)) (valueFirst : Bool) (c : Value F) :
    Nat → Iter → Iter → MM (List (List Nat × T)) Unit
  | 0, _, _ => MM.stop .fuel
  | n + 1, it, last => fun t =>
    match it.eq c last with
    | .error e => (.error (e, []), t)
    | .ok true => (.ok (), t)
    | .ok false =>
      match R.entry valueFirst c it with
      | .error e => (.error e, t)
      | .ok (k, x) =>
        match it.incr c with
        | .error e => (.error (e, []), emplace k x t)
        | .ok it => emplaceAll R emplace valueFirst c n it last (emplace k x t)

/-- `std::map`, conversion.hpp:446-456, and `std::unordered_map`, 471-481, with string keys. -/
def map (R : Reader F T) (emplace : List Nat → T → List (List Nat × T) → List (List Nat × T)) (valueFirst : Bool) :
    Reader F (List (List Nat × T)) where
  fromValue c := fun t =>
    match c.begin 0, c.fin 0 with
    | .ok it, .ok last => emplaceAll R emplace valueFirst c (c.size + 1) it last t
    | .error e, _ => (.error (e, []), t)
    | _, .error e => (.error (e, []), t)
  zero := []

/-- `std::unique_ptr`, conversion.hpp:232-245, and `std::shared_ptr`, 260-273. -/
def ptr (R : Reader F T) : Reader F (Option T) where
  fromValue c := fun t =>
    match c with
    | .null => (.ok (), none)
    | c => match R.get c with
      | .ok x => (.ok (), some x)
      | .error e => (.error e, t)
  zero := none

end Reader

/-- `__CONFIGOR_FROM_CONF_REQUIRED`, `__CONFIGOR_FROM_CONF_OPTIONAL`, conversion.hpp:787, 794-798: `c["name"].get(v.field)`, where
`get` swallows all exceptions. -/
def Field.readSaid (f : Field F S) (c : Value F) : MM S Unit := fun s =>
  if f.optional && c.count f.name == 0 then (.ok (), s)
  else
    match c.atKeySaid f.name with
    | .error e => (.error e, s)
    | .ok x =>
      match f.conv.getInto x (f.get s) with
      | (.ok _, t) => (.ok (), f.set t s)
      | (.error e, t) => (.error (e, []), f.set t s)

/-- The `from_value` of `CONFIGOR_BIND`, conversion.hpp:828-832. -/
def readAllSaid (c : Value F) : List (Field F S) → MM S Unit
  | [], s => (.ok (), s)
  | f :: fs, s =>
    match f.readSaid c s with
    | (.ok _, s) => readAllSaid c fs s
    | (.error e, s) => (.error e, s)

/-- A struct bound with `CONFIGOR_BIND`, conversion.hpp:828-832. -/
def Reader.bind (fields : List (Field F S)) (zero : S) : Reader F S where
  fromValue c := readAllSaid c fields
  zero := zero

/-- `get<T&>()`, value.hpp:549-559, 639-652; see `Value.getRef`. -/
def Value.getRefSaid (t : VType) (v : Value F) : Except Said (Value F) :=
  if v.hasPtr t then .ok v
  else .error (typeErrorSaid (text! "incompatible reference type for get, actual type is " ++ v.type.text))

end Configor
