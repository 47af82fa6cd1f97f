import Verif.Model.ConvertMessage
import Verif.Spec.Values
import Verif.Spec.Convert
/-!
# What the message of a failed conversion should say

`Want` is what a C++ type needs of a value, `Suits` says that the value has it, and `Objection` which message is due if it has not.
-/
set_option autoImplicit false
namespace Spec
open Configor

variable {F T S : Type}

/-- What a C++ type needs. -/
inductive Want where
  /-- numbers, strings, booleans: a value of the type -/
  | exact (t : VType)
  /-- `basic_value` -/
  | any
  /-- `array_type`, `object_type`: a value of the type, or null -/
  | orNull (t : VType)
  /-- arrays of length `n` -/
  | fixed (n : Nat) (w : Want)
  /-- `vector`, `deque`, `list`, `set`, `unordered_set` -/
  | seq (w : Want)
  /-- `forward_list`, which is read from its end -/
  | back (w : Want)
  /-- `map`, `unordered_map` -/
  | dict (w : Want)
  | ptr (w : Want)
  /-- a bound struct: the names of its fields, and whether they are optional -/
  | struct (fields : List (List Nat × Bool))

/-- The value can be read as such a type. Sequences and maps can be read from all values without elements. -/
def Suits : Want → Value F → Prop
  | .exact t, v => v.type = t
  | .any, _ => True
  | .orNull t, v => v.type = t ∨ v.type = .null
  | .fixed n w, v => n = 0 ∨ v.size = 0 ∨ (v.type = .arr ∧ ∀ x ∈ (elements v).take n, Suits w x)
  | .seq w, v => v.size = 0 ∨ (v.type = .arr ∧ ∀ x ∈ elements v, Suits w x)
  | .back w, v => v.size = 0 ∨ (v.type = .arr ∧ ∀ x ∈ elements v, Suits w x)
  | .dict w, v => v.size = 0 ∨ (v.type = .obj ∧ ∀ x ∈ elements v, Suits w x)
  | .ptr w, v => v.type = .null ∨ Suits w v
  | .struct fields, v => ∀ f ∈ fields, f.2 = true ∨ (member v f.1).isSome

/-- The names of types in messages. -/
def typeName : VType → List Nat
  | .obj => text! "object"
  | .arr => text! "array"
  | .str => text! "string"
  | .int => text! "integer"
  | .flt => text! "float"
  | .bool => text! "boolean"
  | .null => text! "null"

/-- The message that names the type of a value and the one that is wanted. -/
def mismatch (actual want : VType) : List Nat :=
  text! "value type error: cannot convert type '" ++ typeName actual ++ text! "' to type '" ++ typeName want ++ text! "' (implicitly)"

/-- The value cannot be read as such a type, with this exception and message: it is about the first part, in the order of reading,
that does not fit. `valueFirst` is the order of evaluation in maps. -/
inductive Objection (valueFirst : Bool) : Want → Value F → Err → List Nat → Prop where
  | exact {t v} : v.type ≠ t → Objection valueFirst (.exact t) v .typeError (mismatch v.type t)
  | orNull {t v} : v.type ≠ t → v.type ≠ .null → Objection valueFirst (.orNull t) v .typeError (mismatch v.type t)
  | fixed {n w xs pre x post e m} : xs.take n = pre ++ x :: post → (∀ y ∈ pre, Suits w y) → Objection valueFirst w x e m →
      Objection valueFirst (.fixed n w) (.arr xs) e m
  | fixedOther {n w v} : n ≠ 0 → v.size ≠ 0 → v.type ≠ .arr →
      Objection valueFirst (.fixed n w) v .invalidKey (text! "invalid value key error: operator[] called on a non-array type")
  | seq {w pre x post e m} : (∀ y ∈ pre, Suits w y) → Objection valueFirst w x e m → Objection valueFirst (.seq w) (.arr (pre ++ x :: post)) e m
  | seqOther {w v} : v.size ≠ 0 → v.type ≠ .arr →
      Objection valueFirst (.seq w) v .invalidKey (text! "invalid value key error: operator[] called on a non-array type")
  | back {w pre x post e m} : (∀ y ∈ post, Suits w y) → Objection valueFirst w x e m → Objection valueFirst (.back w) (.arr (pre ++ x :: post)) e m
  | backOther {w v} : v.size ≠ 0 → v.type ≠ .arr →
      Objection valueFirst (.back w) v .invalidKey (text! "invalid value key error: operator[] called on a non-array type")
  | dict {w pre k x post e m} : (∀ y ∈ pre, Suits w y.2) → Objection valueFirst w x e m →
      Objection valueFirst (.dict w) (.obj (pre ++ (k, x) :: post)) e m
  | dictOther {w v x xs} : v.type ≠ .obj → elements v = x :: xs → (valueFirst = true → Suits w x) →
      Objection valueFirst (.dict w) v .invalidIterator (text! "invalid value iterator error: cannot use key() with non-object type")
  | dictValue {w v x xs e m} : v.type ≠ .obj → elements v = x :: xs → valueFirst = true → Objection valueFirst w x e m →
      Objection valueFirst (.dict w) v e m
  | ptr {w v e m} : v.type ≠ .null → Objection valueFirst w v e m → Objection valueFirst (.ptr w) v e m
  | missing {pre k post ms} : (∀ f ∈ pre, f.2 = true ∨ (member (Value.obj ms) f.1).isSome) → member (.obj ms) k = none →
      Objection valueFirst (.struct (pre ++ (k, false) :: post)) (.obj ms) .outOfRange (text! "operator[] key out of range")
  | structOther {fields v} : v.type ≠ .obj → (∃ f ∈ fields, f.2 = false) →
      Objection valueFirst (.struct fields) v .invalidKey (text! "invalid value key error: operator[] called on a non-object object")

/-- The readers of C++ types, and what the types need. -/
inductive Typed (valueFirst : Bool) : {T : Type} → Reader F T → Want → Prop where
  | bool : Typed valueFirst Reader.bool (.exact .bool)
  | int {s w} : Typed valueFirst (Reader.int s w) (.exact .int)
  | flt {G : Type} {n : F → G} {z : G} : Typed valueFirst (Reader.flt n z) (.exact .flt)
  | str : Typed valueFirst Reader.str (.exact .str)
  | val : Typed valueFirst Reader.val .any
  | arrayType : Typed valueFirst Reader.arrayType (.orNull .arr)
  | objectType : Typed valueFirst Reader.objectType (.orNull .obj)
  | array {T : Type} {R : Reader F T} {w n} : Typed valueFirst R w → Typed valueFirst (Reader.array n R) (.fixed n w)
  | vector {T : Type} {R : Reader F T} {w} : Typed valueFirst R w → Typed valueFirst (Reader.vector R) (.seq w)
  | list {T : Type} {R : Reader F T} {w} : Typed valueFirst R w → Typed valueFirst (Reader.list R) (.seq w)
  | forwardList {T : Type} {R : Reader F T} {w} : Typed valueFirst R w → Typed valueFirst (Reader.forwardList R) (.back w)
  | set {T : Type} {R : Reader F T} {w insert} : Typed valueFirst R w → Typed valueFirst (Reader.set R insert) (.seq w)
  | map {T : Type} {R : Reader F T} {w emplace} : Typed valueFirst R w → Typed valueFirst (Reader.map R emplace valueFirst) (.dict w)
  | ptr {T : Type} {R : Reader F T} {w} : Typed valueFirst R w → Typed valueFirst (Reader.ptr R) (.ptr w)
  | bind {S : Type} {fields : List (Field F S)} {z : S} : (∀ f ∈ fields, Safe f.conv) →
      Typed valueFirst (Reader.bind fields z) (.struct (fields.map fun f => (f.name, f.optional)))

/-- The reader does what the conversion of the other properties does, and says why it fails. -/
def Narrates (R : Reader F T) (E : Conv F T) : Prop :=
  R.zero = E.zero ∧ ∀ v t, E.fromValue v t = ((R.fromValue v t).1.mapError Prod.fst, (R.fromValue v t).2)

end Spec
