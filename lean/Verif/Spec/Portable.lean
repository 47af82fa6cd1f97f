import Verif.Spec.Convert
import Verif.Spec.Dump
/-!
# C++ types whose objects can be sent as JSON text
-/
namespace Spec
open Configor

variable {F : Type}

/-- `Portable ok E P`: `E` converts a type that is made of booleans, integers, strings, sequences,
arrays, ordered sets and maps, smart pointers and bound structs, and `P` says of an object of the
type that

* its strings and keys are in `ok`,
* its integers are in the range of their types and neither -2^63 nor 2^63,
* no container is too large for a `std::vector` of values,
* sets are in increasing order, maps have increasing keys, arrays have their length,
* no pointer points to something that converts to null,
* what an optional field compares equal to is what it is initialized with.

The names of the fields of a struct are in `ok` and distinct; fields do not overlap; an optional
field has no initializer; a required field has none either or is of a type for which `get(x)`
replaces what was there; and the struct has no members other than the bound ones. -/
inductive Portable (ok : List Nat → Prop) : {T : Type} → Conv F T → (T → Prop) → Prop where
  | bool : Portable ok Conv.bool fun _ => True
  | int (signed : Bool) (w : Nat) : 1 ≤ w → w ≤ 64 →
      Portable ok (Conv.int signed w) fun x => InRange signed w x ∧ x ≠ -9223372036854775808 ∧ x ≠ 9223372036854775808
  | str : Portable ok Conv.str ok
  | vector {T : Type} {E : Conv F T} {P : T → Prop} : Portable ok E P →
      Portable ok (Conv.vector E) fun xs => xs.length ≤ vectorMax ∧ ∀ x ∈ xs, P x
  | list {T : Type} {E : Conv F T} {P : T → Prop} : Portable ok E P →
      Portable ok (Conv.list E) fun xs => xs.length ≤ vectorMax ∧ ∀ x ∈ xs, P x
  | forwardList {T : Type} {E : Conv F T} {P : T → Prop} : Portable ok E P →
      Portable ok (Conv.forwardList E) fun xs => xs.length ≤ vectorMax ∧ ∀ x ∈ xs, P x
  | array {T : Type} {E : Conv F T} {P : T → Prop} (n : Nat) : n ≤ vectorMax → Portable ok E P →
      Portable ok (Conv.array n E) fun xs => xs.length = n ∧ ∀ x ∈ xs, P x
  | set {T : Type} {E : Conv F T} {P : T → Prop} (lt : T → T → Bool) : Total lt → Portable ok E P →
      Portable ok (Conv.set E (Conv.setInsert lt)) fun xs =>
        xs.length ≤ vectorMax ∧ xs.Pairwise (fun a b => lt a b = true) ∧ ∀ x ∈ xs, P x
  | map {T : Type} {E : Conv F T} {P : T → Prop} : Portable ok E P →
      Portable ok (Conv.map E Map.emplace) fun xs => (xs.map Prod.fst).Pairwise (· < ·) ∧ ∀ x ∈ xs, ok x.1 ∧ P x.2
  | ptr {T : Type} {E : Conv F T} {P : T → Prop} : Portable ok E P →
      Portable ok (Conv.ptr E) fun p => ∀ x, p = some x → P x ∧ E.toValue x ≠ .ok .null
  | struct {S : Type} {fs : List (Field F S)} {zero : S} {P : (f : Field F S) → f.T → Prop} :
      Lenses fs → (fs.map Field.name).Nodup → (∀ f ∈ fs, ok f.name) → (∀ s s', Agree fs s s' → s' = s) →
      (∀ f ∈ fs, f.get zero = f.conv.zero ∨
        f.optional = false ∧ ∀ v t x, f.conv.get v = .ok x → f.conv.getInto v t = (.ok true, x)) →
      (∀ f ∈ fs, Portable ok f.conv (P f)) →
      Portable ok (Conv.bind fs zero) fun s =>
        ∀ f ∈ fs, P f (f.get s) ∧ (f.isZero (f.get s) = true → f.get s = f.conv.zero)

end Spec
