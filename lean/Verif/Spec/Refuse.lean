import Verif.Model.Refuse
/-!
# Which calls are refused, and what the messages say
-/
set_option autoImplicit false
namespace Spec
open Configor

variable {F : Type}

/-- The iterator is past the last element of the value; of a null value every iterator is, of a scalar each but the first. -/
def PastLast (v : Value F) (it : Iter) : Prop :=
  match v with
  | .obj ms => it.objIt = some ms.length
  | .arr xs => it.arrIt = some xs.length
  | .null => True
  | _ => it.prim ≠ 0

/-- What kind of value a message calls the value of an iterator. -/
def kindWord (v : Value F) : List Nat :=
  match v.type with
  | .obj => text! "object"
  | .arr => text! "array"
  | .null => text! "null"
  | _ => text! "primitive"

/-- The iterators a call is made on. -/
def Call.iters : Call F → List Iter
  | .iterKey it | .iterValue it | .iterNext it | .iterBack it | .iterPlus _ it | .iterMinus _ it => [it]
  | .iterDiff it jt | .iterLess it jt => [it, jt]
  | _ => []

/-- The offset of the call can be negated, if it has to be. -/
def Call.Counts : Call F → Prop
  | .iterMinus off _ => inPtrdiff (-off) = true
  | _ => True

/-- The call is refused with this exception and this message. -/
inductive Refused (v : Value F) : Call F → Err → List Nat → Prop where
  | eraseKey {k} : v.type ≠ .obj → Refused v (.eraseKey k) .invalidKey (text! "invalid value key error: cannot use erase() with non-object value")
  | eraseIndex {i} : v.type ≠ .arr → Refused v (.eraseIndex i) .invalidKey (text! "invalid value key error: cannot use erase() with non-array value")
  | eraseIter {p} : v.type ≠ .obj → v.type ≠ .arr →
    Refused v (.eraseIter p) .invalidIterator (text! "invalid value iterator error: cannot use erase() with non-object & non-array value")
  | eraseRange {p q} : v.type ≠ .obj → v.type ≠ .arr →
    Refused v (.eraseRange p q) .invalidIterator (text! "invalid value iterator error: cannot use erase() with non-object & non-array value")
  | pushBack {x} : v.type ≠ .null → v.type ≠ .arr →
    Refused v (.pushBack x) .typeError (text! "value type error: use push_back() or emplace_back() with non-array value")
  | index {i} : v.type ≠ .null → v.type ≠ .arr →
    Refused v (.index i) .invalidKey (text! "invalid value key error: operator[] called on a non-array object")
  | key {k} : v.type ≠ .null → v.type ≠ .obj → Refused v (.key k) .invalidKey (text! "invalid value key error: operator[] called on a non-object type")
  | name {k} : v.type ≠ .null → v.type ≠ .obj →
    Refused v (.name k) .invalidKey (text! "invalid value key error: operator[] called on a non-object object")
  | atIndex {i} : v.type ≠ .arr → Refused v (.atIndex i) .invalidKey (text! "invalid value key error: operator[] called on a non-array type")
  | atKey {k} : v.type ≠ .obj → Refused v (.atKey k) .invalidKey (text! "invalid value key error: operator[] called on a non-object object")
  | noIndex {xs i} : v = .arr xs → xs.length ≤ i → Refused v (.atIndex i) .outOfRange (text! "operator[] index out of range")
  | noKey {ms k} : v = .obj ms → ms.lookup k = none → Refused v (.atKey k) .outOfRange (text! "operator[] key out of range")
  | tooLong {xs i} : (v = .null ∧ xs = []) ∨ v = .arr xs → xs.length ≤ i → 576460752303423487 - xs.length < (i - xs.length + 1) % 2 ^ 64 →
    Refused v (.index i) .lengthError (text! "vector::_M_fill_insert")
  | noValue {c it} : it ∈ Call.iters c → it.target = none → Call.Counts c →
    Refused v c .invalidIterator (text! "invalid value iterator error: iterator is empty")
  | pastKey {it} : it.target ≠ none → PastLast v it → Refused v (.iterKey it) .outOfRange (kindWord v ++ text! " iterator out of range")
  | pastValue {it} : it.target ≠ none → PastLast v it → Refused v (.iterValue it) .outOfRange (kindWord v ++ text! " iterator out of range")
  | iterKey {it} : it.target ≠ none → v.type ≠ .obj → v.type ≠ .arr → ¬ PastLast v it →
    Refused v (.iterKey it) .invalidIterator (text! "invalid value iterator error: cannot use key() with non-object type")
  | elementKey {xs it p} : it.target ≠ none → v = .arr xs → it.arrIt = some p → p ≠ xs.length →
    Refused v (.iterKey it) .invalidIterator (text! "invalid value iterator error: cannot use key() with non-object type")
  | plus {off it} : it.target ≠ none → v.type = .obj →
    Refused v (.iterPlus off it) .invalidIterator (text! "invalid value iterator error: cannot compute offsets with object type")
  | minus {off it} : it.target ≠ none → v.type = .obj → inPtrdiff (-off) = true →
    Refused v (.iterMinus off it) .invalidIterator (text! "invalid value iterator error: cannot compute offsets with object type")
  | diffOther {it jt} : it.target ≠ none → jt.target ≠ none → it.target ≠ jt.target →
    Refused v (.iterDiff it jt) .invalidIterator (text! "invalid value iterator error: cannot compute iterator offsets of different value objects")
  | diff {it jt} : it.target ≠ none → it.target = jt.target → v.type ≠ .arr →
    Refused v (.iterDiff it jt) .invalidIterator (text! "invalid value iterator error: cannot compute iterator offsets with non-array type")
  | lessOther {it jt} : it.target ≠ none → jt.target ≠ none → it.target ≠ jt.target →
    Refused v (.iterLess it jt) .invalidIterator (text! "invalid value iterator error: cannot compare iterators of different value objects")
  | less {it jt} : it.target ≠ none → it.target = jt.target → v.type = .obj →
    Refused v (.iterLess it jt) .invalidIterator (text! "invalid value iterator error: cannot compare iterators with object type")

/-- What the program wrote. -/
def Call.writes : Call F → List Nat
  | .eraseKey _ | .eraseIndex _ | .eraseIter _ | .eraseRange _ _ => text! "erase()"
  | .pushBack _ => text! "push_back()"
  | .index _ | .key _ | .name _ => text! "operator[]"
  | .atIndex _ | .atKey _ => text! "at()"
  | .iterKey _ => text! "key()"
  | .iterValue _ => text! "value()"
  | _ => []

end Spec
