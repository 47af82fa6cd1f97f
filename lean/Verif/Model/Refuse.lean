import Verif.Model.ConvertMessage
/-!
# The messages of refused operations

The calls of values and iterators that can throw, with the messages of their exceptions. What the calls do is in `Model/ValueOps` and
`Model/Iterator`; here only how they end.
-/
set_option autoImplicit false
namespace Configor
open ValueOps

variable {F : Type}

/-- Calls of functions of a value, or of an iterator. value.hpp:348-440, 711-816, iterator.hpp:184-411. -/
inductive Call (F : Type) where
  /-- `v.erase(key)` -/
  | eraseKey (k : List Nat)
  /-- `v.erase(index)` -/
  | eraseIndex (i : Nat)
  /-- `v.erase(pos)` -/
  | eraseIter (pos : Iter)
  /-- `v.erase(first, last)` -/
  | eraseRange (first last : Iter)
  /-- `v.push_back(x)` -/
  | pushBack (x : Value F)
  /-- `v[index]` -/
  | index (i : Nat)
  /-- `v[key]` for a `std::string` -/
  | key (k : List Nat)
  /-- `v[key]` for a C string -/
  | name (k : List Nat)
  /-- `v.at(index)`, and `v[index]` for a constant `v` -/
  | atIndex (i : Nat)
  /-- `v.at(key)`, and `v[key]` for a constant `v` -/
  | atKey (k : List Nat)
  /-- `it.key()` -/
  | iterKey (it : Iter)
  /-- `it.value()`, `*it` -/
  | iterValue (it : Iter)
  /-- `++it` -/
  | iterNext (it : Iter)
  /-- `--it` -/
  | iterBack (it : Iter)
  /-- `it += off`, `it + off` -/
  | iterPlus (off : Int) (it : Iter)
  /-- `it -= off`, `it - off` -/
  | iterMinus (off : Int) (it : Iter)
  /-- `it - jt` -/
  | iterDiff (it jt : Iter)
  /-- `it < jt` -/
  | iterLess (it jt : Iter)

/-- How a call on the value at address `a` ends, by `Model/ValueOps` and `Model/Iterator`; value.hpp:348-440, 711-816,
iterator.hpp:184-411. -/
def Call.ends (a : Nat) (v : Value F) : Call F → Except Stop Unit
  | .eraseKey k => (ValueOps.eraseKey k v).1.map fun _ => ()
  | .eraseIndex i => (ValueOps.eraseIndex i v).1
  | .eraseIter pos => (ValueOps.eraseIter a pos v).1.map fun _ => ()
  | .eraseRange first last => (ValueOps.eraseRange a first last v).1.map fun _ => ()
  | .pushBack x => (ValueOps.pushBack x v).1
  | .index i => (ValueOps.withIndex i read v).1.map fun _ => ()
  | .key k => (ValueOps.withKey k read v).1.map fun _ => ()
  | .name k => (ValueOps.withKey k read v).1.map fun _ => ()
  | .atIndex i => (ValueOps.atIndex i read v).1.map fun _ => ()
  | .atKey k => (ValueOps.atKey k read v).1.map fun _ => ()
  | .iterKey it => (it.key v).map fun _ => ()
  | .iterValue it => (it.deref v).map fun _ => ()
  | .iterNext it => (it.incr v).map fun _ => ()
  | .iterBack it => (it.decr v).map fun _ => ()
  | .iterPlus off it => (it.plus off v).map fun _ => ()
  | .iterMinus off it => (it.minus off v).map fun _ => ()
  | .iterDiff it jt => (it.diff v jt).map fun _ => ()
  | .iterLess it jt => (it.lt v jt).map fun _ => ()

/-- `check_data`, iterator.hpp:472-478. -/
def Iter.dataSaid (it : Iter) : Except Said Unit :=
  match it.checkData with
  | .error e => .error (e, (invalidIteratorSaid (text! "iterator is empty")).2)
  | .ok u => .ok u

/-- How a call that throws no exception of its own from here on ends; value.hpp:348-440, 711-816. -/
def quietly {α : Type} (r : Except Stop α) : Except Said Unit :=
  match r with
  | .error e => .error (e, [])
  | .ok _ => .ok ()

/-- How a call on the value at address `a` ends, with the message of the exception. The messages of `erase` are at value.hpp:350-353,
359-362, 386-388 and 412-414, that of `push_back` at 431-434, those of `operator[]` at 718-721, 741-744 and 774-777, those of `at` at
755-762, 789-798 and 805-814; those of iterators at iterator.hpp:189-190, 316-319, 345-349, 399-405 and 472-507. The message of
`std::vector::insert` (value.hpp:725) is that of libstdc++. -/
def Call.said (a : Nat) (v : Value F) : Call F → Except Said Unit
  | .eraseKey k =>
    if v.type = .obj then quietly (ValueOps.eraseKey k v).1
    else .error (invalidKeySaid (text! "cannot use erase() with non-object value"))
  | .eraseIndex i =>
    if v.type = .arr then quietly (ValueOps.eraseIndex i v).1
    else .error (invalidKeySaid (text! "cannot use erase() with non-array value"))
  | .eraseIter pos =>
    match v.type with
    | .obj | .arr => quietly (ValueOps.eraseIter a pos v).1
    | _ => .error (invalidIteratorSaid (text! "cannot use erase() with non-object & non-array value"))
  | .eraseRange first last =>
    match v.type with
    | .obj | .arr => quietly (ValueOps.eraseRange a first last v).1
    | _ => .error (invalidIteratorSaid (text! "cannot use erase() with non-object & non-array value"))
  | .pushBack x =>
    if v.type ≠ .null ∧ v.type ≠ .arr then .error (typeErrorSaid (text! "use push_back() or emplace_back() with non-array value"))
    else quietly (ValueOps.pushBack x v).1
  | .index i =>
    if v.type = .null ∨ v.type = .arr then
      match (ValueOps.withIndex i read v).1 with
      | .error e => .error (e, text! "vector::_M_fill_insert")
      | .ok _ => .ok ()
    else .error (invalidKeySaid (text! "operator[] called on a non-array object"))
  | .key k =>
    if v.type = .null ∨ v.type = .obj then quietly (ValueOps.withKey k read v).1
    else .error (invalidKeySaid (text! "operator[] called on a non-object type"))
  | .name k =>
    if v.type = .null ∨ v.type = .obj then quietly (ValueOps.withKey k read v).1
    else .error (invalidKeySaid (text! "operator[] called on a non-object object"))
  | .atIndex i => (v.atIndexSaid i).map fun _ => ()
  | .atKey k => (v.atKeySaid k).map fun _ => ()
  | .iterKey it => (it.keySaid v).map fun _ => ()
  | .iterValue it => (it.derefSaid v).map fun _ => ()
  | .iterNext it => do it.dataSaid; quietly (it.incr v)
  | .iterBack it => do it.dataSaid; quietly (it.decr v)
  | .iterPlus off it => do
    it.dataSaid
    if v.type = .obj then .error (invalidIteratorSaid (text! "cannot compute offsets with object type"))
    else quietly (it.plus off v)
  | .iterMinus off it =>
    if inPtrdiff (-off) then do
      it.dataSaid
      if v.type = .obj then .error (invalidIteratorSaid (text! "cannot compute offsets with object type"))
      else quietly (it.plus (-off) v)
    else .error (.ub, [])
  | .iterDiff it jt => do
    it.dataSaid
    jt.dataSaid
    if it.target ≠ jt.target then .error (invalidIteratorSaid (text! "cannot compute iterator offsets of different value objects"))
    else if v.type ≠ .arr then .error (invalidIteratorSaid (text! "cannot compute iterator offsets with non-array type"))
    else quietly (it.diff v jt)
  | .iterLess it jt => do
    it.dataSaid
    jt.dataSaid
    if it.target ≠ jt.target then .error (invalidIteratorSaid (text! "cannot compare iterators of different value objects"))
    else if v.type = .obj then .error (invalidIteratorSaid (text! "cannot compare iterators with object type"))
    else quietly (it.lt v jt)

end Configor
