import Verif.Conformity.Common
import Verif.Model.Iterator
import Verif.Model.Convert
set_option autoImplicit false
/-! # tests/test_basic_config/test_basic.cpp, tests/test_basic_config/test_iterator.cpp -/
namespace Configor.Conformity
open Spec Configor.Props ValueOps

/-- `double`. -/
def fo : FloatOps Dbl := Dbl.ops style

/-- The value of lines 10-24. -/
def config : Value Dbl := makeObject [kv "pi" (dbl false 3141 1000), kv "happy" (.bool true), kv "name" (str "Nomango"),
  kv "chinese" (str "中文测试"), kv "nothing" .null, kv "list" (makeArray [.int 1, .int 0, .int 2]),
  kv "object" (makeObject [kv "currency" (str "USD"), kv "money" (dbl false 4299 100)]),
  kv "single_object" (makeObject [kv "number" (.int 123)])]

/-! ## test_type, lines 29-43 -/

example : config.type = .obj ∧ (at' config "pi").type = .flt ∧ (at' config "happy").type = .bool ∧ (at' config "name").type = .str ∧
    (at' config "nothing").type = .null ∧ (at' config "list").type = .arr ∧ (at' config "object").type = .obj ∧
    (at' (at' config "object") "currency").type = .str ∧ (at' (at' config "object") "money").type = .flt ∧
    (at' (at' config "single_object") "number").type = .int := by decide +kernel
example : (atKey (u8 "missing") read config).1 = .error (.exn .outOfRange) := by decide +kernel
example : (withKey (u8 "missing") read config).1 = .ok .null := by decide +kernel

/-! ## test_get, lines 45-54 -/

/-- `get<int64_t>()`. -/
def i64 : Conv Dbl Int := Conv.int true 64
/-- `get<int>()`. -/
def i32 : Conv Dbl Int := Conv.int true 32
/-- `get<double>()`. -/
def f64 : Conv Dbl Dbl := Conv.flt id id (Dbl.ofInt 0)

example : approx (at' config "pi") false 3141 1000 = true ∧ Conv.bool.get (at' config "happy") = .ok true ∧
    Conv.str.get (at' config "name") = .ok (u8 "Nomango") ∧ i64.get (idx (at' config "list") 0) = .ok 1 ∧
    i64.get (idx (at' config "list") 1) = .ok 0 ∧ i64.get (idx (at' config "list") 2) = .ok 2 ∧
    i64.get (at' (at' config "single_object") "number") = .ok 123 := by decide +kernel

/-! ## test_get_ptr, test_get_reference, lines 56-108: the pointers are not null and refer to the data -/

example : (at' config "happy").getRef .bool = .ok (.bool true) ∧ (at' (at' config "single_object") "number").getRef .int = .ok (.int 123) ∧
    (at' config "pi").getRef .flt = .ok (dbl false 3141 1000) ∧ (at' config "name").getRef .str = .ok (str "Nomango") ∧
    (at' config "list").getRef .arr = .ok (at' config "list") ∧
    (at' config "single_object").getRef .obj = .ok (at' config "single_object") := by decide +kernel

/-! ## test_try_get, lines 110-119 -/

example : f64.getInto (at' config "pi") (Dbl.ofInt 0) = (.ok true, Dbl.round false (3141 * Dbl.one) 1000) := by decide +kernel
example : i32.getInto (at' config "pi") 1 = (.ok false, 1) := by decide +kernel

/-! ## test_numeric_type, lines 121-163: 123 of all types -/

example : [(true, 8), (true, 16), (true, 32)].all (fun t =>
    match (Conv.int t.1 t.2 : Conv Dbl Int).toValue 123 with
    | .ok v => v.type = .int && [(true, 8), (true, 16), (true, 32), (true, 64), (false, 8), (false, 16), (false, 32), (false, 64)].all
        (fun u => decide ((Conv.int u.1 u.2 : Conv Dbl Int).get v = .ok 123)) && decide (f64.get v = .error (.exn .typeError))
    | _ => false) = true := by decide +kernel
example : f64.toValue (Dbl.ofInt 123) = .ok (dbl false 123 1) ∧ f64.get (dbl false 123 1) = .ok (Dbl.ofInt 123) ∧
    i64.get (dbl false 123 1) = .error (.exn .typeError) := by decide +kernel

/-! ## test_compare, lines 165-186 -/

example : (at' config "pi").eq fo (dbl false 3141 1000) = true ∧ (at' config "pi").gt fo (.int 3) = true ∧ (at' config "pi").lt fo (.int 4) = true ∧
    (at' config "happy").eq fo (.bool true) = true ∧ (at' config "name").eq fo (str "Nomango") = true ∧
    (idx (at' config "list") 0).eq fo (.int 1) = true ∧ (idx (at' config "list") 1).eq fo (.int 0) = true ∧
    (idx (at' config "list") 2).eq fo (.int 2) = true ∧ (idx (at' config "list") 0).gt fo (.int 0) = true ∧
    (idx (at' config "list") 0).lt fo (.int 2) = true ∧ (at' (at' config "single_object") "number").eq fo (.int 123) = true ∧
    (dbl false 1 1).eq fo (.int 1) = true ∧ (Value.int 1).eq fo (dbl false 1 1) = true ∧ (dbl false 1 1).eq fo (dbl false 1 1) = true := by
  decide +kernel

/-! ## test_assign, lines 199-209 -/

example : at' (withKey (u8 "happy") (assign (.bool false)) config).2 "happy" = .bool false := by decide +kernel
example : idx (at' (withKey (u8 "list") (withIndex 0 (assign (.int (-1)))) config).2 "list") 0 = .int (-1) := by decide +kernel
example : at' (withKey (u8 "new_item") (assign (str "string")) config).2 "new_item" = str "string" := by decide +kernel

/-! ## test_object and test_array, lines 213-246 -/

/-- Line 224. -/
def user : Value Dbl := makeObject [kv "user" (makeObject [kv "id" (.int 1), kv "name" (str "Nomango")])]
/-- Lines 237-238. -/
def nestedArray : Value Dbl := makeArray [makeArray [str "user", makeObject [kv "id" (.int 1), kv "name" (str "Nomango")]]]

example : user.eq fo user = true ∧ (withIndex 0 read user).1 = .error (.exn .invalidKey) ∧ (atIndex 0 read user).1 = .error (.exn .invalidKey) ∧
    (atKey (u8 "missing") read user).1 = .error (.exn .outOfRange) := by decide +kernel
example : nestedArray.type = .arr ∧ nestedArray.size = 1 ∧ (idx nestedArray 0).type = .arr ∧
    (withKey (u8 "test") read nestedArray).1 = .error (.exn .invalidKey) ∧ (atKey (u8 "test") read nestedArray).1 = .error (.exn .invalidKey) ∧
    (atIndex 1 read nestedArray).1 = .error (.exn .outOfRange) := by decide +kernel

/-! ## test_method_size, test_type, test_method_clear, lines 248-339 -/

/-- The values of the seven types in these tests. -/
def seven : List (Value Dbl) := [str "string", .int 100, dbl false 100 1, .bool true, .null, makeArray [.int 1, .int 2, .int 3],
  makeObject [kv "1" (.int 1), kv "2" (.int 2)]]

example : seven.map Value.size = [1, 1, 1, 1, 0, 3, 2] := by decide +kernel
example : seven.map Value.type = [.str, .int, .flt, .bool, .null, .arr, .obj] := by decide +kernel
example : seven.map (fun v => clear fo v) = [str "", .int 0, dbl false 0 1, .bool false, .null, .arr [], .obj []].map fun v => (.ok (), v) := by
  decide +kernel

/-! ## test_int64, test_config_value, lines 341-379 -/

example : i64.toValue 9223372036854775807 = .ok (.int 9223372036854775807) ∧ i64.get (.int 9223372036854775807) = .ok 9223372036854775807 := by
  decide +kernel
example : [VType.null, .bool, .int, .flt, .str, .arr, .obj].map (Value.ofType fo) =
    [.null, .bool false, .int 0, dbl false 0 1, str "", .arr [], .obj []] := by decide +kernel

/-! # test_iterator.cpp

`0` stands for the address of the value. -/

/-- `std::distance`: the iterators are bidirectional (iterator.hpp:141), so it counts steps. -/
def distance (v : Value Dbl) (it last : Iter) : Nat → Option Nat
  | 0 => none
  | n + 1 =>
    match it.ne v last with
    | .ok false => some 0
    | .ok true => (match it.incr v with | .ok it => (distance v it last n).map (· + 1) | _ => none)
    | _ => none

/-- The checks of lines 9-32, 38-61, 67-90, 96-119 on a value that is neither null nor a container. -/
def primitiveChecks (v : Value Dbl) : Bool :=
  match v.begin 0, v.fin 0, RIter.rbegin 0 v, RIter.rend 0 v with
  | .ok b, .ok e, .ok rb, .ok re =>
    b.ne v e = .ok true && b.eq v b = .ok true && b.deref v = .ok v && b.key v = .error (.exn .invalidIterator) &&
    (match b.incr v with
    | .ok c => c.eq v e = .ok true && c.ne v b = .ok true &&
      (match c.decr v with
      | .ok d => d.ne v e = .ok true && d.eq v b = .ok true
      | _ => false)
    | _ => false) &&
    e.deref v = .error (.exn .outOfRange) && distance v b e 9 = some v.size &&
    (match rb.incr v with | .ok r => r.eq v re = .ok true | _ => false) &&
    (eraseIndex 0 v).1 = .error (.exn .invalidKey) && (eraseKey [] v).1 = .error (.exn .invalidKey) &&
    (eraseIter 0 b v).1 = .error (.exn .invalidIterator)
  | _, _, _, _ => false

example : [str "string", .int 100, dbl false 100 1, .bool true].all primitiveChecks = true := by decide +kernel

/-- The checks of lines 125-146. -/
def nullChecks (v : Value Dbl) : Bool :=
  match v.begin 0, v.fin 0, RIter.rbegin 0 v, RIter.rend 0 v with
  | .ok b, .ok e, .ok rb, .ok re =>
    b.eq v e = .ok true && b.eq v b = .ok true && b.deref v = .error (.exn .outOfRange) &&
    (match b.incr v with
    | .ok c => c.eq v e = .ok true && c.eq v b = .ok true &&
      (match c.decr v with
      | .ok d => d.eq v e = .ok true && d.eq v b = .ok true
      | _ => false)
    | _ => false) &&
    distance v b e 9 = some v.size && rb.eq v re = .ok true &&
    (eraseIndex 0 v).1 = .error (.exn .invalidKey) && (eraseKey [] v).1 = .error (.exn .invalidKey) &&
    (eraseIter 0 b v).1 = .error (.exn .invalidIterator)
  | _, _, _, _ => false

example : nullChecks .null = true := by decide +kernel

/-- The loop of lines 152-157: every iterator is found by its key and refers to the member of that key. -/
def memberChecks (v : Value Dbl) (it last : Iter) : Nat → Bool
  | 0 => false
  | n + 1 =>
    match it.ne v last with
    | .ok false => true
    | .ok true =>
      (match it.key v with
      | .ok k => (match v.find 0 k with | .ok f => it.eq v f = .ok true | _ => false) && it.deref v = (atKey k read v).1
      | _ => false) &&
      (match it.incr v with | .ok it => memberChecks v it last n | _ => false)
    | _ => false

/-- The loop of lines 159-162. -/
def reverseChecks (v : Value Dbl) (it last : RIter) : Nat → Bool
  | 0 => false
  | n + 1 =>
    match it.eq v last with
    | .ok true => true
    | .ok false =>
      (match it.key v with
      | .ok k => it.deref v = (atKey k read v).1
      | _ => false) &&
      (match it.incr v with | .ok it => reverseChecks v it last n | _ => false)
    | _ => false

example : (match user.begin 0, user.fin 0, RIter.rbegin 0 user, RIter.rend 0 user with
    | .ok b, .ok e, .ok rb, .ok re => memberChecks user b e 3 && reverseChecks user rb re 3 && e.deref user = .error (.exn .outOfRange)
    | _, _, _, _ => false) = true := by decide +kernel
example : (do (← user.find 0 (u8 "user")).ne user (← user.fin 0)) = .ok true ∧ (do (← user.find 0 (u8 "missing")).eq user (← user.fin 0)) = .ok true := by
  decide +kernel

/-- Line 173. -/
def pair : Value Dbl := makeObject [kv "1" (.int 1), kv "2" (.int 2)]
/-- Line 175. -/
def second : Value Dbl := makeObject [kv "2" (.int 2)]

/-- An erasure by an iterator. -/
def erased (v : Value Dbl) (it : Except Stop Iter) : Except Stop Unit × Value Dbl :=
  match it with
  | .ok it => (match eraseIter 0 it v with | (.ok _, w) => (.ok (), w) | (.error e, w) => (.error e, w))
  | .error e => (.error e, v)

/-- An erasure of everything by iterators. -/
def erasedAll (v : Value Dbl) : Except Stop Unit × Value Dbl :=
  match v.begin 0, v.fin 0 with
  | .ok b, .ok e => (match eraseRange 0 b e v with | (.ok _, w) => (.ok (), w) | (.error e, w) => (.error e, w))
  | _, _ => (.error .abort, v)

example : (eraseKey (u8 "1") pair).2 = second ∧ erased pair (pair.begin 0) = (.ok (), second) ∧ erasedAll pair = (.ok (), .obj []) ∧
    erased pair (pair.find 0 (u8 "1")) = (.ok (), second) ∧ (eraseIndex 0 (.obj [] : Value Dbl)).1 = .error (.exn .invalidKey) := by decide +kernel

/-- Line 203. -/
def three : Value Dbl := makeArray [.int 1, .int 2, .int 3]
/-- Line 234. -/
def lastTwo : Value Dbl := makeArray [.int 2, .int 3]

/-- Lines 205-213 and 222-226: `begin() + i` refers to element `i` and has no key, `rbegin() + i` to the one before `size() - i`. -/
example : [0, 1, 2].all (fun i => match three.begin 0 with
    | .ok b => (match b.plus i three with
      | .ok it => it.deref three = (atIndex i.toNat read three).1 && it.key three = .error (.exn .invalidIterator)
      | _ => false)
    | _ => false) = true := by decide +kernel
example : (do
    let r0 ← RIter.rbegin 0 three
    let r1 ← r0.incr three
    let r2 ← r1.incr three
    let r3 ← r2.incr three
    .ok (← r0.deref three, ← r1.deref three, ← r2.deref three, ← r3.eq three (← RIter.rend 0 three))) =
      .ok (.int 3, .int 2, .int 1, true) := by decide +kernel
example : (do (← three.fin 0).deref three) = .error (.exn .outOfRange) ∧ (do (← three.fin 0).diff three (← three.begin 0)) = .ok 3 ∧
    (do .ok (distance three (← three.begin 0) (← three.fin 0) 9)) = (.ok (some three.size) : Except Stop _) := by decide +kernel
example : (eraseIndex 0 three).2 = lastTwo ∧ erased three (three.begin 0) = (.ok (), lastTwo) ∧ erasedAll three = (.ok (), .arr []) ∧
    (eraseKey [] (.arr [] : Value Dbl)).1 = .error (.exn .invalidKey) := by decide +kernel

/-- Lines 253-255: iterators of two values, and of none. -/
example : (do (← (Value.obj [] : Value Dbl).begin 0).ne (.obj [] : Value Dbl) (← (Value.arr [] : Value Dbl).begin 1)) = .ok true ∧
    (Iter.make none).key (.null : Value Dbl) = .error (.exn .invalidIterator) ∧ (Iter.make none).eq (.null : Value Dbl) (Iter.make none) = .ok false := by
  decide +kernel

end Configor.Conformity
