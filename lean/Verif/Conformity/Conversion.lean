import Verif.Conformity.Basic
set_option autoImplicit false
/-! # tests/test_basic_config/test_conversion.cpp

`Driver` and `Passenger` have conversions of their own, written here with the operations they call. A class is
a structure with decidable equality. -/
namespace Configor.Conformity
open Spec Configor.Props ValueOps

/-- Lines 7-23. -/
structure Driver where
  name : List Nat
  deriving DecidableEq

/-- Lines 27-39. `from_value` makes the object itself. -/
def Driver.conv : Conv Dbl Driver where
  toValue v := do
    match withKey (u8 "name") (assign (← Conv.str.toValue v.name)) .null with
    | (.ok _, c) => .ok c
    | (.error e, _) => .error e
  fromValue c := fun t =>
    match (atKey (u8 "name") read c).1 with
    | .ok x => (match Conv.str.get x with | .ok s => (.ok (), ⟨s⟩) | .error e => (.error e, t))
    | .error e => (.error e, t)
  zero := ⟨[]⟩

/-- Lines 42-60. -/
structure Passenger where
  name : List Nat := []
  age : Int := 0
  deriving DecidableEq

/-- Lines 63-78. -/
def Passenger.conv : Conv Dbl Passenger := Conv.bind
  [⟨List Nat, Conv.str, Passenger.name, fun x s => { s with name := x }, u8 "name", false, fun x => x.isEmpty⟩,
   ⟨Int, Conv.int true 32, Passenger.age, fun x s => { s with age := x }, u8 "age", false, fun x => x == 0⟩] {}

/-- Lines 83-132, 134-139. A pointer is what it points to: `==` compares that. -/
structure Bus where
  license : Int := 0
  driver : Option Driver := none
  passengers : List (Option Passenger) := []
  olders : List (List Nat × Option Passenger) := []
  deriving DecidableEq

/-- Line 132. -/
def Bus.conv : Conv Dbl Bus := Conv.bind
  [⟨Int, Conv.int true 32, Bus.license, fun x s => { s with license := x }, u8 "license", false, fun x => x == 0⟩,
   ⟨Option Driver, Driver.conv.ptr, Bus.driver, fun x s => { s with driver := x }, u8 "driver", false, Option.isNone⟩,
   ⟨List (Option Passenger), Passenger.conv.ptr.vector, Bus.passengers, fun x s => { s with passengers := x },
    u8 "passengers", true, List.isEmpty⟩,
   ⟨List (List Nat × Option Passenger), Passenger.conv.ptr.map Map.emplace, Bus.olders, fun x s => { s with olders := x },
    u8 "olders", true, List.isEmpty⟩] {}

/-- Lines 149-154. -/
def expectBus : Bus := ⟨100, some ⟨u8 "driver"⟩, [some ⟨u8 "p1", 18⟩, some ⟨u8 "p2", 54⟩, none], [(u8 "p2", some ⟨u8 "p2", 54⟩)]⟩

/-- Lines 156-167. -/
def expectValue : Value Dbl := makeObject [kv "license" (.int 100), kv "driver" (makeObject [kv "name" (str "driver")]),
  kv "passengers" (makeArray [makeObject [kv "name" (str "p1"), kv "age" (.int 18)], makeObject [kv "name" (str "p2"), kv "age" (.int 54)], .null]),
  kv "olders" (makeObject [kv "p2" (makeObject [kv "name" (str "p2"), kv "age" (.int 54)])])]

/-! ## test_to_config and test_from_config, lines 171-183 -/

example : Bus.conv.toValue expectBus = .ok expectValue := by decide +kernel
example : Bus.conv.get expectValue = .ok expectBus := by decide +kernel

/-! ## test_containers, lines 185-379 -/

example : (Bus.conv.array 1).toValue [expectBus] = .ok (.arr [expectValue]) ∧ (Bus.conv.array 1).get (.arr [expectValue]) = .ok [expectBus] := by
  decide +kernel

/-- The checks of `std::vector`, `std::deque`, `std::list` and `std::forward_list`. -/
def sequenceChecks (C : Conv Dbl (List Bus)) : Bool :=
  decide (C.toValue [] = .ok (.arr [])) && decide (C.toValue [expectBus] = .ok (.arr [expectValue])) &&
  decide (C.get (.arr [expectValue]) = .ok [expectBus])

example : sequenceChecks Bus.conv.vector = true ∧ sequenceChecks Bus.conv.list = true ∧ sequenceChecks Bus.conv.forwardList = true := by
  decide +kernel

/-- `std::set<int>` with `{ 1, 1, 2, 3 }`. -/
def intSet : List Int := [1, 1, 2, 3].foldl (fun s x => Conv.setInsert (fun a b => decide (a < b)) x s) []
/-- Its conversion. -/
def intSetConv : Conv Dbl (List Int) := i32.set (Conv.setInsert fun a b => decide (a < b))

example : intSetConv.toValue [] = .ok (.arr []) ∧ intSetConv.toValue intSet = .ok (.arr [.int 1, .int 2, .int 3]) ∧
    intSetConv.get (.arr [.int 1, .int 2, .int 3]) = .ok intSet := by decide +kernel

/-- `std::unordered_set<int>` whose elements come in front, or last, or in front of the last one. -/
def hashSetChecks (place : List Int → Int → Nat) : Bool :=
  let s := [1, 1, 2, 3].foldl (fun s x => Conv.hashInsert place x s) []
  let C : Conv Dbl (List Int) := i32.set (Conv.hashInsert place)
  match C.toValue s with
  | .ok v => v.type = .arr && v.size = 3 && (match C.get v with
    | .ok t => t.length = s.length && t.all s.contains && s.all t.contains
    | _ => false)
  | _ => false

example : hashSetChecks (fun _ _ => 0) = true ∧ hashSetChecks (fun s _ => s.length) = true ∧ hashSetChecks (fun s _ => s.length - 1) = true := by
  decide +kernel

/-- `{ { "one", 1 }, { "two", 2 } }`. -/
def intMap : List (List Nat × Int) := [(u8 "one", 1), (u8 "two", 2)]
/-- Its conversion as a `std::map`. -/
def intMapConv : Conv Dbl (List (List Nat × Int)) := i32.map Map.emplace

example : intMapConv.toValue [] = .ok (.obj []) ∧ intMapConv.toValue intMap = .ok (makeObject [kv "one" (.int 1), kv "two" (.int 2)]) ∧
    intMapConv.get (makeObject [kv "one" (.int 1), kv "two" (.int 2)]) = .ok intMap := by decide +kernel
/-- As a `std::unordered_map` that iterates in the other order. -/
example : (i32.map (Conv.hashEmplace fun _ _ => 0) : Conv Dbl _).toValue intMap.reverse = .ok (makeObject [kv "one" (.int 1), kv "two" (.int 2)]) ∧
    (i32.map (Conv.hashEmplace fun _ _ => 0) : Conv Dbl _).get (makeObject [kv "one" (.int 1), kv "two" (.int 2)]) = .ok intMap.reverse := by
  decide +kernel

/-! ## test_conversion, lines 388-438 -/

example : Passenger.conv.ptr.toValue none = .ok .null ∧ Passenger.conv.ptr.get .null = .ok none := by decide +kernel

/-- Line 381-386. -/
structure CStylePassengers where
  passengers : List Passenger := [{}, {}]
  deriving DecidableEq

/-- Line 385. -/
def CStylePassengers.conv : Conv Dbl CStylePassengers := Conv.bind
  [⟨List Passenger, Passenger.conv.array 2, CStylePassengers.passengers, fun x s => { s with passengers := x }, u8 "passengers", false,
    fun _ => false⟩] {}

example : (match CStylePassengers.conv.toValue ⟨[⟨u8 "1", 1⟩, ⟨u8 "2", 2⟩]⟩ with
    | .ok c => c.type = .obj && (at' c "passengers").type = .arr && (at' c "passengers").size = 2 &&
      decide (CStylePassengers.conv.get c = .ok ⟨[⟨u8 "1", 1⟩, ⟨u8 "2", 2⟩]⟩)
    | _ => false) = true := by decide +kernel

/-! ## WObject, lines 440-491 -/

/-- Lines 440-454. -/
structure WObject where
  text : List Nat := []
  text2 : List Nat := []
  text3 : List Nat := []
  text4 : List Nat := []
  deriving DecidableEq

/-- Lines 452-453. -/
def WObject.conv : Conv Dbl WObject := Conv.bind
  [⟨List Nat, Conv.str, WObject.text, fun x s => { s with text := x }, u32 "text", false, List.isEmpty⟩,
   ⟨List Nat, Conv.str, WObject.text2, fun x s => { s with text2 := x }, u32 "text2", true, List.isEmpty⟩,
   ⟨List Nat, Conv.str, WObject.text3, fun x s => { s with text3 := x }, u32 "text3-x", false, List.isEmpty⟩,
   ⟨List Nat, Conv.str, WObject.text4, fun x s => { s with text4 := x }, u32 "text4-x", true, List.isEmpty⟩] {}

/-- Lines 466-471. -/
def expectWValue : Value Dbl := makeObject [(u32 "text", .str (u32 "1")), (u32 "text2", .str (u32 "2")), (u32 "text3-x", .str (u32 "3")),
  (u32 "text4-x", .str (u32 "4"))]

example : WObject.conv.toValue ⟨u32 "1", u32 "2", u32 "3", u32 "4"⟩ = .ok expectWValue ∧
    WObject.conv.get expectWValue = .ok ⟨u32 "1", u32 "2", u32 "3", u32 "4"⟩ := by decide +kernel

end Configor.Conformity
