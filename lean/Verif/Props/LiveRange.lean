import Verif.Proofs.LiveRange
import Verif.Props.Live
/-!
# Arithmetic with iterators of a value that changes, and removing a range

`PointsAt` and `Useless` as for C127.
-/
set_option autoImplicit false
namespace Configor.Props
open Spec

variable {F : Type}

/-- An array of four elements, for examples. -/
def liveFour : Live Unit := .fresh 0 0 (.arr [.int 1, .int 2, .int 3, .int 4])

/-- The iterators to its elements, for examples. -/
def fourAt (p : Nat) : LIter := ⟨some (p, 0), none, 0⟩

theorem liveFour_lived : Lived unitFloat tight liveFour := .start (sorted_arr.2 (by
  intro x hx
  have : x.type = .int := by
    simp only [List.mem_cons, List.not_mem_nil, or_false] at hx
    rcases hx with rfl | rfl | rfl | rfl <;> rfl
  exact sorted_scalar (by rw [this]; simp) (by rw [this]; simp)))

theorem liveFour_at {p : Nat} (h : p ≤ 4) : PointsAt liveFour p (fourAt p) := by
  have : p = 0 ∨ p = 1 ∨ p = 2 ∨ p = 3 ∨ p = 4 := by omega
  rcases this with rfl | rfl | rfl | rfl | rfl <;> exact ⟨_, rfl, rfl, by decide +kernel, rfl⟩

/-! ## C137 -/

/-- C137. `--it` of an iterator that may be used steps to the position before, whatever changed since the iterator was made. -/
theorem C137_back (fo : FloatOps F) (g : Growth) (c : Live F) (hc : Lived fo g c) (p : Nat) (it : LIter) (h : PointsAt c (p + 1) it) :
    ∃ jt, c.decr it = .ok jt ∧ PointsAt c p jt :=
  decr_live (lived_ok hc) h

example : ∃ d, Live.actAll unitFloat tight [.put [0] .null, .eraseKey [1]] liveObj = some d ∧ PointsAt d 1 second ∧
    (∃ jt, d.decr second = .ok jt ∧ d.key jt = .ok [0]) := ⟨_, rfl, ⟨_, rfl, rfl, by decide +kernel, rfl⟩, _, rfl, rfl⟩

/-- C137. In an array, `it + n` is at the position `n` further on if there is one, the end included, and is undefined if there is
none; `it - n` is `it + (-n)`. -/
theorem C137_plus (fo : FloatOps F) (g : Growth) (c : Live F) (hc : Lived fo g c) (xs : List (Value F)) (he : c.content = .arr xs)
    (p : Nat) (it : LIter) (h : PointsAt c p it) (off : Int) :
    (0 ≤ p + off ∧ p + off ≤ xs.length → ∃ jt, c.plus off it = .ok jt ∧ PointsAt c (p + off).toNat jt) ∧
    (¬ (0 ≤ p + off ∧ p + off ≤ xs.length) → c.plus off it = .error .ub) ∧
    (inPtrdiff (-off) → c.minus off it = c.plus (-off) it) :=
  ⟨fun hq => plus_live (lived_ok hc) he h (by omega) (by omega), plus_out he h, fun hp => if_pos hp⟩

example : liveFour.plus 2 (fourAt 1) = .ok (fourAt 3) ∧ liveFour.minus 1 (fourAt 1) = .ok (fourAt 0) ∧
    liveFour.plus 4 (fourAt 1) = .error .ub := ⟨rfl, rfl, rfl⟩

/-- C137. In an array, `it - jt` is the distance of the positions, and `it < jt` compares them. -/
theorem C137_distance (fo : FloatOps F) (g : Growth) (c : Live F) (hc : Lived fo g c) (xs : List (Value F)) (he : c.content = .arr xs)
    (p q : Nat) (it jt : LIter) (h : PointsAt c p it) (h' : PointsAt c q jt) :
    c.diff it jt = .ok ((p : Int) - q) ∧ c.lt it jt = .ok (decide (p < q)) :=
  diff_live (lived_ok hc) he h h'

example : liveFour.diff (fourAt 3) (fourAt 1) = .ok 2 ∧ liveFour.lt (fourAt 3) (fourAt 1) = .ok false := ⟨rfl, rfl⟩

/-- C137. With iterators of an object, `it + n`, `it - jt` and `it < jt` throw, also with iterators that were given up: those are
not looked at. -/
theorem C137_objects_refuse (fo : FloatOps F) (g : Growth) (c : Live F) (hl : Lived fo g c) (hc : c.content.type = .obj) (it jt : LIter)
    (off : Int) :
    c.plus off it = .error (.exn .invalidIterator) ∧ c.diff it jt = .error (.exn .invalidIterator) ∧
    c.lt it jt = .error (.exn .invalidIterator) := by
  obtain ⟨n, sh⟩ := c
  cases sh with
  | vec xs marks cap => cases hc
  | map home ms => exact ⟨rfl, rfl, rfl⟩
  | plain v => exact absurd hc (lived_ok hl).2

example : liveObj.plus 1 second = .error (.exn .invalidIterator) := rfl

/-- C137. `erase(first, last)` removes the elements from the position of `first` up to that of `last`, and gives the iterator to
what then stands there. Iterators before the range stay where they are. Of an array, those from `first` on are given up. Of an
object, those in the range are given up, and those from `last` on stay at their members. -/
theorem C137_erase_range (fo : FloatOps F) (g : Growth) (c : Live F) (hc : Lived fo g c) (p q : Nat) (it jt : LIter)
    (hi : PointsAt c p it) (hj : PointsAt c q jt) (hpq : p ≤ q) (ht : c.content.type = .arr ∨ c.content.type = .obj) :
    ∃ kt d, Live.eraseRange it jt c = (.ok kt, d) ∧ d.content = lessRange p q c.content ∧ PointsAt d p kt ∧
      (∀ r lt, r < p → PointsAt c r lt → PointsAt d r lt) ∧
      (c.content.type = .arr → ∀ r lt, p ≤ r → PointsAt c r lt → Useless d lt) ∧
      (c.content.type = .obj → (∀ r lt, p ≤ r → r < q → PointsAt c r lt → Useless d lt) ∧
        ∀ r lt, q ≤ r → PointsAt c r lt → PointsAt d (r - (q - p)) lt) :=
  eraseRange_live (lived_ok hc) hi hj hpq ht

example : Lived unitFloat tight liveFour ∧ PointsAt liveFour 1 (fourAt 1) ∧ PointsAt liveFour 3 (fourAt 3) ∧
    (Live.eraseRange (fourAt 1) (fourAt 3) liveFour).2.content = .arr [.int 1, .int 4] :=
  ⟨liveFour_lived, liveFour_at (by omega), liveFour_at (by omega), rfl⟩
example : (Live.eraseRange second ⟨none, some (.past 0), 0⟩ liveObj).2.content = .obj [([1], .int 1)] := rfl

/-- C137. `erase(begin(), end())` leaves an empty array or object. -/
theorem C137_erase_all (fo : FloatOps F) (g : Growth) (c : Live F) (hc : Lived fo g c) (ht : c.content.type = .arr ∨ c.content.type = .obj) :
    ∃ it jt kt d, c.begin = .ok it ∧ c.fin = .ok jt ∧ Live.eraseRange it jt c = (.ok kt, d) ∧ d.content.size = 0 ∧
      d.content.type = c.content.type := by
  have ok := lived_ok hc
  obtain ⟨it, h1, h2⟩ := begin_live ok
  obtain ⟨jt, h3, h4⟩ := fin_live ok
  obtain ⟨kt, d, h5, h6, _⟩ := eraseRange_live ok h2 h4 (Nat.zero_le _) ht
  refine ⟨it, jt, kt, d, h1, h3, h5, ?_⟩
  rw [h6]
  cases hv : c.content with
  | arr xs => exact ⟨by simp [lessRange, Value.size], rfl⟩
  | obj ms => exact ⟨by simp [lessRange, Value.size], rfl⟩
  | _ => rw [hv] at ht; simp [Value.type] at ht

example : (Live.eraseRange (fourAt 0) (fourAt 4) liveFour).2.content = .arr [] := rfl

/-- C137. `erase(first, last)` with `last` before `first` is undefined: the library does not test it. On a value that is neither
array nor object it throws. Nothing has changed then. -/
theorem C137_erase_backwards (fo : FloatOps F) (g : Growth) (c : Live F) (hc : Lived fo g c) (it jt : LIter) :
    (c.content.type = .arr ∨ c.content.type = .obj → ∀ p q, PointsAt c p it → PointsAt c q jt → q < p →
      Live.eraseRange it jt c = (.error .ub, c)) ∧
    (c.content.type ≠ .arr → c.content.type ≠ .obj → Live.eraseRange it jt c = (.error (.exn .invalidIterator), c)) := by
  refine ⟨fun ht p q hi hj h => eraseRange_backwards hi hj h ht (lived_ok hc), fun h1 h2 => ?_⟩
  obtain ⟨n, sh⟩ := c
  cases sh with
  | vec xs marks cap => exact absurd rfl h1
  | map home ms => exact absurd rfl h2
  | plain v => rfl

example : Live.eraseRange (fourAt 3) (fourAt 1) liveFour = (.error .ub, liveFour) := rfl

/-- C137. What `erase(first, last)` leaves is what removing one element after another leaves: `it = c.erase(it)`, as often as there
are elements in the range. -/
theorem C137_one_by_one (fo : FloatOps F) (g : Growth) (c : Live F) (hc : Lived fo g c) (p : Nat) (it : LIter) (k : Nat)
    (hi : PointsAt c p it) (hk : p + k ≤ c.content.size) (ht : c.content.type = .arr ∨ c.content.type = .obj) :
    ∃ d kt, eraseTimes k it c = (.ok kt, d) ∧ d.content = lessRange p (p + k) c.content ∧ PointsAt d p kt :=
  eraseTimes_live hc hi hk ht

example : (eraseTimes 2 (fourAt 1) liveFour).2.content = .arr [.int 1, .int 4] := rfl

end Configor.Props
