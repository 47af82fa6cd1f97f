import Verif.Model.Value
/-! Decidable equality of values, for the evaluation of examples by the kernel. -/
namespace Configor

deriving instance DecidableEq for Except

variable {F : Type} [DecidableEq F]

mutual
/-- Equality of values. -/
def Value.decEq : (a b : Value F) → Decidable (a = b)
  | .null, b => by cases b <;> first | exact isTrue rfl | exact isFalse (by simp)
  | .bool x, b => by
    cases b with
    | bool y => exact decidable_of_iff (x = y) (by simp)
    | _ => exact isFalse (by simp)
  | .int x, b => by
    cases b with
    | int y => exact decidable_of_iff (x = y) (by simp)
    | _ => exact isFalse (by simp)
  | .flt x, b => by
    cases b with
    | flt y => exact decidable_of_iff (x = y) (by simp)
    | _ => exact isFalse (by simp)
  | .str x, b => by
    cases b with
    | str y => exact decidable_of_iff (x = y) (by simp)
    | _ => exact isFalse (by simp)
  | .arr xs, b =>
    match b with
    | .arr ys => match decEqL xs ys with
      | isTrue h => isTrue (by rw [h])
      | isFalse h => isFalse (by simpa using h)
    | .null | .bool _ | .int _ | .flt _ | .str _ | .obj _ => isFalse (by simp)
  | .obj xs, b =>
    match b with
    | .obj ys => match decEqM xs ys with
      | isTrue h => isTrue (by rw [h])
      | isFalse h => isFalse (by simpa using h)
    | .null | .bool _ | .int _ | .flt _ | .str _ | .arr _ => isFalse (by simp)

/-- Equality of arrays. -/
def decEqL : (a b : List (Value F)) → Decidable (a = b)
  | [], [] => isTrue rfl
  | [], _ :: _ => isFalse (by simp)
  | _ :: _, [] => isFalse (by simp)
  | x :: xs, y :: ys =>
    match Value.decEq x y, decEqL xs ys with
    | isTrue h, isTrue h' => isTrue (by rw [h, h'])
    | isFalse h, _ => isFalse (by simp [h])
    | _, isFalse h => isFalse (by simp [h])

/-- Equality of a member. -/
def decEqP : (a b : List Nat × Value F) → Decidable (a = b)
  | (k, x), (k', y) =>
    match decEq k k', Value.decEq x y with
    | isTrue h, isTrue h' => isTrue (by rw [h, h'])
    | isFalse h, _ => isFalse (by simp [h])
    | _, isFalse h => isFalse (by simp [h])

/-- Equality of objects. -/
def decEqM : (a b : List (List Nat × Value F)) → Decidable (a = b)
  | [], [] => isTrue rfl
  | [], _ :: _ => isFalse (by simp)
  | _ :: _, [] => isFalse (by simp)
  | x :: xs, y :: ys =>
    match decEqP x y, decEqM xs ys with
    | isTrue h, isTrue h' => isTrue (by rw [h, h'])
    | isFalse h, _ => isFalse (by simp [h])
    | _, isFalse h => isFalse (by simp [h])
end

instance : DecidableEq (Value F) := Value.decEq

end Configor
