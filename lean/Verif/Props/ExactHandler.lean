import Verif.Props.ParserCore
/-!
# Exactly which parse errors the handler decides
-/
set_option autoImplicit false
namespace Configor.Props
open Spec

variable {F : Type}

/-! ## C24 -/

/-- C24, partial: a parse error is swallowed exactly if it is not one of the first character and the handler swallows it; otherwise the
exception is the one that is thrown without a handler. Calls that throw nothing end as without a handler. -/
theorem C24_exactly_partial (A : ParseArgs F) (hA : A.Usual) (c : Value F) (str : List Nat) (l : List (Option Nat)) (hl : Sees A str l)
    (hd : Handler) :
    (∀ e, (jsonParse A none c str).1 = .error (.exn e) →
      ((jsonParse A (some hd) c str).1 = .ok () ↔ l.head? ≠ some none ∧ hd.swallows e = true) ∧
      ((jsonParse A (some hd) c str).1 = .error (.exn e) ↔ l.head? = some none ∨ hd.swallows e = false)) ∧
    ((∀ e, (jsonParse A none c str).1 ≠ .error (.exn e)) → jsonParse A (some hd) c str = jsonParse A none c str) := by
  have hi := (sees_iff A str l).1 hl
  have key : jsonParse A (some hd) c str = withHandler (some hd) (l.head? != some none) (jsonParse A none c str) := by
    rw [jsonParse_items hA, jsonParse_items hA, parseItems_handler, hi]
  generalize jsonParse A none c str = r at key
  obtain ⟨r, v⟩ := r
  rw [key]
  refine ⟨fun e he => ?_, fun h => ?_⟩
  · cases he
    by_cases h1 : l.head? = some none <;> cases h2 : hd.swallows e <;> simp [withHandler, h1, h2]
  · cases r with
    | ok => rfl
    | error e =>
      cases e with
      | exn e => exact absurd rfl (h e)
      | abort => rfl
      | ub => rfl
      | fuel => rfl

example : (jsonParse (utf8Args true) (some strict) .null (ascii "[")).1 = .error (.exn .deserialization) ∧
    (jsonParse (utf8Args true) (some swallowAll) .null (ascii "[")).1 = .ok () := by decide +kernel

end Configor.Props
