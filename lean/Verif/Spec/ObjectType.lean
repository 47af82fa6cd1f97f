import Verif.Spec.Grammar
/-!
# What a text says about the members of its objects

A text as a tree: like the grammar of `Spec/Grammar.lean`, but an object has all the members that its text has, in the order
of the text, also several with the same key. What a value keeps of them is up to the type of its objects.
-/
namespace Spec
open Configor (Value)

variable {F : Type}

mutual
/-- A value, the code point behind it, and its tree. -/
inductive Tree (D : Dialect F) : List Nat → Option Nat → Value F → Prop where
  | vtrue {t nx} : Keyword D.w kTrue t → Tree D t nx (.bool true)
  | vfalse {t nx} : Keyword D.w kFalse t → Tree D t nx (.bool false)
  | vnull {t nx} : Keyword D.w kNull t → Tree D t nx .null
  | num {t nx v} : Number D t nx v → Tree D t nx v
  | str {t nx s} : StrLit D t s → Tree D t nx (.str s)
  | arr {t nx xs} : TreeElems D t xs → Tree D (0x5B :: t) nx (.arr xs)
  | obj {t nx ms} : TreeMembers D t ms → Tree D (0x7B :: t) nx (.obj ms)

/-- The rest of an array; see `Elems`. -/
inductive TreeElems (D : Dialect F) : List Nat → List (Value F) → Prop where
  | close {g} : Gap g → TreeElems D (g ++ [0x5D]) []
  | last {g t v g'} : Gap g → Tree D t (g' ++ [0x5D]).head? v → Gap g' →
      TreeElems D (g ++ t ++ g' ++ [0x5D]) [v]
  | more {g t v g' u xs} : Gap g → Tree D t (g' ++ [0x2C]).head? v → Gap g' → TreeElems D u xs →
      TreeElems D (g ++ t ++ g' ++ 0x2C :: u) (v :: xs)

/-- The rest of an object; see `Members`. -/
inductive TreeMembers (D : Dialect F) : List Nat → List (List Nat × Value F) → Prop where
  | close {g} : Gap g → TreeMembers D (g ++ [0x7D]) []
  | keyOnly {g k s g'} : Gap g → StrLit D k s → Gap g' → TreeMembers D (g ++ k ++ g' ++ [0x7D]) []
  | last {g k s g1 g2 t v g'} : Gap g → StrLit D k s → Gap g1 → Gap g2 →
      Tree D t (g' ++ [0x7D]).head? v → Gap g' →
      TreeMembers D (g ++ k ++ g1 ++ 0x3A :: g2 ++ t ++ g' ++ [0x7D]) [(s, v)]
  | more {g k s g1 g2 t v g' u ms} : Gap g → StrLit D k s → Gap g1 → Gap g2 →
      Tree D t (g' ++ [0x2C]).head? v → Gap g' → TreeMembers D u ms →
      TreeMembers D (g ++ k ++ g1 ++ 0x3A :: g2 ++ t ++ g' ++ 0x2C :: u) ((s, v) :: ms)
end

/-- A document and its tree; see `Document`. -/
def TreeDocument (D : Dialect F) (l : List (Option Nat)) (v : Value F) : Prop :=
  ∃ g t e more, l = (g ++ t ++ e).map some ++ more ∧ Gap g ∧
    Tree D t ((e.map some ++ more).head?.join) v ∧ Finish e more

/-! ## What objects keep -/

/-- Members of an object, each with its key. -/
abbrev MemberList (F : Type) := List (List Nat × Value F)

mutual
/-- `keep` says what an object makes of its members: done to all objects of a value, the inner ones first. -/
def arranged (keep : MemberList F → MemberList F) : Value F → Value F
  | .arr xs => .arr (arrangedElems keep xs)
  | .obj ms => .obj (keep (arrangedMembers keep ms))
  | v => v

/-- `arranged` for elements. -/
def arrangedElems (keep : MemberList F → MemberList F) : List (Value F) → List (Value F)
  | [] => []
  | x :: xs => arranged keep x :: arrangedElems keep xs

/-- `arranged` for members. -/
def arrangedMembers (keep : MemberList F → MemberList F) : MemberList F → MemberList F
  | [] => []
  | (k, v) :: ms => (k, arranged keep v) :: arrangedMembers keep ms
end

/-- The first member of each key, in the order of the list. -/
def firsts : MemberList F → MemberList F
  | [] => []
  | m :: ms => m :: (firsts ms).filter (fun x => x.1 ≠ m.1)

mutual
/-- The same value, but for the order of the members of its objects, at any depth. -/
inductive SameMembers : Value F → Value F → Prop where
  | null : SameMembers .null .null
  | bool {b} : SameMembers (.bool b) (.bool b)
  | int {i} : SameMembers (.int i) (.int i)
  | flt {f} : SameMembers (.flt f) (.flt f)
  | str {s} : SameMembers (.str s) (.str s)
  | arr {xs ys} : SameElems xs ys → SameMembers (.arr xs) (.arr ys)
  | obj {ms ns ns'} : SamePairs ms ns → ns.Perm ns' → SameMembers (.obj ms) (.obj ns')

/-- The same elements, one by one. -/
inductive SameElems : List (Value F) → List (Value F) → Prop where
  | nil : SameElems [] []
  | cons {x y xs ys} : SameMembers x y → SameElems xs ys → SameElems (x :: xs) (y :: ys)

/-- The same members, one by one. -/
inductive SamePairs : MemberList F → MemberList F → Prop where
  | nil : SamePairs [] []
  | cons {k v w ms ns} : SameMembers v w → SamePairs ms ns → SamePairs ((k, v) :: ms) ((k, w) :: ns)
end

end Spec
