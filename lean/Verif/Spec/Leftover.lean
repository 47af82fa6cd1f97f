import Verif.Spec.Grammar
/-!
# What a failed `json::parse` leaves in its argument

The input is a list of code points; `none` stands for a malformed character. Every statement
about what stands at the front of an input is made with the productions of the grammar.
-/
namespace Spec
open Configor (Value)

variable {F : Type}

/-- The character in front, if any, is well formed. The scanner is always one character ahead,
so a token is only complete if what follows it is readable. -/
def Readable (l : List (Option Nat)) : Prop := l.head? ≠ some none

/-- After a gap there is the character `ch`; `k` follows. -/
def Next (ch : Nat) (l k : List (Option Nat)) : Prop :=
  ∃ g, Gap g ∧ l = (g ++ [ch]).map some ++ k ∧ Readable k

/-- After a gap there is a complete value `v`; `k` follows. -/
def Complete (D : Dialect F) (l : List (Option Nat)) (v : Value F) (k : List (Option Nat)) : Prop :=
  ∃ g t, Gap g ∧ l = (g ++ t).map some ++ k ∧ Readable k ∧ Val D t k.head?.join v

/-- After a gap there is a string literal for `s`; `k` follows. -/
def Key (D : Dialect F) (l : List (Option Nat)) (s : List Nat) (k : List (Option Nat)) : Prop :=
  ∃ g t, Gap g ∧ l = (g ++ t).map some ++ k ∧ Readable k ∧ StrLit D t s

/-- After a gap there is the first token of a value: `[`, `{`, a quote, or a complete keyword
or number. -/
def BeginsValue (D : Dialect F) (l : List (Option Nat)) : Prop :=
  ∃ g t k, Gap g ∧ l = (g ++ t).map some ++ k ∧
    (t = [0x22] ∨ (Readable k ∧ (t = [0x5B] ∨ t = [0x7B] ∨ Keyword D.w kTrue t ∨ Keyword D.w kFalse t ∨
      Keyword D.w kNull t ∨ ∃ v, Number D t k.head?.join v)))

/-- Characters of a string literal and the code points they denote. -/
inductive StrPart : List Nat → List Nat → Prop where
  | nil : StrPart [] []
  | more {t cp p cps} : StrUnit t cp → StrPart p cps → StrPart (t ++ p) (cp :: cps)

/-- A string literal, after its opening quote, that cannot be read to its end; `s` is the text
of the characters before the place where reading stops: there is no further character that
can be stored, and no closing quote with something readable behind it. -/
def StrCut (D : Dialect F) (l : List (Option Nat)) (s : List Nat) : Prop :=
  ∃ p cps k, l = p.map some ++ k ∧ StrPart p cps ∧ D.store cps = some s ∧
    (∀ t cp r, StrUnit t cp → k = t.map some ++ r → D.store (cps ++ [cp]) = none) ∧
    ∀ r, k = some 0x22 :: r → ¬ Readable r

mutual
/-- The input begins with a value that is cut off or goes wrong after its first token; what of
it was built is `w`. -/
inductive Cut (D : Dialect F) : List (Option Nat) → Value F → Prop where
  | str {g l s} : Gap g → StrCut D l s → Cut D ((g ++ [0x22]).map some ++ l) (.str s)
  | arr {l k xs} : Next 0x5B l k → ElemsCut D k xs → Cut D l (.arr xs)
  | obj {l k ms r} : Next 0x7B l k → MembersCut D k ms → FirstWins ms r → Cut D l (.obj r)

/-- The rest of an array that is cut off or goes wrong, and the elements built from it: the
complete ones in front, and the last one even if it is not complete. -/
inductive ElemsCut (D : Dialect F) : List (Option Nat) → List (Value F) → Prop where
  | none {l} : ¬ BeginsValue D l → (∀ k, ¬ Next 0x5D l k) → ElemsCut D l []
  | cut {l y} : Cut D l y → ElemsCut D l [y]
  | last {l v k} : Complete D l v k → (∀ k', ¬ Next 0x2C k k') → (∀ k', ¬ Next 0x5D k k') →
      ElemsCut D l [v]
  | more {l v k k' xs} : Complete D l v k → Next 0x2C k k' → ElemsCut D k' xs → ElemsCut D l (v :: xs)

/-- The rest of an object that is cut off or goes wrong, and the members built from it: only
complete ones. -/
inductive MembersCut (D : Dialect F) : List (Option Nat) → List (List Nat × Value F) → Prop where
  | none {l} : (∀ k, ¬ Next 0x7D l k) → (∀ s k k', Key D l s k → ¬ Next 0x7D k k') →
      (∀ s k k' v k'', Key D l s k → Next 0x3A k k' → ¬ Complete D k' v k'') → MembersCut D l []
  | last {l s k1 k2 v k} : Key D l s k1 → Next 0x3A k1 k2 → Complete D k2 v k → (∀ k', ¬ Next 0x2C k k') →
      (∀ k', ¬ Next 0x7D k k') → MembersCut D l [(s, v)]
  | more {l s k1 k2 v k k' ms} : Key D l s k1 → Next 0x3A k1 k2 → Complete D k2 v k → Next 0x2C k k' →
      MembersCut D k' ms → MembersCut D l ((s, v) :: ms)
end

/-- What a failed parse of `l` leaves in a variable that held `c`. -/
inductive Leaves (D : Dialect F) (c : Value F) (l : List (Option Nat)) : Value F → Prop where
  /-- The first token is bad: nothing is changed. -/
  | untouched : ¬ BeginsValue D l → Leaves D c l c
  /-- The value goes wrong after its first token. -/
  | cut {w} : Cut D l w → Leaves D c l w
  /-- The value is complete but something else than the end follows. -/
  | whole {v k} : Complete D l v k → (∀ e more, k = e.map some ++ more → ¬ Finish e more) → Leaves D c l v

end Spec
