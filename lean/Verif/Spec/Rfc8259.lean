import Verif.Spec.Grammar
/-!
# RFC 8259

The JSON grammar of the RFC, written down separately from the grammar of the code. Escapes of
surrogates must be paired and member names must be unique, where the RFC leaves the meaning open.
-/
namespace Spec.Rfc
open Configor (Value FloatOps)

variable {F : Type}

/-- RFC 8259, section 2: insignificant white space. -/
def Ws (g : List Nat) : Prop := ∀ c ∈ g, IsBlank c

/-- DIGIT -/
def Digit (c : Nat) : Prop := 0x30 ≤ c ∧ c ≤ 0x39

/-- The number a string of digits denotes. -/
def decimal (ds : List Nat) : Nat := ds.foldl (fun v c => v * 10 + (c - 0x30)) 0

/-- A number, section 6: `[ minus ] int [ frac ] [ exp ]`. `exp` is the letter, the sign and
the digits. -/
structure Lit where
  minus : Bool
  int : List Nat
  frac : Option (List Nat)
  exp : Option (Nat × Option Nat × List Nat)

/-- The text of a number. -/
def Lit.text (n : Lit) : List Nat :=
  (if n.minus then [0x2D] else []) ++ n.int ++
  (match n.frac with | none => [] | some ds => 0x2E :: ds) ++
  (match n.exp with | none => [] | some (e, s, ds) => e :: s.toList ++ ds)

/-- The parts of a number are as section 6 says. -/
structure Lit.Valid (n : Lit) : Prop where
  int : n.int = [0x30] ∨ ∃ c ds, n.int = c :: ds ∧ 0x31 ≤ c ∧ c ≤ 0x39 ∧ ∀ d ∈ ds, Digit d
  frac : ∀ ds, n.frac = some ds → ds ≠ [] ∧ ∀ d ∈ ds, Digit d
  exp : ∀ e s ds, n.exp = some (e, s, ds) → (e = 0x65 ∨ e = 0x45) ∧ (∀ sg, s = some sg → sg = 0x2B ∨ sg = 0x2D) ∧
    ds ≠ [] ∧ ∀ d ∈ ds, Digit d

/-- The value of a number: an integer if there is neither fraction nor exponent. Otherwise a
floating point number, computed as `fracVal` and `scale` say. -/
def Lit.value (fo : FloatOps F) (n : Lit) : Value F :=
  match n.frac, n.exp with
  | none, none => .int (if n.minus then -(decimal n.int : Int) else decimal n.int)
  | f, e =>
    let m := match f with | none => fo.ofInt (decimal n.int) | some ds => fracVal fo (decimal n.int) ds
    let x := match e with
      | none => m
      | some (_, s, ds) => fo.mul m (scale fo (s == some 0x2D) (decimal ds))
    .flt (if n.minus then fo.neg x else x)

/-- Characters of a string, section 7, and the code points they denote. -/
inductive Chars : List Nat → List Nat → Prop where
  | nil : Chars [] []
  | raw {c t cps} : 0x20 ≤ c → c ≠ 0x22 → c ≠ 0x5C → Chars t cps → Chars (c :: t) (c :: cps)
  | esc {c d t cps} : simpleEscape c = some d → Chars t cps → Chars (0x5C :: c :: t) (d :: cps)
  | uni {h u t cps} : Hex4 h u → ¬ (0xD800 ≤ u ∧ u ≤ 0xDFFF) → Chars t cps →
      Chars (0x5C :: 0x75 :: h ++ t) (u :: cps)
  | pair {h u h' u' t cps} : Hex4 h u → 0xD800 ≤ u ∧ u ≤ 0xDBFF → Hex4 h' u' → 0xDC00 ≤ u' ∧ u' ≤ 0xDFFF →
      Chars t cps → Chars (0x5C :: 0x75 :: h ++ (0x5C :: 0x75 :: h' ++ t))
        ((0x10000 + (u - 0xD800) * 0x400 + (u' - 0xDC00)) :: cps)

/-- A string and the text stored for it. -/
def Str (store : List Nat → Option (List Nat)) (t s : List Nat) : Prop :=
  ∃ u cps, t = 0x22 :: u ++ [0x22] ∧ Chars u cps ∧ store cps = some s

/-- The numbers `ok` a parser can read. -/
structure Params (F : Type) where
  fo : FloatOps F
  store : List Nat → Option (List Nat)
  ok : Lit → Prop

mutual
/-- A value, sections 3 to 7. -/
inductive Json (P : Params F) : List Nat → Value F → Prop where
  | jtrue : Json P [0x74, 0x72, 0x75, 0x65] (.bool true)
  | jfalse : Json P [0x66, 0x61, 0x6C, 0x73, 0x65] (.bool false)
  | jnull : Json P [0x6E, 0x75, 0x6C, 0x6C] .null
  | num {n : Lit} : n.Valid → P.ok n → Json P n.text (n.value P.fo)
  | str {t s} : Str P.store t s → Json P t (.str s)
  | emptyArr {g} : Ws g → Json P (0x5B :: g ++ [0x5D]) (.arr [])
  | arr {t xs} : Elements P t xs → Json P (0x5B :: t ++ [0x5D]) (.arr xs)
  | emptyObj {g} : Ws g → Json P (0x7B :: g ++ [0x7D]) (.obj [])
  | obj {t ms r} : Pairs P t ms → (ms.map Prod.fst).Nodup → FirstWins ms r → Json P (0x7B :: t ++ [0x7D]) (.obj r)

/-- The elements of an array, separated by commas. -/
inductive Elements (P : Params F) : List Nat → List (Value F) → Prop where
  | one {g t v g'} : Ws g → Json P t v → Ws g' → Elements P (g ++ t ++ g') [v]
  | more {g t v g' u xs} : Ws g → Json P t v → Ws g' → Elements P u xs →
      Elements P (g ++ t ++ g' ++ 0x2C :: u) (v :: xs)

/-- The members of an object, separated by commas. -/
inductive Pairs (P : Params F) : List Nat → List (List Nat × Value F) → Prop where
  | one {g k s g1 g2 t v g'} : Ws g → Str P.store k s → Ws g1 → Ws g2 → Json P t v → Ws g' →
      Pairs P (g ++ k ++ g1 ++ 0x3A :: g2 ++ t ++ g') [(s, v)]
  | more {g k s g1 g2 t v g' u ms} : Ws g → Str P.store k s → Ws g1 → Ws g2 → Json P t v → Ws g' → Pairs P u ms →
      Pairs P (g ++ k ++ g1 ++ 0x3A :: g2 ++ t ++ g' ++ 0x2C :: u) ((s, v) :: ms)
end

/-- A JSON text: a value with white space around it. -/
def Text (P : Params F) (l : List Nat) (v : Value F) : Prop :=
  ∃ g t g', l = g ++ t ++ g' ∧ Ws g ∧ Json P t v ∧ Ws g'

end Spec.Rfc
