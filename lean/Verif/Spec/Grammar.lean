import Verif.Model.Value
import Verif.Model.Float
/-!
# The language `json::parse` accepts, as a grammar

Texts are lists of code points. The grammar is the documented one (RFC 8259 plus comments,
trailing commas and a leading `+`) with every quirk of the code as a production of its own.
Numbers are maximal, so their productions name the code point that follows: `nx = none` is
the end of the text.
-/
namespace Spec
open Configor (Value FloatOps)

/-- What the language depends on: the width `w` of the source character type (some
comparisons are made after conversion to it), whether asserts are on, the floating type,
and how text is stored in a string (`none`: not representable). -/
structure Dialect (F : Type) where
  w : Nat
  debug : Bool
  fo : FloatOps F
  store : List Nat → Option (List Nat)

variable {F : Type}

/-! ## Gaps -/

/-- The body of a block comment with its end. Quirk: a `*` that is not followed by `/` takes
the next character with it, so `**/` does not end a comment. -/
inductive BlockBody : List Nat → Prop where
  | close : BlockBody [0x2A, 0x2F]
  | other {c t} : c ≠ 0x2A → BlockBody t → BlockBody (c :: t)
  | star {c t} : c ≠ 0x2F → BlockBody t → BlockBody (0x2A :: c :: t)

/-- Blank, tab, line feed, carriage return. -/
def IsBlank (c : Nat) : Prop := c = 0x20 ∨ c = 0x09 ∨ c = 0x0A ∨ c = 0x0D

/-- A line without its end. -/
def Line (t : List Nat) : Prop := ∀ c ∈ t, c ≠ 0x0A ∧ c ≠ 0x0D

/-- What may stand between two tokens: blanks and comments. -/
inductive Gap : List Nat → Prop where
  | nil : Gap []
  | blank {c g} : IsBlank c → Gap g → Gap (c :: g)
  | line {t nl g} : Line t → nl = 0x0A ∨ nl = 0x0D → Gap g → Gap (0x2F :: 0x2F :: t ++ nl :: g)
  | block {t g} : BlockBody t → Gap g → Gap (0x2F :: 0x2A :: t ++ g)

/-! ## Numbers -/

/-- A digit, after conversion to the source character type. -/
def IsDig (w c : Nat) : Prop := 0x30 ≤ c % 2 ^ w ∧ c % 2 ^ w ≤ 0x39

/-- The value the code gives to a digit: `c - '0'` in 32 bits. -/
def dv (c : Nat) : Nat := (c + 4294967296 - 0x30) % 4294967296

/-- The number a digit string denotes. -/
def intVal (ds : List Nat) : Nat := ds.foldl (fun v c => v * 10 + dv c) 0

/-- The exponent a digit string denotes: modulo 2^32. -/
def expVal (ds : List Nat) : Nat := ds.foldl (fun v c => (v * 10 + dv c) % 4294967296) 0

/-- Largest `int64_t`. -/
def intMax : Nat := 9223372036854775807

/-- Not a digit (the end of the text is not). -/
def NoDig (w : Nat) (nx : Option Nat) : Prop := ∀ c, nx = some c → ¬ IsDig w c

/-- Add the digits after the first one, each scaled by a further `0.1`. -/
def fracLoop (fo : FloatOps F) : F → F → List Nat → F
  | f, _, [] => f
  | f, scale, c :: ds =>
    fracLoop fo (fo.add f (fo.mul (fo.ofInt (dv c)) (fo.mul scale fo.tenth))) (fo.mul scale fo.tenth) ds

/-- The value of `i.ds`, in the order of evaluation of the code. -/
def fracVal (fo : FloatOps F) (i : Nat) : List Nat → F
  | [] => fo.ofInt i
  | c :: ds => fracLoop fo (fo.add (fo.ofInt i) (fo.mul (fo.ofInt (dv c)) fo.tenth)) fo.tenth ds

/-- `base ^ e` by squaring, for 32 bit exponents, times `acc`. -/
def powSq (fo : FloatOps F) : Nat → Nat → F → F → F
  | 0, _, _, acc => acc
  | n + 1, e, base, acc =>
    if e = 0 then acc
    else powSq fo n (e / 2) (fo.mul base base) (if e % 2 = 1 then fo.mul acc base else acc)

/-- `10 ^ e` or `0.1 ^ e`. -/
def scale (fo : FloatOps F) (neg : Bool) (e : Nat) : F :=
  powSq fo 32 e (if neg then fo.tenth else fo.ofInt 10) (fo.ofInt 1)

/-- An exponent with its sign and value. Quirks: without a sign the first digit must not be
`0`; after a sign any first character is taken for a digit, even a missing one. -/
inductive Expo (w : Nat) : List Nat → Option Nat → Bool → Nat → Prop where
  | plain {e c ds nx} : e = 0x65 ∨ e = 0x45 → IsDig w c → c ≠ 0x30 → (∀ d ∈ ds, IsDig w d) →
      NoDig w nx → Expo w (e :: c :: ds) nx false (expVal (c :: ds))
  | signed {e sg c ds nx} : e = 0x65 ∨ e = 0x45 → sg = 0x2B ∨ sg = 0x2D → (∀ d ∈ ds, IsDig w d) →
      NoDig w nx → Expo w (e :: sg :: c :: ds) nx (sg == 0x2D) (expVal (c :: ds))
  | bare {e sg} : e = 0x65 ∨ e = 0x45 → sg = 0x2B ∨ sg = 0x2D →
      Expo w [e, sg] none (sg == 0x2D) (expVal [0])

/-- The part of a float after its integer part `i`. -/
inductive FloatTail (w : Nat) (fo : FloatOps F) (i : Nat) : List Nat → Option Nat → F → Prop where
  | frac {d ds nx} : (∀ c ∈ d :: ds, IsDig w c) → NoDig w nx → nx ≠ some 0x65 → nx ≠ some 0x45 →
      FloatTail w fo i (0x2E :: d :: ds) nx (fracVal fo i (d :: ds))
  | fracExp {d ds x nx neg e} : (∀ c ∈ d :: ds, IsDig w c) → Expo w x nx neg e →
      FloatTail w fo i (0x2E :: d :: ds ++ x) nx (fo.mul (fracVal fo i (d :: ds)) (scale fo neg e))
  | exp {x nx neg e} : Expo w x nx neg e →
      FloatTail w fo i x nx (fo.mul (fo.ofInt i) (scale fo neg e))

/-- A number without its sign. -/
inductive Num (F : Type) where
  | int (n : Nat)
  | flt (f : F)

/-- The value of a number with its sign. -/
def Num.value (fo : FloatOps F) (neg : Bool) : Num F → Value F
  | .int n => .int (if neg then -(n : Int) else n)
  | .flt f => .flt (if neg then fo.neg f else f)

/-- Not a continuation of a number as a float. -/
def NoFloat (nx : Option Nat) : Prop := nx ≠ some 0x2E ∧ nx ≠ some 0x65 ∧ nx ≠ some 0x45

/-- A first digit. Quirk: after a sign, without asserts, any character will do. -/
def FirstDig (D : Dialect F) (signed : Bool) (c : Nat) : Prop :=
  c ≠ 0x30 ∧ (IsDig D.w c ∨ (signed = true ∧ D.debug = false))

/-- A number after its sign. -/
inductive NumBody (D : Dialect F) (signed : Bool) : List Nat → Option Nat → Num F → Prop where
  | zero {nx} : NoFloat nx → NumBody D signed [0x30] nx (.int 0)
  | zeroFrac {u nx f} : FloatTail D.w D.fo 0 (0x2E :: u) nx f → NumBody D signed (0x30 :: 0x2E :: u) nx (.flt f)
  | int {c ds nx} : FirstDig D signed c → (∀ d ∈ ds, IsDig D.w d) → intVal (c :: ds) ≤ intMax →
      NoDig D.w nx → NoFloat nx → NumBody D signed (c :: ds) nx (.int (intVal (c :: ds)))
  | flt {c ds u nx f} : FirstDig D signed c → (∀ d ∈ ds, IsDig D.w d) → intVal (c :: ds) ≤ intMax →
      FloatTail D.w D.fo (intVal (c :: ds)) u nx f → NumBody D signed (c :: ds ++ u) nx (.flt f)
  | bareSign : signed = true → D.debug = false → NumBody D signed [] none (.int (intVal [0]))

/-- A number. -/
inductive Number (D : Dialect F) : List Nat → Option Nat → Value F → Prop where
  | plain {c t nx n} : 0x30 ≤ c → c ≤ 0x39 → NumBody D false (c :: t) nx n →
      Number D (c :: t) nx (n.value D.fo false)
  | signed {sg t nx n} : sg = 0x2B ∨ sg = 0x2D → NumBody D true t nx n →
      Number D (sg :: t) nx (n.value D.fo (sg == 0x2D))

/-! ## Strings -/

/-- What a one character escape stands for. -/
def simpleEscape (c : Nat) : Option Nat :=
  if c = 0x22 then some 0x22 else if c = 0x5C then some 0x5C else if c = 0x2F then some 0x2F
  else if c = 0x62 then some 0x08 else if c = 0x66 then some 0x0C else if c = 0x6E then some 0x0A
  else if c = 0x72 then some 0x0D else if c = 0x74 then some 0x09 else none

/-- The value of a hex digit. -/
def hexDigit (c : Nat) : Option Nat :=
  if 0x30 ≤ c ∧ c ≤ 0x39 then some (c - 0x30)
  else if 0x41 ≤ c ∧ c ≤ 0x46 then some (c - 0x37)
  else if 0x61 ≤ c ∧ c ≤ 0x66 then some (c - 0x57)
  else none

/-- Four hex digits. -/
inductive Hex4 : List Nat → Nat → Prop where
  | mk {a b c d x y z w} : hexDigit a = some x → hexDigit b = some y → hexDigit c = some z →
      hexDigit d = some w → Hex4 [a, b, c, d] (((x * 16 + y) * 16 + z) * 16 + w)

/-- The text of a string literal after its opening quote, with the closing one, and the code
points it denotes. A `\u` escape of a lead surrogate needs one of a trail surrogate behind it.
Quirk: a trail surrogate alone is accepted. -/
inductive StrChars : List Nat → List Nat → Prop where
  | close : StrChars [0x22] []
  | raw {c t cps} : 0x20 ≤ c → c ≠ 0x22 → c ≠ 0x5C → StrChars t cps → StrChars (c :: t) (c :: cps)
  | esc {c d t cps} : simpleEscape c = some d → StrChars t cps → StrChars (0x5C :: c :: t) (d :: cps)
  | uni {h u t cps} : Hex4 h u → ¬ (0xD800 ≤ u ∧ u ≤ 0xDBFF) → StrChars t cps →
      StrChars (0x5C :: 0x75 :: h ++ t) (u :: cps)
  | pair {h u h' u' t cps} : Hex4 h u → 0xD800 ≤ u ∧ u ≤ 0xDBFF → Hex4 h' u' →
      0xDC00 ≤ u' ∧ u' ≤ 0xDFFF → StrChars t cps →
      StrChars (0x5C :: 0x75 :: h ++ (0x5C :: 0x75 :: h' ++ t))
        ((0x10000 + (u - 0xD800) * 0x400 + (u' - 0xDC00)) :: cps)

/-- A string literal and the text stored for it. -/
def StrLit (D : Dialect F) (t s : List Nat) : Prop :=
  ∃ u cps, t = 0x22 :: u ∧ StrChars u cps ∧ D.store cps = some s

/-! ## Values -/

/-- A keyword. Quirk: the letters after the first are compared after conversion to the source
character type. -/
def Keyword (w : Nat) (k t : List Nat) : Prop :=
  t.head? = k.head? ∧ t.map (· % 2 ^ w) = k

/-- `true` -/
def kTrue : List Nat := [0x74, 0x72, 0x75, 0x65]
/-- `false` -/
def kFalse : List Nat := [0x66, 0x61, 0x6C, 0x73, 0x65]
/-- `null` -/
def kNull : List Nat := [0x6E, 0x75, 0x6C, 0x6C]

/-- `r` is the object with the members `ms` in which the first member of each key counts: its
keys increase strictly (by code units) and it maps every key to what `ms` first maps it to. -/
def FirstWins (ms r : List (List Nat × Value F)) : Prop :=
  r.Pairwise (fun a b => a.1 < b.1) ∧ ∀ k, r.lookup k = ms.lookup k

mutual
/-- A value, the code point behind it, and what it denotes. -/
inductive Val (D : Dialect F) : List Nat → Option Nat → Value F → Prop where
  | vtrue {t nx} : Keyword D.w kTrue t → Val D t nx (.bool true)
  | vfalse {t nx} : Keyword D.w kFalse t → Val D t nx (.bool false)
  | vnull {t nx} : Keyword D.w kNull t → Val D t nx .null
  | num {t nx v} : Number D t nx v → Val D t nx v
  | str {t nx s} : StrLit D t s → Val D t nx (.str s)
  | arr {t nx xs} : Elems D t xs → Val D (0x5B :: t) nx (.arr xs)
  | obj {t nx ms r} : Members D t ms → FirstWins ms r → Val D (0x7B :: t) nx (.obj r)

/-- The rest of an array: elements and `]`. Quirk: a trailing comma is accepted. -/
inductive Elems (D : Dialect F) : List Nat → List (Value F) → Prop where
  | close {g} : Gap g → Elems D (g ++ [0x5D]) []
  | last {g t v g'} : Gap g → Val D t (g' ++ [0x5D]).head? v → Gap g' →
      Elems D (g ++ t ++ g' ++ [0x5D]) [v]
  | more {g t v g' u xs} : Gap g → Val D t (g' ++ [0x2C]).head? v → Gap g' → Elems D u xs →
      Elems D (g ++ t ++ g' ++ 0x2C :: u) (v :: xs)

/-- The rest of an object: members in the order of the text and `}`. Quirks: a trailing comma
is accepted; a last key without `:` and value is ignored. -/
inductive Members (D : Dialect F) : List Nat → List (List Nat × Value F) → Prop where
  | close {g} : Gap g → Members D (g ++ [0x7D]) []
  | keyOnly {g k s g'} : Gap g → StrLit D k s → Gap g' → Members D (g ++ k ++ g' ++ [0x7D]) []
  | last {g k s g1 g2 t v g'} : Gap g → StrLit D k s → Gap g1 → Gap g2 →
      Val D t (g' ++ [0x7D]).head? v → Gap g' →
      Members D (g ++ k ++ g1 ++ 0x3A :: g2 ++ t ++ g' ++ [0x7D]) [(s, v)]
  | more {g k s g1 g2 t v g' u ms} : Gap g → StrLit D k s → Gap g1 → Gap g2 →
      Val D t (g' ++ [0x2C]).head? v → Gap g' → Members D u ms →
      Members D (g ++ k ++ g1 ++ 0x3A :: g2 ++ t ++ g' ++ 0x2C :: u) ((s, v) :: ms)
end

/-! ## Documents -/

/-- What may follow the value of a document, given what is left of the input: the end of the
input, possibly in a line comment, or a NUL, after which nothing is looked at. -/
inductive Finish : List Nat → List (Option Nat) → Prop where
  | eof {g} : Gap g → Finish g []
  | eofInLine {g t} : Gap g → Line t → Finish (g ++ 0x2F :: 0x2F :: t) []
  | nul {g more} : Gap g → Finish g (some 0 :: more)

/-- The inputs that are accepted, with the value they denote. `l` is what the decoder delivers:
code points and, as `none`, malformed characters. -/
def Document (D : Dialect F) (l : List (Option Nat)) (v : Value F) : Prop :=
  ∃ g t e more, l = (g ++ t ++ e).map some ++ more ∧ Gap g ∧
    Val D t ((e.map some ++ more).head?.join) v ∧ Finish e more

/-! ## Positions inside a document -/

/-- One character of a string literal and the code point it denotes. -/
inductive StrUnit : List Nat → Nat → Prop where
  | raw {c} : 0x20 ≤ c → c ≠ 0x22 → c ≠ 0x5C → StrUnit [c] c
  | esc {c d} : simpleEscape c = some d → StrUnit [0x5C, c] d
  | uni {h u} : Hex4 h u → ¬ (0xD800 ≤ u ∧ u ≤ 0xDBFF) → StrUnit (0x5C :: 0x75 :: h) u
  | pair {h u h' u'} : Hex4 h u → 0xD800 ≤ u ∧ u ≤ 0xDBFF → Hex4 h' u' → 0xDC00 ≤ u' ∧ u' ≤ 0xDFFF →
      StrUnit (0x5C :: 0x75 :: h ++ (0x5C :: 0x75 :: h')) (0x10000 + (u - 0xD800) * 0x400 + (u' - 0xDC00))

/-- The start of a string literal after its opening quote: complete characters. -/
inductive StrOpen : List Nat → Prop where
  | nil : StrOpen []
  | more {t cp p} : StrUnit t cp → StrOpen p → StrOpen (t ++ p)

/-- The input is not four hex digits. -/
def BadHex (k : List (Option Nat)) : Prop :=
  ∃ (h : List Nat) (r : List (Option Nat)), k = h.map some ++ r ∧ h.length < 4 ∧ (∀ c ∈ h, hexDigit c ≠ none) ∧
    ∀ c, r.head? = some (some c) → hexDigit c = none

/-- How the rest of a string literal can be wrong. `none` stands for a malformed character. -/
inductive BadStr : List (Option Nat) → Prop where
  | eof : BadStr []
  | malformed {r} : BadStr (none :: r)
  | control {c r} : c < 0x20 → BadStr (some c :: r)
  | escape {k} : (∀ c, k.head? = some (some c) → simpleEscape c = none ∧ c ≠ 0x75) → BadStr (some 0x5C :: k)
  | hex {k} : BadHex k → BadStr (some 0x5C :: some 0x75 :: k)
  | leadAlone {h u k} : Hex4 h u → 0xD800 ≤ u ∧ u ≤ 0xDBFF → k.head? ≠ some (some 0x5C) →
      BadStr ((0x5C :: 0x75 :: h).map some ++ k)
  | leadAlone' {h u k} : Hex4 h u → 0xD800 ≤ u ∧ u ≤ 0xDBFF → k.head? ≠ some (some 0x75) →
      BadStr ((0x5C :: 0x75 :: h ++ [0x5C]).map some ++ k)
  | trailHex {h u k} : Hex4 h u → 0xD800 ≤ u ∧ u ≤ 0xDBFF → BadHex k →
      BadStr ((0x5C :: 0x75 :: h ++ [0x5C, 0x75]).map some ++ k)
  | noTrail {h u h' u' k} : Hex4 h u → 0xD800 ≤ u ∧ u ≤ 0xDBFF → Hex4 h' u' → ¬ (0xDC00 ≤ u' ∧ u' ≤ 0xDFFF) →
      BadStr ((0x5C :: 0x75 :: h ++ (0x5C :: 0x75 :: h')).map some ++ k)

/-- The start of the rest of an array: complete elements, each with its comma. -/
inductive ElemsOpen (D : Dialect F) : List Nat → List (Value F) → Prop where
  | nil : ElemsOpen D [] []
  | more {g t v g' u xs} : Gap g → Val D t (g' ++ [0x2C]).head? v → Gap g' → ElemsOpen D u xs →
      ElemsOpen D (g ++ t ++ g' ++ 0x2C :: u) (v :: xs)

/-- The start of the rest of an object: complete members, each with its comma. -/
inductive MembersOpen (D : Dialect F) : List Nat → List (List Nat × Value F) → Prop where
  | nil : MembersOpen D [] []
  | more {g k s g1 g2 t v g' u ms} : Gap g → StrLit D k s → Gap g1 → Gap g2 →
      Val D t (g' ++ [0x2C]).head? v → Gap g' → MembersOpen D u ms →
      MembersOpen D (g ++ k ++ g1 ++ 0x3A :: g2 ++ t ++ g' ++ 0x2C :: u) ((s, v) :: ms)

/-- The start of a document up to a place where a value is due, at any depth. -/
inductive ValueDue (D : Dialect F) : List Nat → Prop where
  | here {g} : Gap g → ValueDue D g
  | arr {g q xs p} : Gap g → ElemsOpen D q xs → ValueDue D p → ValueDue D (g ++ 0x5B :: q ++ p)
  | obj {g q ms g' k s g1 p} : Gap g → MembersOpen D q ms → Gap g' → StrLit D k s → Gap g1 → ValueDue D p →
      ValueDue D (g ++ 0x7B :: q ++ g' ++ k ++ g1 ++ 0x3A :: p)

end Spec
