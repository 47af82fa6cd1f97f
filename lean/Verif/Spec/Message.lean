import Verif.Spec.Leftover
import Verif.Model.Preproc
import Verif.Model.Encoding
/-!
# What the message of a parse error says

The input `l` is what the decoder delivers: code points and, as `none`, a malformed character. `text! "…"` is the list of the
characters of a literal.
-/
set_option autoImplicit false
namespace Spec

variable {F : Type}

/-- Where a parse can be: what it looks for next. -/
inductive Place where
  /-- the value of the document -/
  | start
  /-- an element of an array -/
  | elem
  /-- the comma behind an element -/
  | elemEnd
  /-- the key of a member of an object -/
  | key
  /-- the colon behind a key -/
  | colon
  /-- the value of a member -/
  | member
  /-- the comma behind a member -/
  | memberEnd
  /-- the end of the document, behind its value -/
  | done
  deriving DecidableEq

/-- A place where a value is looked for. -/
def Place.wantsValue (p : Place) : Prop := p = .start ∨ p = .elem ∨ p = .member

/-- Reading `l` leads to the place `p`; `k` is still to be read there. -/
inductive Reached (D : Dialect F) (l : List (Option Nat)) : Place → List (Option Nat) → Prop where
  | start : Reached D l .start l
  | arr {p k k'} : Reached D l p k → p.wantsValue → Next 0x5B k k' → Reached D l .elem k'
  | elem {k k' v} : Reached D l .elem k → Complete D k v k' → Reached D l .elemEnd k'
  | elemComma {k k'} : Reached D l .elemEnd k → Next 0x2C k k' → Reached D l .elem k'
  | obj {p k k'} : Reached D l p k → p.wantsValue → Next 0x7B k k' → Reached D l .key k'
  | key {k k' s} : Reached D l .key k → Key D k s k' → Reached D l .colon k'
  | colon {k k'} : Reached D l .colon k → Next 0x3A k k' → Reached D l .member k'
  | member {k k' v} : Reached D l .member k → Complete D k v k' → Reached D l .memberEnd k'
  | memberComma {k k'} : Reached D l .memberEnd k → Next 0x2C k k' → Reached D l .key k'
  | done {k k' v} : Reached D l .start k → Complete D k v k' → Reached D l .done k'

/-- The punctuation characters and their names. -/
def punctuation : List (Nat × List Nat) :=
  [(0x5B, text! "begin_array"), (0x5D, text! "end_array"), (0x7B, text! "begin_object"), (0x7D, text! "end_object"),
    (0x3A, text! "name_separator"), (0x2C, text! "value_separator")]

/-- The keywords and their names. -/
def keywords : List (List Nat × List Nat) :=
  [(kTrue, text! "literal_true"), (kFalse, text! "literal_false"), (kNull, text! "literal_null")]

/-- After a gap there is a token called `name`. -/
inductive Found (D : Dialect F) (k : List (Option Nat)) : List Nat → Prop where
  | punct {ch name k'} : (ch, name) ∈ punctuation → Next ch k k' → Found D k name
  | keyword {g t name w k'} : (w, name) ∈ keywords → Gap g → k = (g ++ t).map some ++ k' → Readable k' → Keyword D.w w t →
      Found D k name
  | string {g k'} : Gap g → k = (g ++ [0x22]).map some ++ k' → Found D k (text! "value_string")
  | integer {g t i k'} : Gap g → k = (g ++ t).map some ++ k' → Readable k' → Number D t k'.head?.join (.int i) →
      Found D k (text! "value_integer")
  | float {g t f k'} : Gap g → k = (g ++ t).map some ++ k' → Readable k' → Number D t k'.head?.join (.flt f) →
      Found D k (text! "value_float")
  | ending {t k'} : k = t.map some ++ k' → Finish t k' → Found D k (text! "end_of_input")

/-- The names of the tokens values begin with. -/
def valueNames : List (List Nat) :=
  [text! "literal_true", text! "literal_false", text! "literal_null", text! "value_string", text! "value_integer",
    text! "value_float", text! "begin_array", text! "begin_object"]

/-- The names of the tokens that fit at a place. -/
def Place.fitting : Place → List (List Nat)
  | .start => valueNames
  | .elem => text! "end_array" :: valueNames
  | .elemEnd => [text! "value_separator", text! "end_array"]
  | .key => [text! "value_string", text! "end_object"]
  | .colon => [text! "name_separator", text! "end_object"]
  | .member => valueNames
  | .memberEnd => [text! "value_separator", text! "end_object"]
  | .done => [text! "end_of_input"]

/-- What is said about a token that does not fit at a place, before its name. -/
def Place.complaint : Place → List Nat
  | .start | .member | .done => text! "unexpected token"
  | .elem | .elemEnd => text! "unexpected token, expect 'end_array', but got"
  | .key | .colon | .memberEnd => text! "unexpected token, expect 'end_object', but got"

/-- Upper case hex digits, most significant first, denote a number. -/
inductive UpperHex : List Nat → Nat → Prop where
  | nil : UpperHex [] 0
  | digit {ds v c} : UpperHex ds v → 0x30 ≤ c ∧ c ≤ 0x39 → UpperHex (ds ++ [c]) (v * 16 + (c - 0x30))
  | letter {ds v c} : UpperHex ds v → 0x41 ≤ c ∧ c ≤ 0x46 → UpperHex (ds ++ [c]) (v * 16 + (c - 0x37))

/-- `x` shows the code point `c` as `\u` with hex digits: at least four, and no leading zero if there are more. -/
def ShowsCode (x : List Nat) (c : Nat) : Prop :=
  ∃ ds, x = text! "\\u" ++ ds ∧ UpperHex ds c ∧ 4 ≤ ds.length ∧ (4 < ds.length → ds.head? ≠ some 0x30)

/-- A message about the code point `c`. -/
def Shown (msg : List Nat) (c : Nat) (m : List Nat) : Prop := ∃ x, ShowsCode x c ∧ m = msg ++ text! " '" ++ x ++ text! "'"

/-- The code point in front; 0 at the end of the input. -/
def first (k : List (Option Nat)) : Nat := k.head?.join.getD 0

/-- A character no token and no gap begins with. -/
def BeginsNothing (c : Nat) : Prop :=
  c ∉ text! " \t\n\r/[]{}:,tfn\"-+" ∧ ¬ (0x30 ≤ c ∧ c ≤ 0x39) ∧ c ≠ 0

/-- An optional sign. -/
def Sign (t : List Nat) : Prop := t = [] ∨ t = [0x2B] ∨ t = [0x2D]

/-- The sign and the integer part of a number. -/
def IntText (D : Dialect F) (t : List Nat) : Prop :=
  ∃ sg, Sign sg ∧ (t = sg ++ [0x30] ∨
    ∃ c ds, FirstDig D (!sg.isEmpty) c ∧ (∀ d ∈ ds, IsDig D.w d) ∧ t = sg ++ c :: ds)

/-- A fraction, or none. -/
def Fraction (D : Dialect F) (t : List Nat) : Prop :=
  t = [] ∨ ∃ d ds, (∀ c ∈ d :: ds, IsDig D.w c) ∧ t = 0x2E :: d :: ds

/-- What is wrong at a character of a string literal, and the message about it. -/
inductive StrWrong : List (Option Nat) → List Nat → Prop where
  /-- the literal is not closed -/
  | eof : StrWrong [] (text! "unexpected end of string")
  /-- a control character -/
  | control {c r m} : c < 0x20 → Shown (text! "invalid control character") c m → StrWrong (some c :: r) m
  /-- a wrong character behind a backslash -/
  | escape {k m} : Readable k → (∀ c, k.head? = some (some c) → simpleEscape c = none ∧ c ≠ 0x75) →
      Shown (text! "invalid escaped character") (first k) m → StrWrong (some 0x5C :: k) m
  /-- fewer than four hex digits -/
  | hex {h k m} : h.length < 4 → (∀ c ∈ h, hexDigit c ≠ none) → Readable k →
      (∀ c, k.head? = some (some c) → hexDigit c = none) →
      Shown (text! "'\\u' must be followed by 4 hex digits, but got") (first k) m →
      StrWrong ((0x5C :: 0x75 :: h).map some ++ k) m
  /-- a lead surrogate that is not followed by an escape -/
  | lead {h u k m} : Hex4 h u → 0xD800 ≤ u ∧ u ≤ 0xDBFF → Readable k → k.head? ≠ some (some 0x5C) →
      Shown (text! "lead surrogate must be followed by trail surrogate, but got") (first k) m →
      StrWrong ((0x5C :: 0x75 :: h).map some ++ k) m
  /-- a lead surrogate that is followed by another escape -/
  | lead' {h u k m} : Hex4 h u → 0xD800 ≤ u ∧ u ≤ 0xDBFF → Readable k → k.head? ≠ some (some 0x75) →
      Shown (text! "lead surrogate must be followed by trail surrogate, but got") (first k) m →
      StrWrong ((0x5C :: 0x75 :: h ++ [0x5C]).map some ++ k) m
  /-- fewer than four hex digits behind a lead surrogate -/
  | leadHex {h u h' k m} : Hex4 h u → 0xD800 ≤ u ∧ u ≤ 0xDBFF → h'.length < 4 → (∀ c ∈ h', hexDigit c ≠ none) → Readable k →
      (∀ c, k.head? = some (some c) → hexDigit c = none) →
      Shown (text! "'\\u' must be followed by 4 hex digits, but got") (first k) m →
      StrWrong ((0x5C :: 0x75 :: h ++ 0x5C :: 0x75 :: h').map some ++ k) m
  /-- a lead surrogate that is followed by something that is no trail surrogate; that is what is shown -/
  | trail {h u h' u' k m} : Hex4 h u → 0xD800 ≤ u ∧ u ≤ 0xDBFF → Hex4 h' u' → ¬ (0xDC00 ≤ u' ∧ u' ≤ 0xDFFF) →
      Shown (text! "surrogate U+D800...U+DBFF must be followed by U+DC00...U+DFFF, but got") u' m →
      StrWrong ((0x5C :: 0x75 :: h ++ 0x5C :: 0x75 :: h').map some ++ k) m

/-- What is wrong in the gap or the token at the front of `k`, and the message about it. `strings` says whether a string literal
is read if there is one. -/
inductive TokenWrong (D : Dialect F) (strings : Prop) (k : List (Option Nat)) : List Nat → Prop where
  /-- a character no token begins with -/
  | character {g c r m} : Gap g → k = (g ++ [c]).map some ++ r → BeginsNothing c → Shown (text! "unexpected character") c m →
      TokenWrong D strings k m
  /-- a slash that begins no comment -/
  | slash {g r} : Gap g → k = (g ++ [0x2F]).map some ++ r → Readable r → first r ≠ 0x2F → first r ≠ 0x2A →
      TokenWrong D strings k (text! "unexpected character '/'")
  /-- a comment that is not closed -/
  | comment {g t} : Gap g → k = (g ++ 0x2F :: 0x2A :: t).map some → (∀ b r, t = b ++ r → ¬ BlockBody b) →
      TokenWrong D strings k (text! "unexpected eof while reading comment")
  /-- a keyword that goes wrong behind its first letters `t`; the wrong character is shown as one byte -/
  | keyword {g t w name r} : Gap g → (w, name) ∈ keywords → k = (g ++ t).map some ++ r → Readable r → t ≠ [] →
      t.map (· % 2 ^ D.w) = w.take t.length → t.length < w.length → w[t.length]? ≠ some (first r % 2 ^ D.w) →
      TokenWrong D strings k
        (text! "unexpected character '" ++ [first r % 256] ++ text! "' (expected literal '" ++ w ++ text! "')")
  /-- `0` with an exponent -/
  | zeroExponent {g sg c r} : Gap g → Sign sg → k = (g ++ sg ++ [0x30]).map some ++ some c :: r → c = 0x65 ∨ c = 0x45 →
      TokenWrong D strings k (text! "invalid exponent")
  /-- a point without a digit -/
  | fraction {g n r m} : Gap g → IntText D n → k = (g ++ n ++ [0x2E]).map some ++ r → Readable r → NoDig D.w r.head?.join →
      Shown (text! "invalid float number, got") (first r) m → TokenWrong D strings k m
  /-- an exponent that begins neither with a digit other than `0` nor with a sign -/
  | exponent {g n f e r m} : Gap g → IntText D n → Fraction D f → e = 0x65 ∨ e = 0x45 →
      k = (g ++ n ++ f ++ [e]).map some ++ r → Readable r →
      (∀ c, r.head? = some (some c) → (IsDig D.w c → c = 0x30) ∧ c ≠ 0x2B ∧ c ≠ 0x2D) →
      Shown (text! "invalid exponent number, got") (first r) m → TokenWrong D strings k m
  /-- a string literal that goes wrong behind complete characters that can be stored -/
  | string {g p cps r m} : strings → Gap g → k = (g ++ 0x22 :: p).map some ++ r → StrPart p cps → D.store cps ≠ none →
      StrWrong r m → TokenWrong D strings k m
  /-- a character of a string literal that cannot be stored -/
  | store {g p cps t cp r m} : strings → Gap g → k = (g ++ 0x22 :: p ++ t).map some ++ r → StrPart p cps → D.store cps ≠ none →
      StrUnit t cp → D.store (cps ++ [cp]) = none → Shown (text! "encoding failed with codepoint") cp m → TokenWrong D strings k m

/-- The message `m` says what is wrong in the input `l` at the place where it cannot be read further. -/
inductive Says (D : Dialect F) (l : List (Option Nat)) : List Nat → Prop where
  /-- a malformed character; the code shown is what the decoder made of it -/
  | malformed {m c} : none ∈ l → Shown (text! "decoding failed with codepoint") c m → Says D l m
  /-- something that is not a token -/
  | token {p k m} : Reached D l p k → TokenWrong D (p.wantsValue ∨ p = .key) k m → Says D l m
  /-- a token that does not fit -/
  | place {p k name} : Reached D l p k → Found D k name → name ∉ p.fitting →
      Says D l (p.complaint ++ text! " '" ++ name ++ text! "'")

/-- The input goes on behind its value: the message names the end of the input, and not what is there instead. -/
def Trailing (D : Dialect F) (l : List (Option Nat)) (m : List Nat) : Prop :=
  m = text! "unexpected token 'end_of_input'" ∧
    ∃ k name, Reached D l .done k ∧ Found D k name ∧ name ≠ text! "end_of_input"

/-- A string as a `const char*` delivers it: up to the first NUL. -/
def cString (s : List Nat) : List Nat := s.takeWhile (· ≠ 0)

/-! ## The code that is shown for a malformed character -/

/-- How many more bytes a first byte of UTF-8 announces. -/
def announced (b : Nat) : Nat :=
  if b < 0xC0 then 0 else if b < 0xE0 then 1 else if b < 0xF0 then 2 else if b < 0xF8 then 3 else if b < 0xFC then 4 else 5

/-- The mark in a first byte of UTF-8 that announces `n` more bytes. -/
def leadMark (n : Nat) : Nat := [0, 0xC0, 0xE0, 0xF0, 0xF8, 0xFC].getD n 0

/-- The first `n` bytes of a string, with FF in place of those that are missing. -/
def bytesOf : Nat → List Nat → List Nat
  | 0, _ => []
  | n + 1, u => u.headD 0xFF % 0x100 :: bytesOf n u.tail

/-- Digits of six bits put together. -/
def sixBits (bs : List Nat) : Nat := bs.foldl (fun a b => a * 64 + b) 0

/-- What the decoder makes of the malformed character at the beginning of `u`. In UTF-16 and UTF-32 it is the unit. In UTF-8 the
announced bytes are put together as if all of them were there (FF for the others) and had the right marks, in 32 bits. -/
def malformedCode : Configor.Enc → List Nat → Nat
  | .ignore, _ => 0
  | .utf8, u =>
    let n := announced (u.headD 0xFF % 0x100)
    (sixBits (bytesOf (n + 1) u) + 0x100000000 - sixBits (leadMark n :: List.replicate n 0x80) % 0x100000000) % 0x100000000
  | .utf16, u => u.headD 0 % 0x10000
  | .utf32, u => u.headD 0 % 0x100000000

end Spec
