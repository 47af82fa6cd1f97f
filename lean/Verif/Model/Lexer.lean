import Verif.Model.Encoding
import Verif.Model.Float
/-!
# `json_parser`: the token scanner (include/configor/json.hpp:96-651)
-/
namespace Configor

/-- `token_type`, token.hpp:26-48. -/
inductive Token where
  | uninitialized
  | literalTrue | literalFalse | literalNull
  | valueString | valueInteger | valueFloat
  | beginArray | endArray | beginObject | endObject
  | nameSeparator | valueSeparator
  | endOfInput
  deriving DecidableEq, Repr

/-- A source of code points: the pair of a stream `is_` and a `source_decoder_`
(parser.hpp:219-222). `decode` returns the decoder's flag, code point and new stream. -/
structure Src (S : Type) where
  decode : S → Bool × Nat × S
  eof : S → Bool
  good : S → Bool

/-- A stream with one of the library's decoders. parser.hpp:219-222, json.hpp:249-251. -/
def istreamSrc {σ : Type} (e : Enc) (w : Nat) (B : SBuf σ) : Src (IStream σ) where
  decode := e.decode w B
  eof := IStream.eofb
  good := IStream.good

/-- What is fixed during a parse. `w` is the width of `source_char_type`, `debug` says
whether `CONFIGOR_ASSERT` is active, `bound` is the model's bound on loop iterations.
json.hpp:80-150, parser.hpp:219-222. -/
structure Cfg (S F : Type) where
  src : Src S
  enc : Encoder
  w : Nat
  debug : Bool
  bound : Nat
  fo : FloatOps F

/-- Members of `json_parser` (json.hpp:646-650), the stream, and the string that
`get_string` currently writes to (json.hpp:348-349). -/
structure Lex (S F : Type) where
  is : S
  cur : Nat
  neg : Bool
  numI : Int
  numF : F
  out : OStream

namespace Lexer
variable {S F : Type} (C : Cfg S F)

/-- Computations of the scanner. Members of `json_parser`, json.hpp:157-643. -/
abbrev L (S F α : Type) := M (Lex S F) α

/-- `fail`, json.hpp:632-643 (message not modelled). -/
def fail {α : Type} : L S F α := M.throw .deserialization

/-- The current code point. json.hpp:647. -/
def cur : L S F Nat := M.gets Lex.cur

/-- `is_.eof()`. Used at json.hpp:183, 291, 312, 353. -/
def eof : L S F Bool := M.gets fun s => C.src.eof s.is

/-- `read_next`, json.hpp:247-261. -/
def readNext : L S F Nat := fun s =>
  let r := C.src.decode s.is
  if r.1 then
    let s' := { s with is := r.2.2, cur := r.2.1 }
    if C.src.good r.2.2 then (.ok r.2.1, s') else (.error (.exn .deserialization), s')
  else (.ok 0, { s with is := r.2.2, cur := 0 })

/-- The characters skipped by json.hpp:265. -/
def isSpace (c : Nat) : Bool := c == 0x20 || c == 0x09 || c == 0x0A || c == 0x0D

/-- The `while` of `skip_spaces`, json.hpp:265-266. -/
def skipBlanks : Nat → L S F Unit
  | 0 => M.stop .fuel
  | n + 1 => do
    if isSpace (← cur) then
      let _ ← readNext C
      skipBlanks n
    else pure ()

/-- The line comment loop, json.hpp:281-296. Returns whether it ended at a line end
(and `skip_spaces` is called again) or at the end of input. -/
def lineComment : Nat → L S F Bool
  | 0 => M.stop .fuel
  | n + 1 => do
    let c ← readNext C
    if c == 0x0A || c == 0x0D then pure true
    else if (← eof C) then pure false
    else lineComment n

/-- The block comment loop, json.hpp:300-316. -/
def blockComment : Nat → L S F Unit
  | 0 => M.stop .fuel
  | n + 1 => do
    let c ← readNext C
    if c == 0x2A then
      let d ← readNext C
      if d == 0x2F then
        let _ ← readNext C
        pure ()
      else if (← eof C) then fail
      else blockComment n
    else if (← eof C) then fail
    else blockComment n

/-- `skip_spaces` and `skip_comments`, json.hpp:263-323. They call each other in tail
position; the model makes that one loop. -/
def skipSpaces : Nat → L S F Unit
  | 0 => M.stop .fuel
  | n + 1 => do
    skipBlanks C C.bound
    if (← cur) == 0x2F then
      let c ← readNext C
      if c == 0x2F then
        if (← lineComment C C.bound) then skipSpaces n else pure ()
      else if c == 0x2A then
        blockComment C C.bound
        skipSpaces n
      else fail
    else pure ()

/-- `scan_literal`, json.hpp:325-342. The comparison is in `source_char_type`. -/
def scanLiteral : List Nat → Token → L S F Token
  | [], t => pure t
  | ch :: text, t => do
    if ch != toChar C.w (← cur) then fail
    else
      let _ ← readNext C
      scanLiteral text t

/-- `is_digit`, json.hpp:627-630; the argument is converted to `source_char_type`. -/
def isDigit (c : Nat) : Bool := 0x30 ≤ toChar C.w c && toChar C.w c ≤ 0x39

/-- `CONFIGOR_ASSERT`. exception.hpp:25-27, used at json.hpp:346, 512, 538, 567. -/
def assert (b : Bool) : L S F Unit :=
  if C.debug && !b then M.stop .abort else pure ()

/-- `current_ - '0'` in `uint32_t`. Used at json.hpp:544, 555, 586, 589. -/
def digitVal (c : Nat) : Nat := u32sub c 0x30

/-- One hex digit of `read_escaped_codepoint`, json.hpp:606-622. -/
def hexVal (c : Nat) : Option Nat :=
  if 0x30 ≤ c ∧ c ≤ 0x39 then some (c - 0x30)
  else if 0x41 ≤ c ∧ c ≤ 0x46 then some (c - 0x41 + 10)
  else if 0x61 ≤ c ∧ c ≤ 0x66 then some (c - 0x61 + 10)
  else none

/-- `read_escaped_codepoint`, json.hpp:601-625: the loop over the factors. -/
def readEscapedLoop : List Nat → Nat → L S F Nat
  | [], code => pure code
  | factor :: fs, code => do
    let ch ← readNext C
    match hexVal ch with
    | some d => readEscapedLoop fs (u32 (code + u32 (d <<< factor)))
    | none => fail

/-- `read_escaped_codepoint`, json.hpp:601-625. -/
def readEscaped : L S F Nat := readEscapedLoop C [12, 8, 4, 0] 0

/-- `target_encoder_(oss, cp)` and the check of `oss`, json.hpp:454-458, 472-476. -/
def putCp (cp : Nat) : L S F Unit := do
  M.modify fun s => { s with out := C.enc s.out cp }
  if (← M.gets fun s => s.out.good) then pure () else fail

/-- `oss << ch` for an ASCII character. json.hpp:409-430. -/
def putAscii (c : Nat) : L S F Unit :=
  M.modify fun s => { s with out := s.out.put c }

/-- The `'u'` case of an escape, json.hpp:432-460. -/
def scanUnicodeEscape : L S F Unit := do
  let cp ← readEscaped C
  if isLead cp then
    let a ← readNext C
    if a != 0x5C then fail
    else
      let b ← readNext C
      if b != 0x75 then fail
      else
        let tr ← readEscaped C
        if !isTrail tr then fail
        else putCp C (decodeSurrogates cp tr)
  else putCp C cp

/-- The escape after a backslash, json.hpp:403-468. -/
def scanEscape : L S F Unit := do
  let c ← readNext C
  if c == 0x22 then putAscii 0x22
  else if c == 0x5C then putAscii 0x5C
  else if c == 0x2F then putAscii 0x2F
  else if c == 0x62 then putAscii 0x08
  else if c == 0x66 then putAscii 0x0C
  else if c == 0x6E then putAscii 0x0A
  else if c == 0x72 then putAscii 0x0D
  else if c == 0x74 then putAscii 0x09
  else if c == 0x75 then scanUnicodeEscape C
  else fail

/-- The loop of `scan_string`, json.hpp:350-479. -/
def stringLoop : Nat → L S F Unit
  | 0 => M.stop .fuel
  | n + 1 => do
    let c ← readNext C
    if (← eof C) then fail
    else if c == 0x22 then
      let _ ← readNext C
      pure ()
    else if c ≤ 0x1F then fail
    else if c == 0x5C then
      scanEscape C
      stringLoop n
    else
      putCp C c
      stringLoop n

/-- `scan_string`, json.hpp:344-480, writing to a fresh string. -/
def scanString : L S F Unit := do
  M.modify fun s => { s with out := .ofString [] }
  assert C ((← cur) == 0x22)
  stringLoop C C.bound

/-- `number_float_ = ...`. json.hpp:533-597. -/
def setF (f : F → F) : L S F Unit := M.modify fun s => { s with numF := f s.numF }

/-- Power by squaring, json.hpp:592-595. The loop runs at most 32 times because
`exponent` has 32 bits. -/
def powLoop : Nat → Nat → F → F → F
  | 0, _, _, power => power
  | n + 1, e, base, power =>
    if e = 0 then power
    else powLoop n (e / 2) (C.fo.mul base base) (if e % 2 = 1 then C.fo.mul power base else power)

/-- The digits of an exponent, json.hpp:586-590. -/
def exponentDigits : Nat → Nat → L S F Nat
  | 0, _ => M.stop .fuel
  | n + 1, e => do
    let c ← readNext C
    if isDigit C c then exponentDigits n (u32 (u32 (e * 10) + digitVal c))
    else pure e

/-- The digits of the exponent and the multiplication, json.hpp:583-598. -/
def exponentValue (negative : Bool) : L S F Token := do
  let e ← exponentDigits C C.bound (digitVal (← cur))
  setF fun f => C.fo.mul f
    (powLoop C 32 e (if negative then C.fo.tenth else C.fo.ofInt 10) (C.fo.ofInt 1))
  pure .valueFloat

/-- `scan_exponent`, json.hpp:563-599. -/
def scanExponent : L S F Token := do
  let c0 ← cur
  assert C (c0 == 0x65 || c0 == 0x45)
  let c ← readNext C
  if !((isDigit C c && c != 0x30) || c == 0x2D || c == 0x2B) then fail
  else if c == 0x2B || c == 0x2D then
    let _ ← readNext C
    exponentValue C (c == 0x2D)
  else exponentValue C false

/-- The fraction digits after the first one, json.hpp:545-560. -/
def fractionLoop : Nat → F → L S F Token
  | 0, _ => M.stop .fuel
  | n + 1, fraction => do
    let c ← readNext C
    if c == 0x65 || c == 0x45 then scanExponent C
    else if isDigit C c then
      let fraction' := C.fo.mul fraction C.fo.tenth
      setF fun f => C.fo.add f (C.fo.mul (C.fo.ofInt (digitVal c)) fraction')
      fractionLoop n fraction'
    else pure .valueFloat

/-- `scan_float`, json.hpp:529-561. -/
def scanFloat : L S F Token := do
  M.modify fun s => { s with numF := C.fo.ofInt s.numI }
  let c0 ← cur
  if c0 == 0x65 || c0 == 0x45 then scanExponent C
  else
    assert C (c0 == 0x2E)
    let c ← readNext C
    if !isDigit C c then fail
    else
      setF fun f => C.fo.add f (C.fo.mul (C.fo.ofInt (digitVal c)) C.fo.tenth)
      fractionLoop C C.bound C.fo.tenth

/-- Largest `int64_t`. `integer_type` is `int64_t`, configor.hpp:39. -/
def i64max : Int := 9223372036854775807

/-- The loop of `scan_integer`, json.hpp:515-525. `number_integer_ * 10 + digit` is
computed in `int64_t`; leaving its range is undefined behaviour. -/
def integerLoop : Nat → L S F Token
  | 0 => M.stop .fuel
  | n + 1 => do
    let c ← readNext C
    if c == 0x2E || c == 0x65 || c == 0x45 then scanFloat C
    else if isDigit C c then
      let v := (← M.gets Lex.numI) * 10 + (digitVal c : Int)
      if v > i64max then M.stop .ub
      else
        M.modify fun s => { s with numI := v }
        integerLoop n
    else pure .valueInteger

/-- `scan_integer`, json.hpp:508-527. -/
def scanInteger : L S F Token := do
  let c ← cur
  assert C (isDigit C c)
  M.modify fun s => { s with numI := (digitVal c : Int) }
  integerLoop C C.bound

/-- `scan_number` after the sign, json.hpp:491-505. -/
def numberBody : L S F Token := do
  if (← cur) == 0x30 then
    let d ← readNext C
    if d == 0x2E then scanFloat C
    else if d == 0x65 || d == 0x45 then fail
    else pure .valueInteger
  else scanInteger C

/-- `scan_number`, json.hpp:482-506. -/
def scanNumber : L S F Token := do
  M.modify fun s => { s with neg := false, numI := 0 }
  let c ← cur
  if c == 0x2D || c == 0x2B then
    M.modify fun s => { s with neg := c == 0x2D }
    let _ ← readNext C
    numberBody C
  else numberBody C

/-- A structural token: skip the character and return it, json.hpp:186-206, 242-244. -/
def single (t : Token) : L S F Token := do
  let _ ← readNext C
  pure t

/-- `scan`, json.hpp:179-245. -/
def scan : L S F Token := do
  skipSpaces C C.bound
  if (← eof C) then pure .endOfInput
  else
    let c ← cur
    if c == 0x5B then single C .beginArray
    else if c == 0x5D then single C .endArray
    else if c == 0x7B then single C .beginObject
    else if c == 0x7D then single C .endObject
    else if c == 0x3A then single C .nameSeparator
    else if c == 0x2C then single C .valueSeparator
    else if c == 0x74 then scanLiteral C [0x74, 0x72, 0x75, 0x65] .literalTrue
    else if c == 0x66 then scanLiteral C [0x66, 0x61, 0x6C, 0x73, 0x65] .literalFalse
    else if c == 0x6E then scanLiteral C [0x6E, 0x75, 0x6C, 0x6C] .literalNull
    else if c == 0x22 then pure .valueString
    else if c == 0x2D || c == 0x2B || (0x30 ≤ c && c ≤ 0x39) then scanNumber C
    else if c == 0 then pure .endOfInput
    else fail

end Lexer
end Configor
