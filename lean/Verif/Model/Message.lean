import Verif.Model.Api
import Verif.Model.Serializer
import Verif.Model.Preproc
/-!
# The messages of parse errors

The functions here follow `Model/Lexer` and `Model/Parser` and say in addition which message an exception carries. A message is the
list of the bytes of a `std::string`.
-/
namespace Configor

/-- A computation that stops with a reason and, if it is an exception, the message of that exception. Model infrastructure for the
calls that throw, e.g. json.hpp:632-643. -/
def MM (σ α : Type) : Type := σ → Except (Stop × List Nat) α × σ

namespace MM
variable {σ α β : Type}

/-- Return a value. Model infrastructure (`return`), see json.hpp:179-643. -/
def pure (a : α) : MM σ α := fun s => (.ok a, s)

/-- Sequence two computations. Model infrastructure (`;`), see json.hpp:179-643. -/
def bind (m : MM σ α) (f : α → MM σ β) : MM σ β := fun s =>
  match m s with
  | (.ok a, s') => f a s'
  | (.error e, s') => (.error e, s')

instance : Monad (MM σ) where
  pure := pure
  bind := bind

/-- Stop without an exception. See exception.hpp:25-27. -/
def stop (e : Stop) : MM σ α := fun s => (.error (e, []), s)

/-- Read a part of the state. Model infrastructure: a member of the object, e.g. json.hpp:646-650. -/
def gets (f : σ → α) : MM σ α := fun s => (.ok (f s), s)

/-- Change the state. Model infrastructure: an assignment to members, e.g. json.hpp:646-650. -/
def modify (f : σ → σ) : MM σ Unit := fun s => (.ok (), f s)

theorem bind_def (m : MM σ α) (f : α → MM σ β) (s : σ) :
    (m >>= f) s = match m s with
      | (.ok a, s') => f a s'
      | (.error e, s') => (.error e, s') := rfl

end MM

/-- `to_string(token_type)`, token.hpp:50-84. -/
def Token.text : Token → List Nat
  | .uninitialized => text! "uninitialized"
  | .literalTrue => text! "literal_true"
  | .literalFalse => text! "literal_false"
  | .literalNull => text! "literal_null"
  | .valueString => text! "value_string"
  | .valueInteger => text! "value_integer"
  | .valueFloat => text! "value_float"
  | .beginArray => text! "begin_array"
  | .endArray => text! "end_array"
  | .beginObject => text! "begin_object"
  | .endObject => text! "end_object"
  | .nameSeparator => text! "name_separator"
  | .valueSeparator => text! "value_separator"
  | .endOfInput => text! "end_of_input"

/-- The message of a `configor_deserialization_error(message)`, exception.hpp:77-84. -/
def deserializationText (message : List Nat) : List Nat := text! "value deserialization error: " ++ message

namespace Msg
open Lexer
variable {S F : Type} (C : Cfg S F)

/-- Computations of the scanner that say why they fail. Members of `json_parser`, json.hpp:157-643. -/
abbrev L (S F α : Type) := MM (Lex S F) α

/-- `fail(msg)`, json.hpp:632-635. -/
def fail {α : Type} (msg : List Nat) : L S F α := fun s => (.error (.exn .deserialization, deserializationText msg), s)

/-- `fail(msg, code)`, json.hpp:637-643. The code is a `uint32_t`. -/
def failCode {α : Type} (msg : List Nat) (code : Nat) : L S F α :=
  fail (msg ++ text! " '" ++ hexText 4 code ++ text! "'")

/-- The current code point. json.hpp:647. -/
def cur : L S F Nat := MM.gets Lex.cur

/-- `is_.eof()`. Used at json.hpp:183, 291, 312, 353. -/
def eof : L S F Bool := MM.gets fun s => C.src.eof s.is

/-- `read_next`, json.hpp:247-261. -/
def readNext : L S F Nat := fun s =>
  let r := C.src.decode s.is
  if r.1 then
    let s' := { s with is := r.2.2, cur := r.2.1 }
    if C.src.good r.2.2 then (.ok r.2.1, s') else failCode (text! "decoding failed with codepoint") r.2.1 s'
  else (.ok 0, { s with is := r.2.2, cur := 0 })

/-- The `while` of `skip_spaces`, json.hpp:265-266. -/
def skipBlanks : Nat → L S F Unit
  | 0 => MM.stop .fuel
  | n + 1 => do
    if isSpace (← cur) then
      let _ ← readNext C
      skipBlanks n
    else pure ()

/-- The line comment loop, json.hpp:281-296; see `Lexer.lineComment`. -/
def lineComment : Nat → L S F Bool
  | 0 => MM.stop .fuel
  | n + 1 => do
    let c ← readNext C
    if c == 0x0A || c == 0x0D then pure true
    else if (← eof C) then pure false
    else lineComment n

/-- The block comment loop, json.hpp:300-316. -/
def blockComment : Nat → L S F Unit
  | 0 => MM.stop .fuel
  | n + 1 => do
    let c ← readNext C
    if c == 0x2A then
      let d ← readNext C
      if d == 0x2F then
        let _ ← readNext C
        pure ()
      else if (← eof C) then fail (text! "unexpected eof while reading comment")
      else blockComment n
    else if (← eof C) then fail (text! "unexpected eof while reading comment")
    else blockComment n

/-- `skip_spaces` and `skip_comments`, json.hpp:263-323; see `Lexer.skipSpaces`. -/
def skipSpaces : Nat → L S F Unit
  | 0 => MM.stop .fuel
  | n + 1 => do
    skipBlanks C C.bound
    if (← cur) == 0x2F then
      let c ← readNext C
      if c == 0x2F then
        if (← lineComment C C.bound) then skipSpaces n else pure ()
      else if c == 0x2A then
        blockComment C C.bound
        skipSpaces n
      else fail (text! "unexpected character '/'")
    else pure ()

/-- The message of `scan_literal`, json.hpp:331-336: the current code point is converted to `char`. -/
def literalText (c : Nat) (text : List Nat) : List Nat :=
  text! "unexpected character '" ++ [c % 256] ++ text! "' (expected literal '" ++ text ++ text! "')"

/-- The loop of `scan_literal`, json.hpp:327-340; `text` is the whole literal. -/
def literalLoop (text : List Nat) : List Nat → Token → L S F Token
  | [], t => pure t
  | ch :: rest, t => do
    let c ← cur
    if ch != toChar C.w c then fail (literalText c text)
    else
      let _ ← readNext C
      literalLoop text rest t

/-- `scan_literal`, json.hpp:325-342. -/
def scanLiteral (text : List Nat) (t : Token) : L S F Token := literalLoop C text text t

/-- `CONFIGOR_ASSERT`. exception.hpp:25-27, used at json.hpp:346, 512, 538, 567. -/
def assert (b : Bool) : L S F Unit :=
  if C.debug && !b then MM.stop .abort else pure ()

/-- `read_escaped_codepoint`, json.hpp:601-625: the loop over the factors. -/
def readEscapedLoop : List Nat → Nat → L S F Nat
  | [], code => pure code
  | factor :: fs, code => do
    let ch ← readNext C
    match hexVal ch with
    | some d => readEscapedLoop fs (u32 (code + u32 (d <<< factor)))
    | none => failCode (text! "'\\u' must be followed by 4 hex digits, but got") ch

/-- `read_escaped_codepoint`, json.hpp:601-625. -/
def readEscaped : L S F Nat := readEscapedLoop C [12, 8, 4, 0] 0

/-- `target_encoder_(oss, cp)` and the check of `oss`, json.hpp:454-458, 472-476. -/
def putCp (cp : Nat) : L S F Unit := do
  MM.modify fun s => { s with out := C.enc s.out cp }
  if (← MM.gets fun s => s.out.good) then pure () else failCode (text! "encoding failed with codepoint") cp

/-- `oss << ch` for an ASCII character. json.hpp:409-430. -/
def putAscii (c : Nat) : L S F Unit :=
  MM.modify fun s => { s with out := s.out.put c }

/-- The message at json.hpp:439. -/
def leadText : List Nat := text! "lead surrogate must be followed by trail surrogate, but got"

/-- The message at json.hpp:447. -/
def trailText : List Nat := text! "surrogate U+D800...U+DBFF must be followed by U+DC00...U+DFFF, but got"

/-- The `'u'` case of an escape, json.hpp:432-460. -/
def scanUnicodeEscape : L S F Unit := do
  let cp ← readEscaped C
  if isLead cp then
    let a ← readNext C
    if a != 0x5C then failCode leadText a
    else
      let b ← readNext C
      if b != 0x75 then failCode leadText b
      else
        let tr ← readEscaped C
        if !isTrail tr then failCode trailText tr
        else putCp C (decodeSurrogates cp tr)
  else putCp C cp

/-- The escape after a backslash, json.hpp:403-468. -/
def scanEscape : L S F Unit := do
  let c ← readNext C
  if c == 0x22 then putAscii 0x22
  else if c == 0x5C then putAscii 0x5C
  else if c == 0x2F then putAscii 0x2F
  else if c == 0x62 then putAscii 0x08
  else if c == 0x66 then putAscii 0x0C
  else if c == 0x6E then putAscii 0x0A
  else if c == 0x72 then putAscii 0x0D
  else if c == 0x74 then putAscii 0x09
  else if c == 0x75 then scanUnicodeEscape C
  else failCode (text! "invalid escaped character") c

/-- The loop of `scan_string`, json.hpp:350-479. -/
def stringLoop : Nat → L S F Unit
  | 0 => MM.stop .fuel
  | n + 1 => do
    let c ← readNext C
    if (← eof C) then fail (text! "unexpected end of string")
    else if c == 0x22 then
      let _ ← readNext C
      pure ()
    else if c ≤ 0x1F then failCode (text! "invalid control character") c
    else if c == 0x5C then
      scanEscape C
      stringLoop n
    else
      putCp C c
      stringLoop n

/-- `scan_string`, json.hpp:344-480, writing to a fresh string. -/
def scanString : L S F Unit := do
  MM.modify fun s => { s with out := .ofString [] }
  assert C ((← cur) == 0x22)
  stringLoop C C.bound

/-- `number_float_ = ...`. json.hpp:533-597. -/
def setF (f : F → F) : L S F Unit := MM.modify fun s => { s with numF := f s.numF }

/-- The digits of an exponent, json.hpp:586-590. -/
def exponentDigits : Nat → Nat → L S F Nat
  | 0, _ => MM.stop .fuel
  | n + 1, e => do
    let c ← readNext C
    if isDigit C c then exponentDigits n (u32 (u32 (e * 10) + digitVal c))
    else pure e

/-- The digits of the exponent and the multiplication, json.hpp:583-598. -/
def exponentValue (negative : Bool) : L S F Token := do
  let e ← exponentDigits C C.bound (digitVal (← cur))
  setF fun f => C.fo.mul f
    (powLoop C 32 e (if negative then C.fo.tenth else C.fo.ofInt 10) (C.fo.ofInt 1))
  pure .valueFloat

/-- `scan_exponent`, json.hpp:563-599. -/
def scanExponent : L S F Token := do
  let c0 ← cur
  assert C (c0 == 0x65 || c0 == 0x45)
  let c ← readNext C
  if !((isDigit C c && c != 0x30) || c == 0x2D || c == 0x2B) then failCode (text! "invalid exponent number, got") c
  else if c == 0x2B || c == 0x2D then
    let _ ← readNext C
    exponentValue C (c == 0x2D)
  else exponentValue C false

/-- The fraction digits after the first one, json.hpp:545-560. -/
def fractionLoop : Nat → F → L S F Token
  | 0, _ => MM.stop .fuel
  | n + 1, fraction => do
    let c ← readNext C
    if c == 0x65 || c == 0x45 then scanExponent C
    else if isDigit C c then
      let fraction' := C.fo.mul fraction C.fo.tenth
      setF fun f => C.fo.add f (C.fo.mul (C.fo.ofInt (digitVal c)) fraction')
      fractionLoop n fraction'
    else pure .valueFloat

/-- `scan_float`, json.hpp:529-561. -/
def scanFloat : L S F Token := do
  MM.modify fun s => { s with numF := C.fo.ofInt s.numI }
  let c0 ← cur
  if c0 == 0x65 || c0 == 0x45 then scanExponent C
  else
    assert C (c0 == 0x2E)
    let c ← readNext C
    if !isDigit C c then failCode (text! "invalid float number, got") c
    else
      setF fun f => C.fo.add f (C.fo.mul (C.fo.ofInt (digitVal c)) C.fo.tenth)
      fractionLoop C C.bound C.fo.tenth

/-- The loop of `scan_integer`, json.hpp:515-525; see `Lexer.integerLoop`. -/
def integerLoop : Nat → L S F Token
  | 0 => MM.stop .fuel
  | n + 1 => do
    let c ← readNext C
    if c == 0x2E || c == 0x65 || c == 0x45 then scanFloat C
    else if isDigit C c then
      let v := (← MM.gets Lex.numI) * 10 + (digitVal c : Int)
      if v > i64max then MM.stop .ub
      else
        MM.modify fun s => { s with numI := v }
        integerLoop n
    else pure .valueInteger

/-- `scan_integer`, json.hpp:508-527. -/
def scanInteger : L S F Token := do
  let c ← cur
  assert C (isDigit C c)
  MM.modify fun s => { s with numI := (digitVal c : Int) }
  integerLoop C C.bound

/-- `scan_number` after the sign, json.hpp:491-505. -/
def numberBody : L S F Token := do
  if (← cur) == 0x30 then
    let d ← readNext C
    if d == 0x2E then scanFloat C
    else if d == 0x65 || d == 0x45 then fail (text! "invalid exponent")
    else pure .valueInteger
  else scanInteger C

/-- `scan_number`, json.hpp:482-506. -/
def scanNumber : L S F Token := do
  MM.modify fun s => { s with neg := false, numI := 0 }
  let c ← cur
  if c == 0x2D || c == 0x2B then
    MM.modify fun s => { s with neg := c == 0x2D }
    let _ ← readNext C
    numberBody C
  else numberBody C

/-- A structural token: skip the character and return it, json.hpp:186-206, 242-244. -/
def single (t : Token) : L S F Token := do
  let _ ← readNext C
  pure t

/-- `scan`, json.hpp:179-245. -/
def scan : L S F Token := do
  skipSpaces C C.bound
  if (← eof C) then pure .endOfInput
  else
    let c ← cur
    if c == 0x5B then single C .beginArray
    else if c == 0x5D then single C .endArray
    else if c == 0x7B then single C .beginObject
    else if c == 0x7D then single C .endObject
    else if c == 0x3A then single C .nameSeparator
    else if c == 0x2C then single C .valueSeparator
    else if c == 0x74 then scanLiteral C [0x74, 0x72, 0x75, 0x65] .literalTrue
    else if c == 0x66 then scanLiteral C [0x66, 0x61, 0x6C, 0x73, 0x65] .literalFalse
    else if c == 0x6E then scanLiteral C [0x6E, 0x75, 0x6C, 0x6C] .literalNull
    else if c == 0x22 then pure .valueString
    else if c == 0x2D || c == 0x2B || (0x30 ≤ c && c ≤ 0x39) then scanNumber C
    else if c == 0 then pure .endOfInput
    else failCode (text! "unexpected character") c

/-- Result of `do_parse(c, ...)`: how it ended, with the message, the scanner state, and the content of `c`.
parser.hpp:96-204. -/
abbrev PRes (S F : Type) := Except (Stop × List Nat) Unit × Lex S F × Value F

/-- `fail(actual_token, msg)`, parser.hpp:206-211. -/
def failToken (t : Token) (msg : List Nat) : Stop × List Nat :=
  (.exn .deserialization, deserializationText (msg ++ text! " '" ++ t.text ++ text! "'"))

/-- `fail(actual_token)`, parser.hpp:206-211 with the default message. -/
def unexpected (t : Token) : Stop × List Nat := failToken t (text! "unexpected token")

/-- `fail(actual_token, expected_token)`, parser.hpp:213-216. -/
def unexpectedFor (t expected : Token) : Stop × List Nat :=
  failToken t (text! "unexpected token" ++ text! ", expect '" ++ expected.text ++ text! "', but got")

mutual
/-- `do_parse`, parser.hpp:96-204; see `doParse`. -/
def doParse : Nat → Value F → Option Token → Lex S F → PRes S F
  | 0, c, _, s => (.error (.fuel, []), s, c)
  | n + 1, c, tok, s =>
    match (match tok with | some t => (Except.ok t, s) | none => scan C s) with
    | (.error e, s) => (.error e, s, c)
    | (.ok t, s) =>
      match t with
      | .literalTrue => (.ok (), s, .bool true)
      | .literalFalse => (.ok (), s, .bool false)
      | .literalNull => (.ok (), s, .null)
      | .valueString => let r := scanString C s; (r.1, r.2, .str r.2.out.out)
      | .valueInteger => (.ok (), s, .int (getInteger s))
      | .valueFloat => (.ok (), s, .flt (getFloat C s))
      | .beginArray => parseArray n [] s
      | .beginObject => parseObject n [] s
      | t => (.error (unexpected t), s, c)

/-- The array loop, parser.hpp:135-170; see `parseArray`. -/
def parseArray : Nat → List (Value F) → Lex S F → PRes S F
  | 0, xs, s => (.error (.fuel, []), s, .arr xs)
  | n + 1, xs, s =>
    match scan C s with
    | (.error e, s) => (.error e, s, .arr xs)
    | (.ok t, s) =>
      if t.startsValue then
        match doParse n .null (some t) s with
        | (.error e, s, v) => (.error e, s, .arr (xs ++ [v]))
        | (.ok _, s, v) =>
          match scan C s with
          | (.error e, s) => (.error e, s, .arr (xs ++ [v]))
          | (.ok t, s) =>
            if t = .valueSeparator then parseArray n (xs ++ [v]) s
            else if t = .endArray then (.ok (), s, .arr (xs ++ [v]))
            else (.error (unexpectedFor t .endArray), s, .arr (xs ++ [v]))
      else if t = .endArray then (.ok (), s, .arr xs)
      else (.error (unexpectedFor t .endArray), s, .arr xs)

/-- The object loop, parser.hpp:172-198; see `parseObject`. -/
def parseObject : Nat → Map.T (Value F) → Lex S F → PRes S F
  | 0, ms, s => (.error (.fuel, []), s, .obj ms)
  | n + 1, ms, s =>
    match scan C s with
    | (.error e, s) => (.error e, s, .obj ms)
    | (.ok t, s) =>
      if t = .valueString then
        match scanString C s with
        | (.error e, s) => (.error e, s, .obj ms)
        | (.ok _, s) =>
          let key := s.out.out
          match scan C s with
          | (.error e, s) => (.error e, s, .obj ms)
          | (.ok t, s) =>
            if t = .nameSeparator then
              match doParse n .null none s with
              | (.error e, s, _) => (.error e, s, .obj ms)
              | (.ok _, s, v) =>
                let ms := Map.emplace key v ms
                match scan C s with
                | (.error e, s) => (.error e, s, .obj ms)
                | (.ok t, s) =>
                  if t = .valueSeparator then parseObject n ms s
                  else if t = .endObject then (.ok (), s, .obj ms)
                  else (.error (unexpectedFor t .endObject), s, .obj ms)
            else if t = .endObject then (.ok (), s, .obj ms)
            else (.error (unexpectedFor t .endObject), s, .obj ms)
      else if t = .endObject then (.ok (), s, .obj ms)
      else (.error (unexpectedFor t .endObject), s, .obj ms)
end

/-- The body of the `try` in `basic_parser::parse`, parser.hpp:59-61. The token passed to `fail` behind the value is always
`end_of_input`. -/
def parseBody (n : Nat) (c : Value F) (s : Lex S F) : PRes S F :=
  match doParse C n c none s with
  | (.error e, s, v) => (.error e, s, v)
  | (.ok _, s, v) =>
    match scan C s with
    | (.error e, s) => (.error e, s, v)
    | (.ok t, s) =>
      if t = .endOfInput then (.ok (), s, v) else (.error (unexpected .endOfInput), s, v)

/-- `json_parser::parse`, json.hpp:157-162, without an error handler. -/
def parse (n : Nat) (c : Value F) (s : Lex S F) : PRes S F :=
  match readNext C s with
  | (.error e, s) => (.error e, s, c)
  | (.ok _, s) => parseBody C n c s

end Msg

/-- `what()` of an exception with this message, as a string: a `const char*` ends at the first `'\0'`. exception.hpp:37-50, 150. -/
def whatOf (message : List Nat) : List Nat := message.takeWhile (· ≠ 0)

/-- `parse(c, str)`, parser.hpp:262-270, without an error handler: how it ends, and `what()` of the exception if it throws. -/
def jsonParseSays {F : Type} (A : ParseArgs F) (c : Value F) (str : List Nat) : Except (Stop × List Nat) Unit × Value F :=
  let n := 2 * str.length + 4
  let r := Msg.parse (A.cfg (strSBuf A.sw) n) n c (Lex.init (.ofBuf (.ofString str)) (A.fo.ofInt 0))
  (match r.1 with | .error (e, m) => .error (e, whatOf m) | .ok u => .ok u, r.2.2)

/-- `parse(c, str, { with_error_handler(&h) })`, parser.hpp:55-70, with an `error_handler_with<error_policy::record>` `h`,
exception.hpp:130-154, whose `error` was `error`: how the call ends, the content of `c`, and `h.error` afterwards. The exception
of the first `read_next` is thrown outside the `try` (json.hpp:157-162). -/
def jsonParseRecord {F : Type} (A : ParseArgs F) (error : List Nat) (c : Value F) (str : List Nat) :
    Outcome F × List Nat :=
  let n := 2 * str.length + 4
  let C := A.cfg (strSBuf A.sw) n
  match Msg.readNext C (Lex.init (.ofBuf (.ofString str)) (A.fo.ofInt 0)) with
  | (.error e, _) => ((.error e.1, c), error)
  | (.ok _, s) =>
    match Msg.parseBody C n c s with
    | (.error (.exn _, m), _, v) => ((.ok (), v), whatOf m)
    | (.error (e, _), _, v) => ((.error e, v), error)
    | (.ok _, _, v) => ((.ok (), v), error)

end Configor
