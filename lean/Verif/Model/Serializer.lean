import Verif.Model.Parser
/-!
# `basic_serializer`, `json_serializer`, `indent`
(include/configor/details/serializer.hpp, include/configor/json.hpp:652-1009)
-/
namespace Configor

/-- Digits of a number, most significant first; `n` bounds the recursion.
What `std::num_put` writes for an unsigned number. Used at json.hpp:84, 860, 868. -/
def digitsFuel (b : Nat) : Nat → Nat → List Nat → List Nat
  | 0, _, acc => acc
  | n + 1, i, acc => if i < b then i :: acc else digitsFuel b n (i / b) (i % b :: acc)

/-- The digits of `i` in base `b`. Used at json.hpp:84, 860, 868. -/
def digits (b i : Nat) : List Nat := digitsFuel b (i + 1) i []

/-- A digit as a character, upper case (`std::uppercase`, json.hpp:84). -/
def digitChar (d : Nat) : Nat := if d < 10 then 0x30 + d else 0x37 + d

/-- `os << i` for a signed integer in the classic locale, json.hpp:860. -/
def decText (i : Int) : List Nat :=
  (if i < 0 then [0x2D] else []) ++ (digits 10 i.natAbs).map digitChar

/-- `operator<<(os, json_hex)`, json.hpp:82-88; `size` is `sizeof` of the integer, used as
the minimal width. -/
def hexText (size i : Nat) : List Nat :=
  let ds := (digits 16 i).map digitChar
  [0x5C, 0x75] ++ List.replicate (size - ds.length) 0x30 ++ ds

/-- `indent`, serializer.hpp:258-322. `step` is a `uint8_t`, `depth` a `uint16_t`. -/
structure Indent where
  step : Nat
  depth : Nat
  ch : Nat
  str : List Nat
  deriving DecidableEq

namespace Indent

/-- `reverse`, serializer.hpp:306-315. -/
def reserve (i : Indent) (length : Nat) : Indent :=
  if i.ch ≠ 0 then
    if i.str.length < length then
      { i with str := i.str ++ List.replicate (length + i.step * 2 - i.str.length) i.ch }
    else i
  else i

/-- The constructor, serializer.hpp:265-272. -/
def make (step ch : Nat) : Indent := reserve ⟨step, 0, ch, []⟩ (step * 2)

/-- `operator++`, serializer.hpp:274-278. -/
def inc (i : Indent) : Indent :=
  let i := { i with depth := (i.depth + 1) % 65536 }
  i.reserve (i.depth * i.step)

/-- `operator--`, serializer.hpp:280-283. -/
def dec (i : Indent) : Indent := { i with depth := (i.depth + 65535) % 65536 }

/-- The `n` characters at `indent_string_.c_str()`: the string has a NUL behind its end,
reading further is undefined. serializer.hpp:287, 293. -/
def chars (i : Indent) (n : Nat) : Option (List Nat) :=
  if n ≤ i.str.length + 1 then some ((i.str ++ [0]).take n) else none

end Indent

/-- What is fixed in a call of `json::dump`: source encoding and width of the value's character
type, target encoding and width of the output character type, `unicode_escaping_`,
`pretty_print_`, indent step and character, and the floating type (with the output stream's
precision and float format in `fo.fmt`). serializer.hpp:200-203, json.hpp:1001-1005. -/
structure DumpArgs (F : Type) where
  se : Enc
  sw : Nat
  te : Enc
  tw : Nat
  uesc : Bool
  pretty : Bool
  step : Nat
  ch : Nat
  fo : FloatOps F

/-- The settings taken from an output stream with the given width and fill character,
json.hpp:716-726 (`uint8_t` conversion of the width). -/
def DumpArgs.ofStream {F : Type} (se : Enc) (sw : Nat) (te : Enc) (tw width fill : Nat) (fo : FloatOps F) : DumpArgs F :=
  ⟨se, sw, te, tw, false, decide (width > 0), width % 256, fill, fo⟩

/-- Options of `json_serializer`, json.hpp:666-714 (`with_precision` is part of `fo.fmt`, the
error handler an argument of `jsonDump`). -/
inductive DumpOption where
  | indent (step ch : Nat)
  | unicodeEscaping (on : Bool)
  | encoding (e : Enc)
  | sourceEncoding (e : Enc)
  | targetEncoding (e : Enc)

/-- Applying one option, json.hpp:666-714. -/
def DumpArgs.apply {F : Type} (A : DumpArgs F) : DumpOption → DumpArgs F
  | .indent step ch => { A with step := step % 256, ch := ch, pretty := decide (step % 256 > 0) }
  | .unicodeEscaping on => { A with uesc := on }
  | .encoding e => { A with se := e, te := e }
  | .sourceEncoding e => { A with se := e }
  | .targetEncoding e => { A with te := e }

/-- `prepare`, json.hpp:728-736. -/
def DumpArgs.prepare {F : Type} (A : DumpArgs F) (opts : List DumpOption) : DumpArgs F := opts.foldl DumpArgs.apply A

/-- Members of `json_serializer`, json.hpp:1000-1006, and its stream. -/
structure Ser where
  os : OStream
  began : Bool
  last : Token
  ind : Indent

namespace Serializer
variable {F : Type} (A : DumpArgs F)

/-- `output`, json.hpp:965-973. -/
def output (cs : List Nat) : M Ser Unit := M.modify fun s => { s with os := s.os.write cs }

/-- `output_newline`, json.hpp:987-991. -/
def newline : M Ser Unit := if A.pretty then output [0x0A] else pure ()

/-- `os.write(indent_string_.c_str(), n)`, serializer.hpp:285-288, 274. -/
def writeIndent (n : Nat) : M Ser Unit := fun s =>
  match s.ind.chars n with
  | none => (.error .ub, s)
  | some cs => (.ok (), { s with os := s.os.write cs })

/-- `output_indent()`, json.hpp:975-979, with `operator<<`, serializer.hpp:296-303. -/
def outputIndent : M Ser Unit :=
  if A.pretty then do
    let s ← M.get
    if s.ind.ch ≠ 0 ∧ s.ind.step > 0 ∧ s.ind.depth > 0 then writeIndent (s.ind.depth * s.ind.step) else pure ()
  else pure ()

/-- `output_indent(1)`, json.hpp:981-985, with `put`, serializer.hpp:290-294. -/
def outputIndent1 : M Ser Unit :=
  if A.pretty then do
    M.modify fun s => { s with ind := s.ind.reserve 1 }
    writeIndent 1
  else pure ()

/-- The tokens that start a value, json.hpp:749-756 and 769-776. -/
def startsValue : Token → Bool
  | .literalTrue | .literalFalse | .literalNull | .valueString | .valueInteger | .valueFloat
  | .beginArray | .beginObject => true
  | _ => false

/-- The first `switch` of `next`, json.hpp:740-763. -/
def nextBegan (t : Token) : M Ser Unit := do
  if (← M.gets Ser.began) then
    M.modify fun s => { s with began := false }
    if startsValue t then newline A else pure ()
  else pure ()

/-- The second `switch` of `next`, json.hpp:765-782. -/
def nextIndent (t : Token) : M Ser Unit := do
  if A.pretty ∧ (← M.gets Ser.last) ≠ .nameSeparator ∧ startsValue t then outputIndent A else pure ()

/-- Opening a container, json.hpp:809-815 and 824-830. -/
def opening (c : Nat) : M Ser Unit := do
  output [c]
  M.modify fun s => { s with began := true, ind := s.ind.inc }

/-- Closing a container, json.hpp:816-823 and 831-838. -/
def closing (c : Nat) : M Ser Unit := do
  M.modify fun s => { s with ind := s.ind.dec }
  newline A
  outputIndent A
  output [c]

/-- The third `switch` of `next`, json.hpp:784-853. -/
def nextOutput : Token → M Ser Unit
  | .literalTrue => output [0x74, 0x72, 0x75, 0x65]
  | .literalFalse => output [0x66, 0x61, 0x6C, 0x73, 0x65]
  | .literalNull => output [0x6E, 0x75, 0x6C, 0x6C]
  | .beginArray => opening 0x5B
  | .endArray => closing A 0x5D
  | .beginObject => opening 0x7B
  | .endObject => closing A 0x7D
  | .nameSeparator => do output [0x3A]; outputIndent1 A
  | .valueSeparator => do output [0x2C]; newline A
  | _ => pure ()

/-- `next`, json.hpp:738-856. -/
def next (t : Token) : M Ser Unit := do
  nextBegan A t
  nextIndent A t
  nextOutput A t
  M.modify fun s => { s with last := t }

/-- `put_integer`, json.hpp:858-861. -/
def putInteger (i : Int) : M Ser Unit := output (decText i)

/-- `put_float`, json.hpp:863-874. -/
def putFloat (f : F) : M Ser Unit :=
  if A.fo.isIntegral f then
    match A.fo.toI64 f with
    | none => M.stop .ub
    | some i => do output (decText i); output [0x2E, 0x30]
  else output (A.fo.fmt f)

/-- The `default` case of `put_string`, json.hpp:928-959. -/
def putOther (cp : Nat) : M Ser Unit := do
  if cp ≤ 0x1F ∨ (A.uesc = true ∧ cp ≥ 0x7F) then
    if cp ≤ 0xFFFF then output (hexText 2 (cp % 65536))
    else do
      output (hexText 4 (encodeSurrogates cp).1)
      output (hexText 4 (encodeSurrogates cp).2)
  else M.modify fun s => { s with os := A.te.encode A.tw s.os cp }
  if (← M.gets fun s => s.os.good) then pure () else M.throw .serialization

/-- The `switch` of `put_string`, json.hpp:891-960. -/
def putCp (cp : Nat) : M Ser Unit :=
  if cp = 0x09 then output [0x5C, 0x74]
  else if cp = 0x0D then output [0x5C, 0x72]
  else if cp = 0x0A then output [0x5C, 0x6E]
  else if cp = 0x08 then output [0x5C, 0x62]
  else if cp = 0x0C then output [0x5C, 0x66]
  else if cp = 0x22 then output [0x5C, 0x22]
  else if cp = 0x5C then output [0x5C, 0x5C]
  else putOther A cp

/-- The loop of `put_string`, json.hpp:883-961; the first argument bounds it. -/
def stringLoop : Nat → IStream StrBuf → M Ser Unit
  | 0, _ => M.stop .fuel
  | n + 1, iss =>
    let r := A.se.decode A.sw (strSBuf A.sw) iss
    if r.1 then
      if r.2.2.good then do
        putCp A r.2.1
        stringLoop n r.2.2
      else M.throw .serialization
    else pure ()

/-- `put_string`, json.hpp:876-963. -/
def putString (s : List Nat) : M Ser Unit := do
  output [0x22]
  stringLoop A (s.length + 1) (.ofBuf (.ofString s))
  output [0x22]

mutual
/-- `do_dump`, serializer.hpp:97-197. -/
def doDump : Value F → M Ser Unit
  | .obj ms => do
    next A .beginObject
    dumpMembers ms
    next A .endObject
  | .arr xs => do
    next A .beginArray
    dumpElems xs
    next A .endArray
  | .str s => do next A .valueString; putString A s
  | .bool b => next A (if b then .literalTrue else .literalFalse)
  | .int i => do next A .valueInteger; putInteger i
  | .flt f => do next A .valueFloat; putFloat A f
  | .null => next A .literalNull

/-- The loop over an array, serializer.hpp:143-152. -/
def dumpElems : List (Value F) → M Ser Unit
  | [] => pure ()
  | x :: xs => do
    doDump x
    if xs.isEmpty then pure () else next A .valueSeparator
    dumpElems xs

/-- The loop over an object, serializer.hpp:112-127. -/
def dumpMembers : List (List Nat × Value F) → M Ser Unit
  | [] => pure ()
  | (k, v) :: ms => do
    next A .valueString
    putString A k
    next A .nameSeparator
    doDump v
    if ms.isEmpty then pure () else next A .valueSeparator
    dumpMembers ms
end

/-- A new serializer that writes behind `out`, json.hpp:716-726. -/
def init (out : List Nat) : Ser := ⟨.ofString out, false, .uninitialized, .make A.step A.ch⟩

/-- `basic_serializer::dump`, serializer.hpp:57-71. -/
def dump (h : Option Handler) (v : Value F) : M Ser Unit := fun s =>
  match (do doDump A v; next A .endOfInput : M Ser Unit) s, h with
  | (.error (.exn e), s), some h => if h.swallows e then (.ok (), s) else (.error (.exn e), s)
  | r, _ => r

end Serializer

/-- `json::dump(str, v, options)`, serializer.hpp:235-242: how the call ends and the string
afterwards. -/
def jsonDump {F : Type} (A : DumpArgs F) (h : Option Handler) (str : List Nat) (v : Value F) : Except Stop Unit × List Nat :=
  let r := Serializer.dump A h v (Serializer.init A str)
  (r.1, r.2.os.out)

/-- `json::dump(os, v, options)`, serializer.hpp:223-232, to a stream whose buffer rejects every
character (a full disk, a closed pipe): how the call ends and what was written. The serializer
writes through an `ostream` of its own on that buffer (serializer.hpp:48), which has `badbit` from
the first rejected character on and then ignores output; nothing is tested before. The flags of
`os` do not change. -/
def dumpRejected {F : Type} (A : DumpArgs F) (h : Option Handler) (v : Value F) : Except Stop Unit × List Nat :=
  let r := Serializer.dump A h v { Serializer.init A [] with os := ⟨[], true⟩ }
  (r.1, r.2.os.out)

end Configor
