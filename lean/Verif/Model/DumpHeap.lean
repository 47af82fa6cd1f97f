import Verif.Model.Sink
/-!
# Dumping to a string when memory runs out

`json::dump(str, v, options)` writes through an `std::ostream` on a buffer that appends to the string. The functions of the serializer
that allocate, or call one that does, are repeated here. The values are not changed and allocate nothing; `put_string` reads the string
where it is (json.hpp:880-881).
-/
namespace Configor

/-- Which allocations of the call succeed. Each allocation is identified by what has been written before, and by what needs it. -/
structure DumpMemory where
  /-- The locale of the serializer's stream and the indentation set up by the constructor and the options, serializer.hpp:52-54,
  json.hpp:670, 722. -/
  start : Bool
  /-- The string grows by a block of characters, stream.hpp:229, 236; or what `operator<<` of a number needs, json.hpp:860, 868, 872. -/
  text : List Nat → List Nat → Bool
  /-- The indentation string grows to a length, serializer.hpp:312. -/
  indent : List Nat → Nat → Bool
  /-- The message of the exception, json.hpp:993-998. -/
  message : List Nat → Bool

/-- The buffer of the string, stream.hpp:211-242: a block is appended, or `std::bad_alloc` is thrown and the string is as before. The
exception ends in `put`, `write` and `operator<<` of the `ostream`, which set `badbit`. -/
def DumpMemory.sink (Y : DumpMemory) : Sink := fun out cs => if Y.text out cs then cs.length else 0

namespace Serializer
variable {F : Type} (A : DumpArgs F) (Y : DumpMemory)

/-- `reverse`, serializer.hpp:306-315. -/
def growIndent (n : Nat) : M Ser Unit := fun s =>
  if s.ind.ch ≠ 0 ∧ s.ind.str.length < n ∧ Y.indent s.os.out n = false then (.error (.exn .badAlloc), s)
  else (.ok (), { s with ind := s.ind.reserve n })

/-- `output_indent(1)`, json.hpp:981-985; see `outputIndent1`. -/
def outputIndent1Mem : M Ser Unit :=
  if A.pretty then do
    growIndent Y 1
    writeIndentTo Y.sink 1
  else pure ()

/-- `operator++`, serializer.hpp:274-278; see `Indent.inc`. -/
def incMem : M Ser Unit := do
  M.modify fun s => { s with ind := { s.ind with depth := (s.ind.depth + 1) % 65536 } }
  let s ← M.get
  growIndent Y (s.ind.depth * s.ind.step)

/-- Opening a container, json.hpp:809-815 and 824-830; see `opening`. -/
def openingMem (c : Nat) : M Ser Unit := do
  outputTo Y.sink [c]
  M.modify fun s => { s with began := true }
  incMem Y

/-- The third `switch` of `next`, json.hpp:784-853; see `nextOutput`. -/
def nextOutputMem : Token → M Ser Unit
  | .literalTrue => outputTo Y.sink [0x74, 0x72, 0x75, 0x65]
  | .literalFalse => outputTo Y.sink [0x66, 0x61, 0x6C, 0x73, 0x65]
  | .literalNull => outputTo Y.sink [0x6E, 0x75, 0x6C, 0x6C]
  | .beginArray => openingMem Y 0x5B
  | .endArray => closingTo A Y.sink 0x5D
  | .beginObject => openingMem Y 0x7B
  | .endObject => closingTo A Y.sink 0x7D
  | .nameSeparator => do outputTo Y.sink [0x3A]; outputIndent1Mem A Y
  | .valueSeparator => do outputTo Y.sink [0x2C]; newlineTo A Y.sink
  | _ => pure ()

/-- `next`, json.hpp:738-856; see `next`. -/
def nextMem (t : Token) : M Ser Unit := do
  nextBeganTo A Y.sink t
  nextIndentTo A Y.sink t
  nextOutputMem A Y t
  M.modify fun s => { s with last := t }

/-- `fail`, json.hpp:993-998: the exception with its message, or `std::bad_alloc`. -/
def failMem : M Ser Unit := fun s => (.error (.exn (if Y.message s.os.out then .serialization else .badAlloc)), s)

/-- The `default` case of `put_string`, json.hpp:928-959; see `putOther`. -/
def putOtherMem (cp : Nat) : M Ser Unit := do
  if cp ≤ 0x1F ∨ (A.uesc = true ∧ cp ≥ 0x7F) then
    if cp ≤ 0xFFFF then outputTo Y.sink (hexText 2 (cp % 65536))
    else do
      outputTo Y.sink (hexText 4 (encodeSurrogates cp).1)
      outputTo Y.sink (hexText 4 (encodeSurrogates cp).2)
  else M.modify fun s => { s with os := A.te.offer A.tw Y.sink s.os cp }
  if (← M.gets fun s => s.os.good) then pure () else failMem Y

/-- The `switch` of `put_string`, json.hpp:891-960; see `putCp`. -/
def putCpMem (cp : Nat) : M Ser Unit :=
  if cp = 0x09 then outputTo Y.sink [0x5C, 0x74]
  else if cp = 0x0D then outputTo Y.sink [0x5C, 0x72]
  else if cp = 0x0A then outputTo Y.sink [0x5C, 0x6E]
  else if cp = 0x08 then outputTo Y.sink [0x5C, 0x62]
  else if cp = 0x0C then outputTo Y.sink [0x5C, 0x66]
  else if cp = 0x22 then outputTo Y.sink [0x5C, 0x22]
  else if cp = 0x5C then outputTo Y.sink [0x5C, 0x5C]
  else putOtherMem A Y cp

/-- The loop of `put_string`, json.hpp:883-961; see `stringLoop`. -/
def stringLoopMem : Nat → IStream StrBuf → M Ser Unit
  | 0, _ => M.stop .fuel
  | n + 1, iss =>
    let r := A.se.decode A.sw (strSBuf A.sw) iss
    if r.1 then
      if r.2.2.good then do
        putCpMem A Y r.2.1
        stringLoopMem n r.2.2
      else failMem Y
    else pure ()

/-- `put_string`, json.hpp:876-963; see `putString`. -/
def putStringMem (s : List Nat) : M Ser Unit := do
  outputTo Y.sink [0x22]
  stringLoopMem A Y (s.length + 1) (.ofBuf (.ofString s))
  outputTo Y.sink [0x22]

mutual
/-- `do_dump`, serializer.hpp:97-197; see `doDump`. -/
def doDumpMem : Value F → M Ser Unit
  | .obj ms => do
    nextMem A Y .beginObject
    dumpMembersMem ms
    nextMem A Y .endObject
  | .arr xs => do
    nextMem A Y .beginArray
    dumpElemsMem xs
    nextMem A Y .endArray
  | .str s => do nextMem A Y .valueString; putStringMem A Y s
  | .bool b => nextMem A Y (if b then .literalTrue else .literalFalse)
  | .int i => do nextMem A Y .valueInteger; outputTo Y.sink (decText i)
  | .flt f => do nextMem A Y .valueFloat; putFloatTo A Y.sink f
  | .null => nextMem A Y .literalNull

/-- The loop over an array, serializer.hpp:143-152; see `dumpElems`. -/
def dumpElemsMem : List (Value F) → M Ser Unit
  | [] => pure ()
  | x :: xs => do
    doDumpMem x
    if xs.isEmpty then pure () else nextMem A Y .valueSeparator
    dumpElemsMem xs

/-- The loop over an object, serializer.hpp:112-127; see `dumpMembers`. -/
def dumpMembersMem : List (List Nat × Value F) → M Ser Unit
  | [] => pure ()
  | (k, v) :: ms => do
    nextMem A Y .valueString
    putStringMem A Y k
    nextMem A Y .nameSeparator
    doDumpMem v
    if ms.isEmpty then pure () else nextMem A Y .valueSeparator
    dumpMembersMem ms
end

/-- `basic_serializer::dump`, serializer.hpp:57-71; see `dump`. -/
def dumpMem (h : Option Handler) (v : Value F) : M Ser Unit := fun s =>
  match (do doDumpMem A Y v; nextMem A Y .endOfInput : M Ser Unit) s, h with
  | (.error (.exn e), s), some h => if h.swallows e then (.ok (), s) else (.error (.exn e), s)
  | r, _ => r

end Serializer

/-- `json::dump(str, v, options)`, serializer.hpp:235-242, with such a memory: how the call ends and the string afterwards. What is thrown
before `dump` does not go to the handler. -/
def jsonDumpMem {F : Type} (A : DumpArgs F) (Y : DumpMemory) (h : Option Handler) (str : List Nat) (v : Value F) : Except Stop Unit × List Nat :=
  if Y.start then
    let r := Serializer.dumpMem A Y h v (Serializer.init A [])
    (r.1, str ++ r.2.os.out)
  else (.error (.exn .badAlloc), str)

end Configor
