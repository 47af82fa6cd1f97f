import Verif.Model.Serializer
/-!
# Dumping to a stream buffer of the user

`json::dump(os, v)` writes through an `std::ostream` of the serializer on the buffer of `os`. The
functions of the serializer are repeated here with that buffer, which may refuse characters.
-/
namespace Configor

/-- What a stream buffer does with output: how many characters of a block (`xsputn`, or `overflow` for one character) it
takes, depending on all it has taken before. Taking less than the block, or throwing an exception after so many, makes the
`ostream` bad. Models the user's buffers behind serializer.hpp:46-55 and the buffer of an adapter, stream.hpp:78-104. -/
abbrev Sink := List Nat → List Nat → Nat

/-- `put`, `write` and `operator<<` on such a buffer, see `OStream.write`; used at json.hpp:858-991. -/
def OStream.offer (K : Sink) (o : OStream) (cs : List Nat) : OStream :=
  if o.failb then o
  else if cs.length ≤ K o.out cs then ⟨o.out ++ cs, false⟩
  else ⟨o.out ++ cs.take (K o.out cs), true⟩

/-- `target_encoder_(os, cp)` on such a buffer: the characters of the code point are put one after the other, and
failbit is set if it has none. encoding.hpp:90-93, 111-148, 222-239, 282-289. -/
def Enc.offer (e : Enc) (w : Nat) (K : Sink) (o : OStream) (cp : Nat) : OStream :=
  let r := e.encode w (.ofString []) cp
  let o' := r.out.foldl (fun o c => o.offer K [c]) o
  if r.failb then o'.setFail else o'

/-- How many leading characters of a block the default block `write` of an output adapter hands over, stream.hpp:49-56:
one `write(ch)` per character, until one throws. `thr` tells which calls throw, by the characters written before. -/
def adapterTakes (thr : List Nat → Nat → Bool) : List Nat → List Nat → Nat
  | _, [] => 0
  | got, c :: cs => if thr got c then 0 else adapterTakes thr (got ++ [c]) cs + 1

/-- The buffer of `basic_oadapterstream`, stream.hpp:78-104: `overflow` and `xsputn` call the adapter and report that all was
written, so output is only refused by an exception of the adapter. -/
def adapterSink (thr : List Nat → Nat → Bool) : Sink := adapterTakes thr

namespace Serializer
variable {F : Type} (A : DumpArgs F) (K : Sink)

/-- `output`, json.hpp:965-973; see `output`. -/
def outputTo (cs : List Nat) : M Ser Unit := M.modify fun s => { s with os := s.os.offer K cs }

/-- `output_newline`, json.hpp:987-991; see `newline`. -/
def newlineTo : M Ser Unit := if A.pretty then outputTo K [0x0A] else pure ()

/-- `os.write(indent_string_.c_str(), n)`, serializer.hpp:285-288, 274; see `writeIndent`. -/
def writeIndentTo (n : Nat) : M Ser Unit := fun s =>
  match s.ind.chars n with
  | none => (.error .ub, s)
  | some cs => (.ok (), { s with os := s.os.offer K cs })

/-- `output_indent()`, json.hpp:975-979; see `outputIndent`. -/
def outputIndentTo : M Ser Unit :=
  if A.pretty then do
    let s ← M.get
    if s.ind.ch ≠ 0 ∧ s.ind.step > 0 ∧ s.ind.depth > 0 then writeIndentTo K (s.ind.depth * s.ind.step) else pure ()
  else pure ()

/-- `output_indent(1)`, json.hpp:981-985; see `outputIndent1`. -/
def outputIndent1To : M Ser Unit :=
  if A.pretty then do
    M.modify fun s => { s with ind := s.ind.reserve 1 }
    writeIndentTo K 1
  else pure ()

/-- The first `switch` of `next`, json.hpp:740-763; see `nextBegan`. -/
def nextBeganTo (t : Token) : M Ser Unit := do
  if (← M.gets Ser.began) then
    M.modify fun s => { s with began := false }
    if startsValue t then newlineTo A K else pure ()
  else pure ()

/-- The second `switch` of `next`, json.hpp:765-782; see `nextIndent`. -/
def nextIndentTo (t : Token) : M Ser Unit := do
  if A.pretty ∧ (← M.gets Ser.last) ≠ .nameSeparator ∧ startsValue t then outputIndentTo A K else pure ()

/-- Opening a container, json.hpp:809-815 and 824-830; see `opening`. -/
def openingTo (c : Nat) : M Ser Unit := do
  outputTo K [c]
  M.modify fun s => { s with began := true, ind := s.ind.inc }

/-- Closing a container, json.hpp:816-823 and 831-838; see `closing`. -/
def closingTo (c : Nat) : M Ser Unit := do
  M.modify fun s => { s with ind := s.ind.dec }
  newlineTo A K
  outputIndentTo A K
  outputTo K [c]

/-- The third `switch` of `next`, json.hpp:784-853; see `nextOutput`. -/
def nextOutputTo : Token → M Ser Unit
  | .literalTrue => outputTo K [0x74, 0x72, 0x75, 0x65]
  | .literalFalse => outputTo K [0x66, 0x61, 0x6C, 0x73, 0x65]
  | .literalNull => outputTo K [0x6E, 0x75, 0x6C, 0x6C]
  | .beginArray => openingTo K 0x5B
  | .endArray => closingTo A K 0x5D
  | .beginObject => openingTo K 0x7B
  | .endObject => closingTo A K 0x7D
  | .nameSeparator => do outputTo K [0x3A]; outputIndent1To A K
  | .valueSeparator => do outputTo K [0x2C]; newlineTo A K
  | _ => pure ()

/-- `next`, json.hpp:738-856; see `next`. -/
def nextTo (t : Token) : M Ser Unit := do
  nextBeganTo A K t
  nextIndentTo A K t
  nextOutputTo A K t
  M.modify fun s => { s with last := t }

/-- `put_float`, json.hpp:863-874; see `putFloat`. -/
def putFloatTo (f : F) : M Ser Unit :=
  if A.fo.isIntegral f then
    match A.fo.toI64 f with
    | none => M.stop .ub
    | some i => do outputTo K (decText i); outputTo K [0x2E, 0x30]
  else outputTo K (A.fo.fmt f)

/-- The `default` case of `put_string`, json.hpp:928-959; see `putOther`. -/
def putOtherTo (cp : Nat) : M Ser Unit := do
  if cp ≤ 0x1F ∨ (A.uesc = true ∧ cp ≥ 0x7F) then
    if cp ≤ 0xFFFF then outputTo K (hexText 2 (cp % 65536))
    else do
      outputTo K (hexText 4 (encodeSurrogates cp).1)
      outputTo K (hexText 4 (encodeSurrogates cp).2)
  else M.modify fun s => { s with os := A.te.offer A.tw K s.os cp }
  if (← M.gets fun s => s.os.good) then pure () else M.throw .serialization

/-- The `switch` of `put_string`, json.hpp:891-960; see `putCp`. -/
def putCpTo (cp : Nat) : M Ser Unit :=
  if cp = 0x09 then outputTo K [0x5C, 0x74]
  else if cp = 0x0D then outputTo K [0x5C, 0x72]
  else if cp = 0x0A then outputTo K [0x5C, 0x6E]
  else if cp = 0x08 then outputTo K [0x5C, 0x62]
  else if cp = 0x0C then outputTo K [0x5C, 0x66]
  else if cp = 0x22 then outputTo K [0x5C, 0x22]
  else if cp = 0x5C then outputTo K [0x5C, 0x5C]
  else putOtherTo A K cp

/-- The loop of `put_string`, json.hpp:883-961; see `stringLoop`. -/
def stringLoopTo : Nat → IStream StrBuf → M Ser Unit
  | 0, _ => M.stop .fuel
  | n + 1, iss =>
    let r := A.se.decode A.sw (strSBuf A.sw) iss
    if r.1 then
      if r.2.2.good then do
        putCpTo A K r.2.1
        stringLoopTo n r.2.2
      else M.throw .serialization
    else pure ()

/-- `put_string`, json.hpp:876-963; see `putString`. -/
def putStringTo (s : List Nat) : M Ser Unit := do
  outputTo K [0x22]
  stringLoopTo A K (s.length + 1) (.ofBuf (.ofString s))
  outputTo K [0x22]

mutual
/-- `do_dump`, serializer.hpp:97-197; see `doDump`. -/
def doDumpTo : Value F → M Ser Unit
  | .obj ms => do
    nextTo A K .beginObject
    dumpMembersTo ms
    nextTo A K .endObject
  | .arr xs => do
    nextTo A K .beginArray
    dumpElemsTo xs
    nextTo A K .endArray
  | .str s => do nextTo A K .valueString; putStringTo A K s
  | .bool b => nextTo A K (if b then .literalTrue else .literalFalse)
  | .int i => do nextTo A K .valueInteger; outputTo K (decText i)
  | .flt f => do nextTo A K .valueFloat; putFloatTo A K f
  | .null => nextTo A K .literalNull

/-- The loop over an array, serializer.hpp:143-152; see `dumpElems`. -/
def dumpElemsTo : List (Value F) → M Ser Unit
  | [] => pure ()
  | x :: xs => do
    doDumpTo x
    if xs.isEmpty then pure () else nextTo A K .valueSeparator
    dumpElemsTo xs

/-- The loop over an object, serializer.hpp:112-127; see `dumpMembers`. -/
def dumpMembersTo : List (List Nat × Value F) → M Ser Unit
  | [] => pure ()
  | (k, v) :: ms => do
    nextTo A K .valueString
    putStringTo A K k
    nextTo A K .nameSeparator
    doDumpTo v
    if ms.isEmpty then pure () else nextTo A K .valueSeparator
    dumpMembersTo ms
end

/-- `basic_serializer::dump`, serializer.hpp:57-71; see `dump`. -/
def dumpTo (h : Option Handler) (v : Value F) : M Ser Unit := fun s =>
  match (do doDumpTo A K v; nextTo A K .endOfInput : M Ser Unit) s, h with
  | (.error (.exn e), s), some h => if h.swallows e then (.ok (), s) else (.error (.exn e), s)
  | r, _ => r

end Serializer

/-- `json::dump(os, v, options)`, serializer.hpp:223-232, to a stream with the buffer `K`: how the call ends, what the buffer has
taken, and whether it refused something. The last is only seen by the serializer's own stream (serializer.hpp:48): the
flags of `os` do not change. -/
def jsonDumpTo {F : Type} (A : DumpArgs F) (K : Sink) (h : Option Handler) (v : Value F) : Except Stop Unit × List Nat × Bool :=
  let r := Serializer.dumpTo A K h v (Serializer.init A [])
  (r.1, r.2.os.out, r.2.os.failb)

end Configor
