import Verif.Model.Message
/-!
# The messages of failed dumps

The functions here follow `Model/Serializer` and say in addition which message an exception carries.
-/
namespace Configor

/-- The message of a `configor_serialization_error(message)`, exception.hpp:87-94. -/
def serializationText (message : List Nat) : List Nat := text! "value serialization error: " ++ message

namespace DMsg
open Serializer
variable {F : Type} (A : DumpArgs F)

/-- A part of the serializer that throws nothing. Model infrastructure, see json.hpp:738-874. -/
def quiet {α : Type} (m : M Ser α) : MM Ser α := fun s =>
  match m s with
  | (.ok a, s') => (.ok a, s')
  | (.error e, s') => (.error (e, []), s')

/-- `fail(msg, codepoint)`, json.hpp:993-998. -/
def fail {α : Type} (msg : List Nat) (code : Nat) : MM Ser α := fun s =>
  (.error (.exn .serialization, serializationText (msg ++ text! " '" ++ hexText 4 code ++ text! "'")), s)

/-- The `default` case of `put_string`, json.hpp:928-959; see `putOther`. -/
def putOther (cp : Nat) : MM Ser Unit := do
  if cp ≤ 0x1F ∨ (A.uesc = true ∧ cp ≥ 0x7F) then
    if cp ≤ 0xFFFF then quiet (output (hexText 2 (cp % 65536)))
    else do
      quiet (output (hexText 4 (encodeSurrogates cp).1))
      quiet (output (hexText 4 (encodeSurrogates cp).2))
  else MM.modify fun s => { s with os := A.te.encode A.tw s.os cp }
  if (← MM.gets fun s => s.os.good) then pure () else fail (text! "encoding failed with codepoint") cp

/-- The `switch` of `put_string`, json.hpp:891-960; see `putCp`. -/
def putCp (cp : Nat) : MM Ser Unit :=
  if cp = 0x09 then quiet (output [0x5C, 0x74])
  else if cp = 0x0D then quiet (output [0x5C, 0x72])
  else if cp = 0x0A then quiet (output [0x5C, 0x6E])
  else if cp = 0x08 then quiet (output [0x5C, 0x62])
  else if cp = 0x0C then quiet (output [0x5C, 0x66])
  else if cp = 0x22 then quiet (output [0x5C, 0x22])
  else if cp = 0x5C then quiet (output [0x5C, 0x5C])
  else putOther A cp

/-- The loop of `put_string`, json.hpp:883-961; see `stringLoop`. -/
def stringLoop : Nat → IStream StrBuf → MM Ser Unit
  | 0, _ => MM.stop .fuel
  | n + 1, iss =>
    let r := A.se.decode A.sw (strSBuf A.sw) iss
    if r.1 then
      if r.2.2.good then do
        putCp A r.2.1
        stringLoop n r.2.2
      else fail (text! "unexpected character") r.2.1
    else pure ()

/-- `put_string`, json.hpp:876-963; see `putString`. -/
def putString (s : List Nat) : MM Ser Unit := do
  quiet (output [0x22])
  stringLoop A (s.length + 1) (.ofBuf (.ofString s))
  quiet (output [0x22])

mutual
/-- `do_dump`, serializer.hpp:97-197; see `doDump`. -/
def doDump : Value F → MM Ser Unit
  | .obj ms => do
    quiet (next A .beginObject)
    dumpMembers ms
    quiet (next A .endObject)
  | .arr xs => do
    quiet (next A .beginArray)
    dumpElems xs
    quiet (next A .endArray)
  | .str s => do quiet (next A .valueString); putString A s
  | .bool b => quiet (next A (if b then .literalTrue else .literalFalse))
  | .int i => do quiet (next A .valueInteger); quiet (putInteger i)
  | .flt f => do quiet (next A .valueFloat); quiet (putFloat A f)
  | .null => quiet (next A .literalNull)

/-- The loop over an array, serializer.hpp:143-152; see `dumpElems`. -/
def dumpElems : List (Value F) → MM Ser Unit
  | [] => pure ()
  | x :: xs => do
    doDump x
    if xs.isEmpty then pure () else quiet (next A .valueSeparator)
    dumpElems xs

/-- The loop over an object, serializer.hpp:112-127; see `dumpMembers`. -/
def dumpMembers : List (List Nat × Value F) → MM Ser Unit
  | [] => pure ()
  | (k, v) :: ms => do
    quiet (next A .valueString)
    putString A k
    quiet (next A .nameSeparator)
    doDump v
    if ms.isEmpty then pure () else quiet (next A .valueSeparator)
    dumpMembers ms
end

/-- The `try` block of `basic_serializer::dump`, serializer.hpp:59-62. -/
def body (v : Value F) : MM Ser Unit := do
  doDump A v
  quiet (next A .endOfInput)

end DMsg

/-- `json::dump(str, v, options)`, serializer.hpp:235-242, without an error handler: how it ends, with `what()` of the exception
if it throws, and the string afterwards. -/
def jsonDumpSays {F : Type} (A : DumpArgs F) (str : List Nat) (v : Value F) : Except (Stop × List Nat) Unit × List Nat :=
  let r := DMsg.body A v (Serializer.init A str)
  (match r.1 with | .error (e, m) => .error (e, whatOf m) | .ok u => .ok u, r.2.os.out)

/-- `json::dump(str, v, { with_error_handler(&h) })`, serializer.hpp:57-71, with an `error_handler_with<error_policy::record>` `h`,
exception.hpp:130-154, whose `error` was `error`: how the call ends, the string, and `h.error` afterwards. -/
def jsonDumpRecord {F : Type} (A : DumpArgs F) (error : List Nat) (str : List Nat) (v : Value F) :
    (Except Stop Unit × List Nat) × List Nat :=
  match DMsg.body A v (Serializer.init A str) with
  | (.error (.exn _, m), s) => ((.ok (), s.os.out), whatOf m)
  | (.error (e, _), s) => ((.error e, s.os.out), error)
  | (.ok _, s) => ((.ok (), s.os.out), error)

/-- `json::dump(os, v, options)` to a stream that rejects every character, see `dumpRejected`, serializer.hpp:223-232: how it
ends, with `what()` of the exception if it throws. -/
def dumpRejectedSays {F : Type} (A : DumpArgs F) (v : Value F) : Except (Stop × List Nat) Unit :=
  let r := DMsg.body A v { Serializer.init A [] with os := ⟨[], true⟩ }
  match r.1 with | .error (e, m) => .error (e, whatOf m) | .ok u => .ok u

end Configor
