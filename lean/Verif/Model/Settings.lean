import Verif.Model.Dbl
/-!
# Where `dump` takes its settings from

The formatting state of an output stream, what the serializer takes from it, and the options that `Model/Serializer` leaves out.
-/
namespace Configor

/-- `std::ios_base::fmtflags`: the two bits of `floatfield`, and the others (`hex`, `showpos`, `uppercase`, ...) as one number. Used at
serializer.hpp:53, json.hpp:680-687, 731-735. -/
structure FmtFlags where
  fixed : Bool
  scientific : Bool
  others : Nat
  deriving DecidableEq

namespace FmtFlags

/-- The flags of a new stream, `skipws | dec` with their values in libstdc++. For serializer.hpp:48. -/
def initial : FmtFlags := ⟨false, false, 0x1002⟩

/-- `setf(flags, std::ios_base::floatfield)`. Used at serializer.hpp:53, json.hpp:685. -/
def setFloat (fl new : FmtFlags) : FmtFlags := { fl with fixed := new.fixed, scientific := new.scientific }

end FmtFlags

/-- The formatting state of an output stream. A negative width is not modelled (it counts as none, json.hpp:718). For serializer.hpp:47-55,
json.hpp:716-726. -/
structure Ios where
  flags : FmtFlags
  precision : Int
  width : Nat
  fill : Nat

/-- `os << f` for a `double`, by the flags and the precision of `os`; a negative precision is 6 as for `printf`. `other` is what is written
with flags that are not described by `Dbl.fmt`: hexadecimal floats, `showpos`, `uppercase` and so on. Precisions that do not fit
`int` are not modelled. json.hpp:872. -/
def putDouble (other : FmtFlags → Int → Dbl → List Nat) (fl : FmtFlags) (p : Int) (f : Dbl) : List Nat :=
  let n := if p < 0 then 6 else p.toNat
  if fl.others = FmtFlags.initial.others then
    match fl.fixed, fl.scientific with
    | false, false => Dbl.fmt (.general n) f
    | true, false => Dbl.fmt (.fixed n) f
    | false, true => Dbl.fmt (.scientific n) f
    | true, true => other fl p f
  else other fl p f

/-- What a serializer is set to: the formatting of its own stream, its error handler (serializer.hpp:200), and the rest as in
`Model/Serializer`, where `fo` is not used. -/
structure Settings where
  args : DumpArgs Dbl
  flags : FmtFlags
  precision : Int
  handler : Option Handler

/-- Options of `json_serializer`, json.hpp:666-714; a handler may be null. -/
inductive SerOption where
  | plain (o : DumpOption)
  | precision (p : Int) (fl : FmtFlags)
  | handler (h : Option Handler)

namespace Settings

/-- The constructors, serializer.hpp:47-55, json.hpp:716-726, and the default encodings, serializer.hpp:228-229. -/
def init (se : Enc) (sw : Nat) (te : Enc) (tw : Nat) (os : Ios) : Settings where
  args := .ofStream se sw te tw os.width os.fill (Dbl.ops (.general 6))
  flags := FmtFlags.initial.setFloat os.flags
  precision := os.precision
  handler := none

/-- Applying an option, json.hpp:666-714. -/
def apply (s : Settings) : SerOption → Settings
  | .plain o => { s with args := s.args.apply o }
  | .precision p fl => { s with precision := p, flags := s.flags.setFloat fl }
  | .handler h => { s with handler := h }

/-- `prepare`, json.hpp:728-736. -/
def prepare (s : Settings) (opts : List SerOption) : Settings :=
  let t := opts.foldl apply s
  if t.flags.fixed ∧ t.flags.scientific then { t with flags := { t.flags with fixed := false, scientific := false } } else t

/-- What `dump` works with: doubles are written by `operator<<` of the serializer's stream, json.hpp:872. -/
def toArgs (other : FmtFlags → Int → Dbl → List Nat) (s : Settings) : DumpArgs Dbl :=
  { s.args with fo := { Dbl.ops (.general 6) with fmt := putDouble other s.flags s.precision } }

end Settings

/-- `json::dump(os, v, options)`, serializer.hpp:222-232, for a buffer that takes everything and holds `text`: how the call ends, what the
buffer holds then, and the formatting state of `os` (json.hpp:725). -/
def dumpStream (other : FmtFlags → Int → Dbl → List Nat) (se : Enc) (sw : Nat) (te : Enc) (tw : Nat) (os : Ios) (opts : List SerOption)
    (text : List Nat) (v : Value Dbl) : (Except Stop Unit × List Nat) × Ios :=
  let s := (Settings.init se sw te tw os).prepare opts
  (jsonDump (s.toArgs other) s.handler text v, { os with width := 0 })

end Configor
