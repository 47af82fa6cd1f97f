import Verif.Model.StreamState
/-! # The last option counts -/
namespace Spec
open Configor

/-- What the last of the options that have a say asks for, or the given setting. -/
def lastAsked {β α : Type} (f : β → Option α) (opts : List β) (dflt : α) : α := (opts.filterMap f).getLast?.getD dflt

/-- The handler that an option of `parse` sets. -/
def handlerAsked : ParseOption → Option (Option Handler)
  | .handler h => some h
  | _ => none

/-- The encoding of the text that an option asks for. -/
def sourceAsked : ParseOption → Option Enc
  | .encoding e => some e
  | .sourceEncoding e => some e
  | _ => none

/-- The encoding of the strings that an option asks for. -/
def targetAsked : ParseOption → Option Enc
  | .encoding e => some e
  | .targetEncoding e => some e
  | _ => none

/-- The same without `dump` and `parse`: the text of a value is written directly. -/
def plainly : StreamUse → List StreamUse
  | .dump x t => [.write x t]
  | .parse _ => []
  | u => [u]

/-- The stream that is used. -/
def usedStream : StreamUse → Nat
  | .imbue x _ => x
  | .write x _ => x
  | .dump x _ => x
  | .parse x => x

/-- Only locales with the given conversion are set. -/
def SetsOnly (k : Nat) : StreamUse → Prop
  | .imbue _ l => l.ctype = k
  | _ => True

end Spec
