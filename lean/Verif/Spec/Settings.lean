import Verif.Model.Settings
/-! # The settings of a dump -/
namespace Spec
open Configor

/-- The last of the settings that the options make, or the given one. -/
def lastOf {α : Type} (f : SerOption → Option α) (opts : List SerOption) (dflt : α) : α := (opts.filterMap f).getLast?.getD dflt

/-- The precision and the flags that an option asks for. -/
def asksPrecision : SerOption → Option (Int × FmtFlags)
  | .precision p fl => some (p, fl)
  | _ => none

/-- The handler that an option sets. -/
def asksHandler : SerOption → Option (Option Handler)
  | .handler h => some h
  | _ => none

/-- The other options. -/
def asksPlain : SerOption → Option DumpOption
  | .plain o => some o
  | _ => none

/-- The style that a precision and flags stand for: `fixed` or `scientific` if one of them is set, otherwise the default; six digits if the
precision is negative. -/
def styleOf (p : Int) (fl : FmtFlags) : Dbl.Style :=
  let n := if p < 0 then 6 else p.toNat
  if fl.fixed = true ∧ fl.scientific = false then .fixed n
  else if fl.fixed = false ∧ fl.scientific = true then .scientific n
  else .general n

/-- The style in which doubles are to be written: the last `with_precision` decides, or else the stream. -/
def wantedStyle (os : Ios) (opts : List SerOption) : Dbl.Style :=
  let w := lastOf asksPrecision opts (os.precision, os.flags)
  styleOf w.1 w.2

end Spec
