import Verif.Model.Encoding
/-! What it means to read a whole text with a decoder. -/
namespace Spec
open Configor

/-- Calling the decoder until it reports the end delivers exactly `cps`, and the
stream is good after each of them. -/
inductive ReadsAs {σ : Type} (dec : IStream σ → Decoded σ) : IStream σ → List Nat → Prop where
  | done {s} : (dec s).1 = false → ReadsAs dec s []
  | more {s cp s' cps} : dec s = (true, cp, s') → s'.good = true → ReadsAs dec s' cps →
      ReadsAs dec s (cp :: cps)

/-- Calling the decoder until it reports the end or a malformed character delivers `l`: code
points and, as a last `none`, a malformed character. -/
inductive Delivers {σ : Type} (dec : IStream σ → Decoded σ) : IStream σ → List (Option Nat) → Prop where
  | done {s} : (dec s).1 = false → Delivers dec s []
  | bad {s} : (dec s).1 = true → (dec s).2.2.good = false → Delivers dec s [none]
  | more {s cp s' l} : dec s = (true, cp, s') → s'.good = true → Delivers dec s' l →
      Delivers dec s (some cp :: l)

/-- Calling a decoder again and again delivers the code points `q` and leaves the stream at `s'`. -/
inductive ReadOn {σ : Type} (dec : IStream σ → Decoded σ) : IStream σ → List Nat → IStream σ → Prop where
  | nil {s} : ReadOn dec s [] s
  | more {s cp s' q s''} : dec s = (true, cp, s') → s'.good = true → ReadOn dec s' q s'' → ReadOn dec s (cp :: q) s''

/-- Write a whole text with an encoder. -/
def writeAll (enc : Encoder) (o : OStream) (cps : List Nat) : OStream := cps.foldl enc o

/-- The text as an encoder stores it, if it accepts all of it. -/
def storeWith (enc : Encoder) (cps : List Nat) : Option (List Nat) :=
  let o := writeAll enc (.ofString []) cps
  if o.failb then none else some o.out

/-- A stream positioned at the start of a string. -/
def onString (s : List Nat) : IStream StrBuf := .ofBuf (.ofString s)

/-- A stream on a string of which `n` units have been read. -/
def readUpTo (s : List Nat) (n : Nat) : IStream StrBuf := .ofBuf ⟨s, n⟩

end Spec
