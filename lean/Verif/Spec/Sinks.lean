import Verif.Model.Sink
/-!
# What a stream buffer takes

Used by C99 and C114.
-/
namespace Configor

/-- The buffer never refuses a character. -/
def Takes (K : Sink) : Prop := ∀ got cs, cs.length ≤ K got cs

/-- `got` came in blocks that the buffer took in whole, one after the other. -/
inductive Took (K : Sink) : List Nat → Prop
  | none : Took K []
  | block {got cs : List Nat} : Took K got → cs.length ≤ K got cs → Took K (got ++ cs)

/-- The buffer has taken the beginning `got` of `all`: some blocks in whole, and then only a part of the next one. -/
def Stopped (K : Sink) (all got : List Nat) : Prop :=
  ∃ before block rest, all = before ++ block ++ rest ∧ Took K before ∧ K before block < block.length ∧
    got = before ++ block.take (K before block)

/-- `all` is `got` and some more characters, which are all in `Q`. -/
def Lost (Q : Nat → Prop) (all got : List Nat) : Prop := ∃ t, all = got ++ t ∧ ∀ c ∈ t, Q c

/-- The characters of the escapes `\t \r \n \b \f \" \\` and of the quotes around a string. -/
def EscChar (c : Nat) : Prop := c = 0x5C ∨ c = 0x22 ∨ c = 0x74 ∨ c = 0x72 ∨ c = 0x6E ∨ c = 0x62 ∨ c = 0x66

/-- A buffer with room for `k` characters, like `OStream.within`. -/
def room (k : Nat) : Sink := fun got _ => k - got.length

/-- A buffer that fails at position `k` and takes no part of the block with it. -/
def blocks (k : Nat) : Sink := fun got cs => if got.length + cs.length ≤ k then cs.length else 0

end Configor
