import Verif.Model.Api
/-!
# How often a parser asks its source
-/
namespace Spec
open Configor

variable {S σ F : Type}

/-- A source of code points that counts how often it is asked for one. -/
def countingCalls (A : Src S) : Src (S × Nat) where
  decode s := ((A.decode s.1).1, (A.decode s.1).2.1, (A.decode s.1).2.2, s.2 + 1)
  eof s := A.eof s.1
  good s := A.good s.1

/-- A call of `parse` on a stream buffer, with a counter for the code points it asks for. -/
def parseCounted (A : ParseArgs F) (B : SBuf σ) (n : Nat) (h : Option Handler) (c : Value F) (b : σ) : PRes (IStream σ × Nat) F :=
  parse { A.cfg B n with src := countingCalls (A.cfg B n).src } n h c (Lex.init (.ofBuf b, 0) (A.fo.ofInt 0))

/-- How often a call of `parse` asks for a code point until it ends, in whatever way. -/
def calls (A : ParseArgs F) (B : SBuf σ) (n : Nat) (h : Option Handler) (c : Value F) (b : σ) : Nat :=
  (parseCounted A B n h c b).2.1.is.2

/-- A stream buffer that counts how often a character is looked at, and how often one is taken. -/
def counting (B : SBuf σ) : SBuf (σ × Nat × Nat) where
  sgetc s := ((B.sgetc s.1).1, (B.sgetc s.1).2, s.2.1 + 1, s.2.2)
  sbumpc s := ((B.sbumpc s.1).1, (B.sbumpc s.1).2, s.2.1, s.2.2 + 1)
  throws s := B.throws s.1

/-- How often a call of `parse` looks at a character of the stream buffer, and how often it takes one, until it ends. -/
def accesses (A : ParseArgs F) (B : SBuf σ) (n : Nat) (h : Option Handler) (c : Value F) (b : σ) : Nat × Nat :=
  (parse (A.cfg (counting B) n) n h c (Lex.init (.ofBuf (b, 0, 0)) (A.fo.ofInt 0))).2.1.is.sb.2

end Spec
