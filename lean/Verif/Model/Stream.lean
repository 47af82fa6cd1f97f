import Verif.Model.Basic
/-!
# Standard streams and the library's stream buffers

Code units are natural numbers (the unsigned value of the character);
`int_type` values are integers with `eof = -1`.
-/
namespace Configor

/-- `static_cast<uintN_t>(x)` of an `int_type`. Used at encoding.hpp:173, 185-200, 243, 251. -/
def castU (n : Nat) (i : Int) : Nat := (i % (2 ^ n : Nat)).toNat

/-- The two input operations of `std::basic_streambuf` the library's streams use.
None of the buffers of stream.hpp sets up a get area, so `sgetc` is `underflow`
and `sbumpc` is `uflow`. See stream.hpp:137-198, 248-287, 289-334, 336-420. -/
structure SBuf (σ : Type) where
  sgetc : σ → Int × σ
  sbumpc : σ → Int × σ
  /-- in this state both throw, and change nothing -/
  throws : σ → Bool := fun _ => false

/-- `std::basic_istream`: its buffer, eofbit, and whether failbit or badbit is set (no code distinguishes them).
The stream of the parser, parser.hpp:219, and of `put_string`, json.hpp:881. -/
structure IStream (σ : Type) where
  sb : σ
  eofb : Bool
  failb : Bool
  deriving DecidableEq

namespace IStream
variable {σ : Type}

/-- A stream freshly constructed on a buffer (parser.hpp:46-53, json.hpp:880-881). -/
def ofBuf (b : σ) : IStream σ := ⟨b, false, false⟩

/-- `good()`. Used at json.hpp:251, 886. -/
def good (s : IStream σ) : Bool := !s.eofb && !s.failb

/-- `setstate(failbit)`. Used at encoding.hpp:205, 259, 265, 300. -/
def setFail (s : IStream σ) : IStream σ := { s with failb := true }

/-- `peek()` of libstdc++: unformatted input; eof sets eofbit. An exception is caught and sets badbit. Used at
encoding.hpp:173. -/
def peek (B : SBuf σ) (s : IStream σ) : Int × IStream σ :=
  if s.good then
    if B.throws s.sb then (-1, { s with failb := true }) else
    let r := B.sgetc s.sb
    (r.1, { s with sb := r.2, eofb := r.1 == -1 })
  else (-1, { s with failb := true })

/-- `get()` of libstdc++: unformatted input; eof sets eofbit and failbit. An exception is caught and sets badbit.
Used at encoding.hpp:97, 185-200, 243, 251, 293. -/
def get (B : SBuf σ) (s : IStream σ) : Int × IStream σ :=
  if s.good then
    if B.throws s.sb then (-1, { s with failb := true }) else
    let r := B.sbumpc s.sb
    if r.1 = -1 then (-1, ⟨r.2, true, true⟩) else (r.1, { s with sb := r.2 })
  else (-1, { s with failb := true })

end IStream

/-! ## String buffers -/

/-- `fast_string_istreambuf` (stream.hpp:248-287) and `fast_buffer_istreambuf`
(stream.hpp:289-334): text and position. -/
structure StrBuf where
  str : List Nat
  idx : Nat
  deriving DecidableEq

/-- `traits_type::to_int_type` for a character type of `w` bits. For `char` it is
the unsigned value; for `wchar_t` (32 bits on Linux) and `char32_t` the all-ones value is `eof`;
for the `char16_t` of libstdc++ it is 0xFFFF that would be `eof`, and 0xFFFD is returned instead.
Used at stream.hpp:268, 310. -/
def toIntType (w u : Nat) : Int :=
  if w = 16 ∧ u = 0xFFFF then 0xFFFD
  else if w ≠ 8 ∧ u = 2 ^ w - 1 then -1 else (u : Int)

/-- `underflow`, stream.hpp:264-269 and 306-311. -/
def StrBuf.underflow (w : Nat) (b : StrBuf) : Int :=
  match b.str[b.idx]? with
  | none => -1
  | some u => toIntType w u

/-- `underflow`/`uflow` of the string buffers, stream.hpp:264-276 and 306-318. -/
def strSBuf (w : Nat) : SBuf StrBuf where
  sgetc b := (b.underflow w, b)
  sbumpc b := (b.underflow w, { b with idx := b.idx + 1 })

/-- `fast_string_istreambuf{str}`, stream.hpp:257-261. -/
def StrBuf.ofString (s : List Nat) : StrBuf := ⟨s, 0⟩

/-- `fast_buffer_istreambuf{buffer}`, stream.hpp:298-303: the text of a C string
ends at its first NUL (`traits_type::length`). The argument is the memory from
the pointer on. -/
def StrBuf.ofCString (mem : List Nat) : StrBuf := ⟨mem.takeWhile (· ≠ 0), 0⟩

/-! ## Adapter and FILE buffers with a one character cache -/

/-- A buffer that keeps one character; `0` means that nothing is kept.
See stream.hpp:137-198 and 336-420. -/
structure CacheBuf (ρ : Type) where
  dev : ρ
  last : Int

/-- `underflow` of `basic_iadapterstream::streambuf` (stream.hpp:163-169) and of
`fast_cfile_istreambuf` (stream.hpp:355-361, 398-404). `rd` is one read of the
device, already converted to `int_type`. -/
def CacheBuf.underflow {ρ : Type} (rd : ρ → Int × ρ) (b : CacheBuf ρ) : Int × CacheBuf ρ :=
  if b.last ≠ 0 then (b.last, b)
  else
    let r := rd b.dev
    (r.1, ⟨r.2, r.1⟩)

/-- `underflow` and `uflow` (stream.hpp:163-176, 355-368, 398-411). -/
def cacheSBuf {ρ : Type} (rd : ρ → Int × ρ) : SBuf (CacheBuf ρ) where
  sgetc b := b.underflow rd
  sbumpc b := let r := b.underflow rd; (r.1, { r.2 with last := 0 })

/-- The same when a read of the device may throw: `thr` says in which states it does. stream.hpp:163-176. -/
def throwingSBuf {ρ : Type} (rd : ρ → Int × ρ) (thr : ρ → Bool) : SBuf (CacheBuf ρ) :=
  { cacheSBuf rd with throws := fun b => b.last == 0 && thr b.dev }

/-- `std::fgetc` on a file whose remaining bytes are `l`. Used at stream.hpp:359. -/
def fgetc : List Nat → Int × List Nat
  | [] => (-1, [])
  | u :: us => ((u : Int), us)

/-- `std::fgetc` on a file whose remaining bytes are `l`, of which only the next `k` can be read: behind
them reading fails, and `fgetc` returns `EOF` for that too. Used at stream.hpp:359. -/
def fgetcErr : List Nat × Nat → Int × (List Nat × Nat)
  | (l, 0) => (-1, (l, 0))
  | ([], k) => (-1, ([], k))
  | (u :: us, k + 1) => ((u : Int), (us, k))

/-- The conversion `int_type = char` of stream.hpp:167: `char` is signed on the
modelled platform. -/
def signExtend (w u : Nat) : Int := if u < 2 ^ (w - 1) then (u : Int) else (u : Int) - (2 ^ w : Nat)

/-- An adapter (`basic_iadapter::read`, stream.hpp:122) that delivers the
characters of a text and then `'\0'` forever, as in the library's examples. -/
def adapterRead (w : Nat) : List Nat → Int × List Nat
  | [] => (0, [])
  | u :: us => (signExtend w u, us)

/-! ## Reading several characters from an adapter stream -/

/-- An adapter on a text: one `read()` (stream.hpp:122) that gives the next character, and
`'\0'` at the end. -/
def textRead : List Nat → Nat × List Nat
  | [] => (0, [])
  | u :: us => (u, us)

/-- `basic_iadapter::read(s, num)`, stream.hpp:124-131. -/
def adapterReadN {ρ : Type} (rd : ρ → Nat × ρ) : Nat → ρ → List Nat × ρ
  | 0, r => ([], r)
  | n + 1, r =>
    let a := rd r
    let b := adapterReadN rd n a.2
    (a.1 :: b.1, b.2)

/-- `xsgetn` of `basic_iadapterstream::streambuf`, stream.hpp:178-190, for a buffer of `n`
characters of `w` bits: the characters stored, the count returned and the buffer afterwards.
With `n = 0` and a kept character it stores outside of the buffer, and then asks the adapter
for `SIZE_MAX` characters. -/
def CacheBuf.xsgetn {ρ : Type} (w : Nat) (rd : ρ → Nat × ρ) (b : CacheBuf ρ) (n : Nat) :
    Except Stop (List Nat × Nat × CacheBuf ρ) :=
  if b.last ≠ 0 then
    if n = 0 then .error .ub
    else
      let r := adapterReadN rd (n - 1) b.dev
      .ok (castU w b.last :: r.1, n - 1, ⟨r.2, 0⟩)
  else
    let r := adapterReadN rd n b.dev
    .ok (r.1, n, ⟨r.2, b.last⟩)

/-- `std::istream::read(buf, n)` (libstdc++, istream.tcc:702-726) on an adapter stream: the
characters stored, `gcount()` afterwards, and the stream. -/
def IStream.readN {ρ : Type} (w : Nat) (rd : ρ → Nat × ρ) (s : IStream (CacheBuf ρ)) (n : Nat) :
    Except Stop (List Nat × Nat × IStream (CacheBuf ρ)) :=
  if s.good then
    match s.sb.xsgetn w rd n with
    | .error e => .error e
    | .ok (cs, cnt, b) => .ok (cs, cnt, if cnt = n then { s with sb := b } else ⟨b, true, true⟩)
  else .ok ([], 0, s.setFail)

/-! ## Output -/

/-- `std::basic_ostream` on a `fast_string_ostreambuf` (stream.hpp:210-242): the
text written so far and failbit. -/
structure OStream where
  out : List Nat
  failb : Bool
  deriving DecidableEq, Repr

namespace OStream
/-- A stream that appends to an existing string (stream.hpp:219-223). -/
def ofString (s : List Nat) : OStream := ⟨s, false⟩
/-- `good()`. Used at json.hpp:455, 473, 954. -/
def good (o : OStream) : Bool := !o.failb
/-- `put(c)`: `overflow` pushes the character back (stream.hpp:225-232). The encoders apply `asPut` to what
they put, for the one character that arrives as another one. (Simplification: the all-ones value of a 32 bit
type, which is `eof` and makes `put` fail, is pushed back too. It is no code point and no decoder delivers it.) -/
def put (o : OStream) (c : Nat) : OStream :=
  if o.failb then o else { o with out := o.out ++ [c] }
/-- `write(s, n)`, `operator<<`: `xsputn` appends (stream.hpp:234-238). -/
def write (o : OStream) (cs : List Nat) : OStream :=
  if o.failb then o else { o with out := o.out ++ cs }
/-- `setstate(failbit)`. Used at encoding.hpp:146, 237, 286. -/
def setFail (o : OStream) : OStream := { o with failb := true }
end OStream

end Configor
