import Verif.Model.Stream
/-!
# Encodings (include/configor/details/encoding.hpp)

`uint32_t` arithmetic carries its reduction modulo `2^32`.
-/
namespace Configor

/-- Reduction of `uint32_t` arithmetic. See encoding.hpp:57-71, 178-202. -/
def u32 (n : Nat) : Nat := n % 4294967296

/-- `a - b` in `uint32_t`, for `a, b < 2^32`. Used at encoding.hpp:67, 202. -/
def u32sub (a b : Nat) : Nat := (a + 4294967296 - b) % 4294967296

/-! ## Surrogates, encoding.hpp:36-71 -/

/-- `is_lead_surrogate`, encoding.hpp:47-50. -/
def isLead (cp : Nat) : Bool := 0xD800 ≤ cp && cp ≤ 0xDBFF

/-- `is_trail_surrogate`, encoding.hpp:52-55. -/
def isTrail (cp : Nat) : Bool := 0xDC00 ≤ cp && cp ≤ 0xDFFF

/-- `decode_surrogates`, encoding.hpp:57-63. -/
def decodeSurrogates (lead trail : Nat) : Nat :=
  u32 (u32 (u32 (u32sub lead 0xD800 <<< 10) + u32sub trail 0xDC00) + 0x10000)

/-- `encode_surrogates`, encoding.hpp:65-71. -/
def encodeSurrogates (cp : Nat) : Nat × Nat :=
  let c := u32sub cp 0x10000
  (u32 (0xD800 + (c >>> 10)) % 65536, u32 (0xDC00 + (c &&& 0x3FF)) % 65536)

/-! ## Encoders -/

/-- An encoder: appends a code point to an output stream (encoding.hpp:75-76). -/
abbrev Encoder := OStream → Nat → OStream

/-- `static_cast<char_type>` to a character type of `w` bits.
Used at encoding.hpp:92, 117-142, 226-233, 288 and json.hpp:325-342, 627-630. -/
def toChar (w cp : Nat) : Nat := cp % 2 ^ w

/-- `put(static_cast<char_type>(cp))`: the character that `overflow` (stream.hpp:225-232) gets to push back.
`sputc` hands it over as `to_char_type(to_int_type(c))`, which for the `char16_t` of libstdc++ turns 0xFFFF into
0xFFFD (see `toIntType`). Used at encoding.hpp:92, 117-142, 226-233, 288. -/
def asPut (w cp : Nat) : Nat := if w = 16 ∧ toChar w cp = 0xFFFF then 0xFFFD else toChar w cp

/-- `ignore::encode`, encoding.hpp:90-93. -/
def ignoreEncode (w : Nat) : Encoder := fun o cp => o.put (asPut w cp)

/-- `utf8::encode`, encoding.hpp:111-148. -/
def utf8Encode (w : Nat) : Encoder := fun o cp =>
  if cp < 0x80 then o.put (asPut w cp)
  else if cp ≤ 0x7FF then
    (o.put (asPut w (0xC0 ||| (cp >>> 6)))).put (asPut w (0x80 ||| (cp &&& 0x3F)))
  else if cp ≤ 0xFFFF then
    ((o.put (asPut w (0xE0 ||| (cp >>> 12)))).put
      (asPut w (0x80 ||| ((cp >>> 6) &&& 0x3F)))).put (asPut w (0x80 ||| (cp &&& 0x3F)))
  else if cp ≤ 0x10FFFF then
    (((o.put (asPut w (0xF0 ||| (cp >>> 18)))).put
      (asPut w (0x80 ||| ((cp >>> 12) &&& 0x3F)))).put
      (asPut w (0x80 ||| ((cp >>> 6) &&& 0x3F)))).put (asPut w (0x80 ||| (cp &&& 0x3F)))
  else o.setFail

/-- `utf16::encode`, encoding.hpp:222-239. -/
def utf16Encode (w : Nat) : Encoder := fun o cp =>
  if cp ≤ 0xFFFF then o.put (asPut w cp)
  else if cp ≤ 0x10FFFF then
    let p := encodeSurrogates cp
    (o.put (asPut w p.1)).put (asPut w p.2)
  else o.setFail

/-- `utf32::encode`, encoding.hpp:282-289. -/
def utf32Encode (w : Nat) : Encoder := fun o cp =>
  (if cp > 0x10FFFF then o.setFail else o).put (asPut w cp)

/-! ## Decoders -/

variable {σ : Type}

/-- Result of a decoder: the returned flag, the code point written to the
reference parameter and the stream. When the flag is false no caller reads the
code point (json.hpp:249-260, 884); it is given as 0 in that case. -/
abbrev Decoded (σ : Type) := Bool × Nat × IStream σ

/-- `ignore::decode`, encoding.hpp:95-99: the character is sign extended when
`char` is signed; `static_cast<uint32_t>(static_cast<char_type>(is.get()))`. -/
def ignoreDecode (w : Nat) (B : SBuf σ) (s : IStream σ) : Decoded σ :=
  let r := s.get B
  (!r.2.eofb, if r.2.eofb then 0 else castU 32 (signExtend w (castU w r.1)), r.2)

/-- `utf8_extra_bytes`, encoding.hpp:157-166 (the table as written). -/
def utf8ExtraTable : List Nat :=
  [0, 0, 0, 0, 0, 0, 0, 0, 0, 0, 0, 0, 0, 0, 0, 0, 0, 0, 0, 0, 0, 0, 0, 0, 0, 0, 0, 0, 0, 0, 0, 0,
   0, 0, 0, 0, 0, 0, 0, 0, 0, 0, 0, 0, 0, 0, 0, 0, 0, 0, 0, 0, 0, 0, 0, 0, 0, 0, 0, 0, 0, 0, 0, 0,
   0, 0, 0, 0, 0, 0, 0, 0, 0, 0, 0, 0, 0, 0, 0, 0, 0, 0, 0, 0, 0, 0, 0, 0, 0, 0, 0, 0, 0, 0, 0, 0,
   0, 0, 0, 0, 0, 0, 0, 0, 0, 0, 0, 0, 0, 0, 0, 0, 0, 0, 0, 0, 0, 0, 0, 0, 0, 0, 0, 0, 0, 0, 0, 0,
   0, 0, 0, 0, 0, 0, 0, 0, 0, 0, 0, 0, 0, 0, 0, 0, 0, 0, 0, 0, 0, 0, 0, 0, 0, 0, 0, 0, 0, 0, 0, 0,
   0, 0, 0, 0, 0, 0, 0, 0, 0, 0, 0, 0, 0, 0, 0, 0, 0, 0, 0, 0, 0, 0, 0, 0, 0, 0, 0, 0, 0, 0, 0, 0,
   1, 1, 1, 1, 1, 1, 1, 1, 1, 1, 1, 1, 1, 1, 1, 1, 1, 1, 1, 1, 1, 1, 1, 1, 1, 1, 1, 1, 1, 1, 1, 1,
   2, 2, 2, 2, 2, 2, 2, 2, 2, 2, 2, 2, 2, 2, 2, 2, 3, 3, 3, 3, 3, 3, 3, 3, 4, 4, 4, 4, 5, 5, 5, 5]

/-- `utf8_offsets`, encoding.hpp:168-170. -/
def utf8Offsets : List Nat :=
  [0x00000000, 0x00003080, 0x000E2080, 0x03C82080, 0xFA082080, 0x82082080]

/-- The fall-through `switch`, encoding.hpp:182-201, entered at `case n`. -/
def utf8Read (B : SBuf σ) : Nat → Nat → IStream σ → Nat × IStream σ
  | 0, cp, s =>
    let r := s.get B
    (u32 (cp + castU 8 r.1), r.2)
  | n + 1, cp, s =>
    let r := s.get B
    utf8Read B n (u32 (u32 (cp + castU 8 r.1) <<< 6)) r.2

/-- `utf8::decode`, encoding.hpp:150-208. -/
def utf8Decode (B : SBuf σ) (s : IStream σ) : Decoded σ :=
  let p := s.peek B
  let firstByte := castU 8 p.1
  if p.2.eofb then (false, 0, p.2)
  else
    let n := utf8ExtraTable.getD firstByte 0
    let r := utf8Read B n 0 p.2
    let cp := u32sub r.1 (utf8Offsets.getD n 0)
    (true, cp, if cp > 0x10FFFF then r.2.setFail else r.2)

/-- `utf16::decode`, encoding.hpp:241-268. -/
def utf16Decode (B : SBuf σ) (s : IStream σ) : Decoded σ :=
  let r := s.get B
  let cp := castU 16 r.1
  if r.2.eofb then (false, 0, r.2)
  else if isLead cp then
    let r' := r.2.get B
    let tr := castU 16 r'.1
    if isTrail tr then
      let cp' := decodeSurrogates cp tr
      (true, cp', if cp' > 0x10FFFF then r'.2.setFail else r'.2)
    else (true, cp, r'.2.setFail)
  else (true, cp, if cp > 0x10FFFF then r.2.setFail else r.2)

/-- `utf32::decode`, encoding.hpp:291-303. -/
def utf32Decode (B : SBuf σ) (s : IStream σ) : Decoded σ :=
  let r := s.get B
  let cp := castU 32 r.1
  if r.2.eofb then (false, 0, r.2)
  else (true, cp, if cp > 0x10FFFF then r.2.setFail else r.2)

/-- The encodings of encoding.hpp. encoding.hpp:81-355. -/
inductive Enc where
  | ignore | utf8 | utf16 | utf32
  deriving DecidableEq, Repr

/-- Encoder of an encoding on a character type of `w` bits.
encoding.hpp:90-93, 111-148, 222-239, 282-289. -/
def Enc.encode (e : Enc) (w : Nat) : Encoder :=
  match e with
  | .ignore => ignoreEncode w
  | .utf8 => utf8Encode w
  | .utf16 => utf16Encode w
  | .utf32 => utf32Encode w

/-- Decoder of an encoding on a character type of `w` bits.
encoding.hpp:95-99, 150-208, 241-268, 291-303. -/
def Enc.decode (e : Enc) (w : Nat) (B : SBuf σ) : IStream σ → Decoded σ :=
  match e with
  | .ignore => ignoreDecode w B
  | .utf8 => utf8Decode B
  | .utf16 => utf16Decode B
  | .utf32 => utf32Decode B

/-- `auto_utf`, encoding.hpp:306-355: by the size of the character type. -/
def autoUtf (w : Nat) : Enc :=
  if w = 8 then .utf8 else if w = 16 then .utf16 else .utf32

end Configor
