/-!
# Independent specification of the Unicode encoding forms

Plain arithmetic, no reference to the model of the code.
-/
namespace Spec

/-- Largest code point. -/
def maxCp : Nat := 0x10FFFF

/-- Surrogate code points. -/
def IsSurrogate (cp : Nat) : Prop := 0xD800 ≤ cp ∧ cp ≤ 0xDFFF

/-- Unicode scalar values. -/
def IsScalar (cp : Nat) : Prop := cp ≤ maxCp ∧ ¬ IsSurrogate cp

instance (cp : Nat) : Decidable (IsSurrogate cp) := by unfold IsSurrogate; infer_instance
instance (cp : Nat) : Decidable (IsScalar cp) := by unfold IsScalar; infer_instance

/-- RFC 3629, section 3: the octets of a code point (defined for all code points
up to U+10FFFF; the RFC itself excludes surrogates). -/
def utf8 (cp : Nat) : List Nat :=
  if cp < 0x80 then [cp]
  else if cp < 0x800 then [0xC0 + cp / 64, 0x80 + cp % 64]
  else if cp < 0x10000 then [0xE0 + cp / 4096, 0x80 + cp / 64 % 64, 0x80 + cp % 64]
  else [0xF0 + cp / 262144, 0x80 + cp / 4096 % 64, 0x80 + cp / 64 % 64, 0x80 + cp % 64]

/-- UTF-16: the units of a code point. -/
def utf16 (cp : Nat) : List Nat :=
  if cp < 0x10000 then [cp]
  else [0xD800 + (cp - 0x10000) / 1024, 0xDC00 + (cp - 0x10000) % 1024]

/-- UTF-16 as it arrives in a string of `char16_t`, a type whose streams cannot carry 0xFFFF: the replacement
character stands for U+FFFF. -/
def utf16c (cp : Nat) : List Nat := if cp = 0xFFFF then [0xFFFD] else utf16 cp

/-- UTF-32: the unit of a code point. -/
def utf32 (cp : Nat) : List Nat := [cp]

end Spec
