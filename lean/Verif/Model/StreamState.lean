import Verif.Model.Api
/-!
# Options of `parse`, and what `parse` and `dump` do to the locale of a stream
-/
namespace Configor

/-- Options of `json_parser`, json.hpp:114-141; a handler may be null. -/
inductive ParseOption where
  | handler (h : Option Handler)
  | encoding (e : Enc)
  | sourceEncoding (e : Enc)
  | targetEncoding (e : Enc)

/-- What a parser is set to, parser.hpp:75-91, 211-216: the encodings and its error handler. -/
structure ParseSettings (F : Type) where
  args : ParseArgs F
  handler : Option Handler

namespace ParseSettings
variable {F : Type}

/-- Applying an option, json.hpp:116-141. -/
def apply (s : ParseSettings F) : ParseOption → ParseSettings F
  | .handler h => { s with handler := h }
  | .encoding e => { s with args := { s.args with se := e, te := e } }
  | .sourceEncoding e => { s with args := { s.args with se := e } }
  | .targetEncoding e => { s with args := { s.args with te := e } }

/-- `prepare`, json.hpp:152-155. -/
def prepare (s : ParseSettings F) (opts : List ParseOption) : ParseSettings F := opts.foldl apply s

end ParseSettings

/-- `parse(c, is, options)`, parser.hpp:242-251, for a stream whose buffer is in state `b`; the encodings of `A` are the default ones. -/
def parseWith {σ F : Type} (A : ParseArgs F) (B : SBuf σ) (n : Nat) (opts : List ParseOption) (c : Value F) (b : σ) : Outcome F :=
  let s := ParseSettings.prepare ⟨A, none⟩ opts
  parseFrom s.args B n s.handler c b

/-- `json::parse(c, str, options)`, parser.hpp:261-270. -/
def jsonParseWith {F : Type} (A : ParseArgs F) (opts : List ParseOption) (c : Value F) (str : List Nat) : Outcome F :=
  parseWith A (strSBuf A.sw) (2 * str.length + 4) opts c (.ofString str)

/-- A locale: which facets there are for each category. `codecvt`, which file buffers use to convert, belongs to `ctype`. Used at
serializer.hpp:54, parser.hpp:52. -/
structure Locale where
  collate : Nat
  ctype : Nat
  monetary : Nat
  numeric : Nat
  time : Nat
  messages : Nat
  deriving DecidableEq

/-- `std::locale(base, other, std::locale::collate | std::locale::ctype)`, serializer.hpp:54, parser.hpp:52. -/
def Locale.with (base other : Locale) : Locale := { base with collate := other.collate, ctype := other.ctype }

/-- `std::locale::classic()`, serializer.hpp:54, parser.hpp:52. -/
def Locale.classic : Locale := ⟨0, 0, 0, 0, 0, 0⟩

/-- A file buffer that any number of streams write to: the locale of each stream, that of the buffer, and the bytes in the file. For
serializer.hpp:47-55, parser.hpp:45-53. -/
structure Shared where
  own : Nat → Locale
  buffer : Locale
  bytes : List Nat

/-- Uses of the stream `x`: `imbue(l)`, `write` of a text, `json::dump` of a value whose text is `t` (serializer.hpp:222-232), and `json::parse`
(parser.hpp:242-251). What is read is not modelled. -/
inductive StreamUse where
  | imbue (x : Nat) (l : Locale)
  | write (x : Nat) (t : List Nat)
  | dump (x : Nat) (t : List Nat)
  | parse (x : Nat)

namespace Shared

/-- The constructors of the serializer and of the parser, serializer.hpp:47-55, parser.hpp:45-53: they make a stream on the same buffer
and call `imbue`, which calls `pubimbue` of the buffer ([basic.ios.members]). Nothing puts the locale back. -/
def taken (s : Shared) (x : Nat) : Shared := { s with buffer := Locale.classic.with (s.own x) }

/-- A text goes to the file, converted (`conv`) by the `codecvt` of the buffer's locale. For json.hpp:965-973. -/
def put (conv : Nat → List Nat → List Nat) (s : Shared) (t : List Nat) : Shared := { s with bytes := s.bytes ++ conv s.buffer.ctype t }

/-- One use. `imbue` of a stream sets its locale and that of the buffer. For serializer.hpp:54. -/
def step (conv : Nat → List Nat → List Nat) (s : Shared) : StreamUse → Shared
  | .imbue x l => { s with own := fun y => if y = x then l else s.own y, buffer := l }
  | .write _ t => s.put conv t
  | .dump x t => (s.taken x).put conv t
  | .parse x => s.taken x

/-- Several uses. For serializer.hpp:54. -/
def run (conv : Nat → List Nat → List Nat) (s : Shared) (us : List StreamUse) : Shared := us.foldl (step conv) s

end Shared
end Configor
