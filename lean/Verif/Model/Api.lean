import Verif.Model.Parser
/-!
# `parsable`: the entry points for parsing (include/configor/details/parser.hpp:224-315)
-/
namespace Configor

/-- The parameters of a call of `json::parse`: source encoding and width of the source
character type, target encoding and width of the target character type, whether asserts
are on, and the floating type. parser.hpp:241-305, json.hpp:80-141. -/
structure ParseArgs (F : Type) where
  se : Enc
  sw : Nat
  te : Enc
  tw : Nat
  debug : Bool
  fo : FloatOps F

/-- The scanner configuration of a call that reads from a buffer of kind `B`; `n` bounds
the loops. json.hpp:143-155. -/
def ParseArgs.cfg {σ F : Type} (A : ParseArgs F) (B : SBuf σ) (n : Nat) : Cfg (IStream σ) F where
  src := istreamSrc A.se A.sw B
  enc := A.te.encode A.tw
  w := A.sw
  debug := A.debug
  bound := n
  fo := A.fo

/-- How a call of `json::parse(c, source, ...)` ends and what `c` is afterwards. parser.hpp:241-305. -/
abbrev Outcome (F : Type) := Except Stop Unit × Value F

/-- `parse(c, is, options)`, parser.hpp:241-251, for a stream whose buffer is in state `b`.
The parser reads through a new `istream` on that buffer (parser.hpp:46-47).
`n` bounds the loops of the model. -/
def parseFrom {σ F : Type} (A : ParseArgs F) (B : SBuf σ) (n : Nat) (h : Option Handler)
    (c : Value F) (b : σ) : Outcome F :=
  let r := parse (A.cfg B n) n h c (Lex.init (.ofBuf b) (A.fo.ofInt 0))
  (r.1, r.2.2)

/-- `parse(c, str, options)`, parser.hpp:262-270 (a `std::basic_string`). The loop bound is
enough for every text of this length (`C10_parse_terminates`). -/
def jsonParse {F : Type} (A : ParseArgs F) (h : Option Handler) (c : Value F) (str : List Nat) :
    Outcome F :=
  parseFrom A (strSBuf A.sw) (2 * str.length + 4) h c (.ofString str)

/-- `parse(c, ptr, options)`, parser.hpp:281-288 (a C string; `mem` is the memory from the
pointer on). -/
def parseCString {F : Type} (A : ParseArgs F) (h : Option Handler) (c : Value F) (mem : List Nat) :
    Outcome F :=
  parseFrom A (strSBuf A.sw) (2 * mem.length + 4) h c (.ofCString mem)

/-- `parse(c, file, options)`, parser.hpp:299-305, on a `std::FILE` whose remaining characters
are `text`. -/
def parseFile {F : Type} (A : ParseArgs F) (h : Option Handler) (c : Value F) (text : List Nat) :
    Outcome F :=
  parseFrom A (cacheSBuf fgetc) (2 * text.length + 4) h c ⟨text, 0⟩

/-- `parse(c, file, options)`, parser.hpp:299-305, on a `std::FILE` whose remaining characters
are `text`, of which only the first `k` can be read. -/
def parseBadFile {F : Type} (A : ParseArgs F) (h : Option Handler) (c : Value F) (text : List Nat) (k : Nat) :
    Outcome F :=
  parseFrom A (cacheSBuf fgetcErr) (2 * text.length + 4) h c ⟨(text, k), 0⟩

/-- `parse(c, is, options)`, parser.hpp:241-251, where `is` is an `iadapterstream`
(stream.hpp:137-198) on an adapter that delivers `text` and then `'\0'`. Such a call need not
end, so the loop bound is an argument. -/
def parseAdapter {F : Type} (A : ParseArgs F) (h : Option Handler) (c : Value F) (text : List Nat)
    (n : Nat) : Outcome F :=
  parseFrom A (cacheSBuf (adapterRead A.sw)) n h c ⟨text, 0⟩

/-- The same where the adapter throws instead of delivering a character behind the text. -/
def parseThrowing {F : Type} (A : ParseArgs F) (h : Option Handler) (c : Value F) (text : List Nat) (n : Nat) :
    Outcome F :=
  parseFrom A (throwingSBuf (adapterRead A.sw) List.isEmpty) n h c ⟨text, 0⟩

end Configor
