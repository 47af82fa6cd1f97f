import Verif.Model.Lexer
import Verif.Model.Value
/-!
# `basic_parser` (include/configor/details/parser.hpp)

`do_parse` fills its argument in place, so the model returns the content of the
argument also when an exception is thrown.
-/
namespace Configor
open Lexer

variable {S F : Type} (C : Cfg S F)

/-- Result of `do_parse(c, ...)`: how it ended, the scanner state, and the content of `c`.
parser.hpp:96-204. -/
abbrev PRes (S F : Type) := Except Stop Unit × Lex S F × Value F

/-- Tokens that start a value, parser.hpp:144-156. -/
def Token.startsValue : Token → Bool
  | .literalTrue | .literalFalse | .literalNull | .valueString | .valueInteger | .valueFloat
  | .beginArray | .beginObject => true
  | _ => false

/-- `get_integer`, json.hpp:164-167. -/
def getInteger (s : Lex S F) : Int := if s.neg then -s.numI else s.numI

/-- `get_float`, json.hpp:169-172. -/
def getFloat (s : Lex S F) : F := if s.neg then C.fo.neg s.numF else s.numF

mutual
/-- `do_parse`, parser.hpp:96-204. `c` is the initial content of the argument, `tok` the
token to use when `read_next` is false. -/
def doParse : Nat → Value F → Option Token → Lex S F → PRes S F
  | 0, c, _, s => (.error .fuel, s, c)
  | n + 1, c, tok, s =>
    match (match tok with | some t => (Except.ok t, s) | none => scan C s) with
    | (.error e, s) => (.error e, s, c)
    | (.ok t, s) =>
      match t with
      | .literalTrue => (.ok (), s, .bool true)
      | .literalFalse => (.ok (), s, .bool false)
      | .literalNull => (.ok (), s, .null)
      | .valueString => let r := scanString C s; (r.1, r.2, .str r.2.out.out)
      | .valueInteger => (.ok (), s, .int (getInteger s))
      | .valueFloat => (.ok (), s, .flt (getFloat C s))
      | .beginArray => parseArray n [] s
      | .beginObject => parseObject n [] s
      | _ => (.error (.exn .deserialization), s, c)

/-- The array loop, parser.hpp:135-170; `xs` are the elements so far. -/
def parseArray : Nat → List (Value F) → Lex S F → PRes S F
  | 0, xs, s => (.error .fuel, s, .arr xs)
  | n + 1, xs, s =>
    match scan C s with
    | (.error e, s) => (.error e, s, .arr xs)
    | (.ok t, s) =>
      if t.startsValue then
        match doParse n .null (some t) s with
        | (.error e, s, v) => (.error e, s, .arr (xs ++ [v]))
        | (.ok _, s, v) =>
          match scan C s with
          | (.error e, s) => (.error e, s, .arr (xs ++ [v]))
          | (.ok t, s) =>
            if t = .valueSeparator then parseArray n (xs ++ [v]) s
            else if t = .endArray then (.ok (), s, .arr (xs ++ [v]))
            else (.error (.exn .deserialization), s, .arr (xs ++ [v]))
      else if t = .endArray then (.ok (), s, .arr xs)
      else (.error (.exn .deserialization), s, .arr xs)

/-- The object loop, parser.hpp:172-198; `ms` are the members so far. The key and the
member value are temporaries, so they are lost when an exception is thrown. -/
def parseObject : Nat → Map.T (Value F) → Lex S F → PRes S F
  | 0, ms, s => (.error .fuel, s, .obj ms)
  | n + 1, ms, s =>
    match scan C s with
    | (.error e, s) => (.error e, s, .obj ms)
    | (.ok t, s) =>
      if t = .valueString then
        match scanString C s with
        | (.error e, s) => (.error e, s, .obj ms)
        | (.ok _, s) =>
          let key := s.out.out
          match scan C s with
          | (.error e, s) => (.error e, s, .obj ms)
          | (.ok t, s) =>
            if t = .nameSeparator then
              match doParse n .null none s with
              | (.error e, s, _) => (.error e, s, .obj ms)
              | (.ok _, s, v) =>
                let ms := Map.emplace key v ms
                match scan C s with
                | (.error e, s) => (.error e, s, .obj ms)
                | (.ok t, s) =>
                  if t = .valueSeparator then parseObject n ms s
                  else if t = .endObject then (.ok (), s, .obj ms)
                  else (.error (.exn .deserialization), s, .obj ms)
            else if t = .endObject then (.ok (), s, .obj ms)
            else (.error (.exn .deserialization), s, .obj ms)
      else if t = .endObject then (.ok (), s, .obj ms)
      else (.error (.exn .deserialization), s, .obj ms)
end

/-- The body of the `try` in `basic_parser::parse`, parser.hpp:59-61. -/
def parseBody (n : Nat) (c : Value F) (s : Lex S F) : PRes S F :=
  match doParse C n c none s with
  | (.error e, s, v) => (.error e, s, v)
  | (.ok _, s, v) =>
    match scan C s with
    | (.error e, s) => (.error e, s, v)
    | (.ok t, s) =>
      if t = .endOfInput then (.ok (), s, v) else (.error (.exn .deserialization), s, v)

/-- Error handlers, exception.hpp:100-156: `handle` either swallows or rethrows.
`swallows e` says whether the handler swallows an exception of class `e`
(`error_handler_with<ignore>`, `<record>`: all library exceptions; `<strict>`: none). -/
structure Handler where
  swallows : Err → Bool

/-- `basic_parser::parse`, parser.hpp:55-70: the handler sees the exceptions of the body. -/
def handled (h : Option Handler) (r : PRes S F) : PRes S F :=
  match r, h with
  | (.error (.exn e), s, v), some h => if h.swallows e then (.ok (), s, v) else (.error (.exn e), s, v)
  | r, _ => r

/-- `json_parser::parse`, json.hpp:157-162: the first `read_next` is outside the `try`. -/
def parse (n : Nat) (h : Option Handler) (c : Value F) (s : Lex S F) : PRes S F :=
  match readNext C s with
  | (.error e, s) => (.error e, s, c)
  | (.ok _, s) => handled h (parseBody C n c s)

/-- A new `json_parser` on a stream, json.hpp:143-150. `numF` starts as `0`. -/
def Lex.init (is : S) (zero : F) : Lex S F := ⟨is, 0, false, 0, zero, .ofString []⟩

end Configor
