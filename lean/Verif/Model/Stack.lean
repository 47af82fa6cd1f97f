import Verif.Model.Api
/-!
# How deep the calls of the parser nest

The functions of the parser that call themselves are `do_parse` and the pair `skip_spaces` and `skip_comments`. The
functions here count how many calls of these three are active at the same time at most. All others call each other to a fixed
depth only. The results of the functions are those of `Model/Lexer` and `Model/Parser`, which these functions follow.
-/
namespace Configor
open Lexer

variable {S F : Type} (C : Cfg S F)

/-- Calls active during `skip_spaces()`, json.hpp:263-273, itself included: `skip_comments` is called for a comment
(json.hpp:271) and calls `skip_spaces` behind it (json.hpp:287, 317). `n` bounds the number of comments, as in `skipSpaces`. -/
def skipCalls : Nat → Lex S F → Nat
  | 0, _ => 0
  | n + 1, s =>
    match skipBlanks C C.bound s with
    | (.error _, _) => 1
    | (.ok _, s) =>
      if s.cur = 0x2F then
        match readNext C s with
        | (.error _, _) => 2
        | (.ok c, s) =>
          if c = 0x2F then
            match lineComment C C.bound s with
            | (.ok true, s) => 2 + skipCalls n s
            | _ => 2
          else if c = 0x2A then
            match blockComment C C.bound s with
            | (.ok _, s) => 2 + skipCalls n s
            | _ => 2
          else 2
      else 1

/-- Calls active during `scan()`, json.hpp:179-245. -/
def scanCalls (s : Lex S F) : Nat := skipCalls C C.bound s

/-- Calls within `do_parse` behind the first token `t`, parser.hpp:105-203, given those of the array loop and of the object
loop: other values are read without such calls. -/
def bodyCalls (t : Token) (array object : Nat) : Nat :=
  match t with
  | .beginArray => array
  | .beginObject => object
  | _ => 0

mutual
/-- Calls active during `do_parse`, parser.hpp:96-204, itself included; see `doParse`. -/
def doParseCalls : Nat → Option Token → Lex S F → Nat
  | 0, _, _ => 0
  | n + 1, some t, s => 1 + bodyCalls t (arrayCalls n s) (objectCalls n s)
  | n + 1, none, s =>
    1 + max (scanCalls C s)
      (match scan C s with
      | (.ok t, s) => bodyCalls t (arrayCalls n s) (objectCalls n s)
      | _ => 0)

/-- Calls within the array loop, parser.hpp:135-170; see `parseArray`. -/
def arrayCalls : Nat → Lex S F → Nat
  | 0, _ => 0
  | n + 1, s =>
    max (scanCalls C s)
      (match scan C s with
      | (.ok t, s) =>
        if t.startsValue then
          max (doParseCalls n (some t) s)
            (match doParse C n .null (some t) s with
            | (.ok _, s, _) =>
              max (scanCalls C s)
                (match scan C s with
                | (.ok t, s) => if t = .valueSeparator then arrayCalls n s else 0
                | _ => 0)
            | _ => 0)
        else 0
      | _ => 0)

/-- Calls within the object loop, parser.hpp:172-198; see `parseObject`. -/
def objectCalls : Nat → Lex S F → Nat
  | 0, _ => 0
  | n + 1, s =>
    max (scanCalls C s)
      (match scan C s with
      | (.ok t, s) =>
        if t = .valueString then
          match scanString C s with
          | (.ok _, s) =>
            max (scanCalls C s)
              (match scan C s with
              | (.ok t, s) =>
                if t = .nameSeparator then
                  max (doParseCalls n none s)
                    (match doParse C n .null none s with
                    | (.ok _, s, _) =>
                      max (scanCalls C s)
                        (match scan C s with
                        | (.ok t, s) => if t = .valueSeparator then objectCalls n s else 0
                        | _ => 0)
                    | _ => 0)
                else 0
              | _ => 0)
          | _ => 0
        else 0
      | _ => 0)
end

/-- Calls active during `json_parser::parse`, json.hpp:157-162 and parser.hpp:55-61. -/
def parseCalls (n : Nat) (s : Lex S F) : Nat :=
  match readNext C s with
  | (.error _, _) => 0
  | (.ok _, s) =>
    max (doParseCalls C n none s)
      (match doParse C n .null none s with
      | (.ok _, s, _) => scanCalls C s
      | _ => 0)

/-- Calls of `do_parse`, `skip_spaces` and `skip_comments` that are active at the same time during `parse(c, str, options)`,
parser.hpp:262-270, at most. -/
def jsonParseCalls (A : ParseArgs F) (str : List Nat) : Nat :=
  parseCalls (A.cfg (strSBuf A.sw) (2 * str.length + 4)) (2 * str.length + 4) (Lex.init (.ofBuf (.ofString str)) (A.fo.ofInt 0))

end Configor
