import Verif.Model.Api
/-!
# Other object types (include/configor/configor.hpp:51-52)

`value_tplargs::object_type` is a template parameter. The default is `std::map` (`Model/Parser.lean`); the tests use an
insertion-ordered map (tests/test_basic_config/test_basic.cpp:384-396). An object is the list of its members in the order
of iteration. The parser uses the object type only by `emplace`. `json::dump` uses it only by iteration, so that
`Model/Serializer.lean` is a model for every object type.
-/
namespace Configor
open Lexer

/-- `emplace` of an object type: what iteration gives afterwards. parser.hpp:189. -/
abbrev Emplace (F : Type) := List Nat → Value F → List (List Nat × Value F) → List (List Nat × Value F)

/-- `fifo_map::emplace`: a new key goes to the end. parser.hpp:189, tests/3rd-party/fifo_map/fifo_map.hpp:364-370. -/
def fifoEmplace {F : Type} : Emplace F := fun k v ms => if ms.any (fun m => m.1 == k) then ms else ms ++ [(k, v)]

/-- `std::unordered_map::emplace`, parser.hpp:189: the container places a new member, and may then give all of them another
order. -/
def hashEmplace {F : Type} (arrange : List (List Nat × Value F) → List (List Nat × Value F)) : Emplace F := fun k v ms =>
  if ms.any (fun m => m.1 == k) then ms else arrange ((k, v) :: ms)

variable {S F : Type} (C : Cfg S F) (ins : Emplace F)

mutual
/-- `do_parse`, parser.hpp:96-204. `c` is the initial content of the argument, `tok` the
token to use when `read_next` is false. With the object type `ins`. -/
def doParseO : Nat → Value F → Option Token → Lex S F → PRes S F
  | 0, c, _, s => (.error .fuel, s, c)
  | n + 1, c, tok, s =>
    match (match tok with | some t => (Except.ok t, s) | none => scan C s) with
    | (.error e, s) => (.error e, s, c)
    | (.ok t, s) =>
      match t with
      | .literalTrue => (.ok (), s, .bool true)
      | .literalFalse => (.ok (), s, .bool false)
      | .literalNull => (.ok (), s, .null)
      | .valueString => let r := scanString C s; (r.1, r.2, .str r.2.out.out)
      | .valueInteger => (.ok (), s, .int (getInteger s))
      | .valueFloat => (.ok (), s, .flt (getFloat C s))
      | .beginArray => parseArrayO n [] s
      | .beginObject => parseObjectO n [] s
      | _ => (.error (.exn .deserialization), s, c)

/-- The array loop, parser.hpp:135-170; `xs` are the elements so far. -/
def parseArrayO : Nat → List (Value F) → Lex S F → PRes S F
  | 0, xs, s => (.error .fuel, s, .arr xs)
  | n + 1, xs, s =>
    match scan C s with
    | (.error e, s) => (.error e, s, .arr xs)
    | (.ok t, s) =>
      if t.startsValue then
        match doParseO n .null (some t) s with
        | (.error e, s, v) => (.error e, s, .arr (xs ++ [v]))
        | (.ok _, s, v) =>
          match scan C s with
          | (.error e, s) => (.error e, s, .arr (xs ++ [v]))
          | (.ok t, s) =>
            if t = .valueSeparator then parseArrayO n (xs ++ [v]) s
            else if t = .endArray then (.ok (), s, .arr (xs ++ [v]))
            else (.error (.exn .deserialization), s, .arr (xs ++ [v]))
      else if t = .endArray then (.ok (), s, .arr xs)
      else (.error (.exn .deserialization), s, .arr xs)

/-- The object loop, parser.hpp:172-198; `ms` are the members so far. The key and the
member value are temporaries, so they are lost when an exception is thrown. -/
def parseObjectO : Nat → List (List Nat × Value F) → Lex S F → PRes S F
  | 0, ms, s => (.error .fuel, s, .obj ms)
  | n + 1, ms, s =>
    match scan C s with
    | (.error e, s) => (.error e, s, .obj ms)
    | (.ok t, s) =>
      if t = .valueString then
        match scanString C s with
        | (.error e, s) => (.error e, s, .obj ms)
        | (.ok _, s) =>
          let key := s.out.out
          match scan C s with
          | (.error e, s) => (.error e, s, .obj ms)
          | (.ok t, s) =>
            if t = .nameSeparator then
              match doParseO n .null none s with
              | (.error e, s, _) => (.error e, s, .obj ms)
              | (.ok _, s, v) =>
                let ms := ins key v ms
                match scan C s with
                | (.error e, s) => (.error e, s, .obj ms)
                | (.ok t, s) =>
                  if t = .valueSeparator then parseObjectO n ms s
                  else if t = .endObject then (.ok (), s, .obj ms)
                  else (.error (.exn .deserialization), s, .obj ms)
            else if t = .endObject then (.ok (), s, .obj ms)
            else (.error (.exn .deserialization), s, .obj ms)
      else if t = .endObject then (.ok (), s, .obj ms)
      else (.error (.exn .deserialization), s, .obj ms)
end

/-- The body of the `try` in `basic_parser::parse`, parser.hpp:59-61. -/
def parseBodyO (n : Nat) (c : Value F) (s : Lex S F) : PRes S F :=
  match doParseO C ins n c none s with
  | (.error e, s, v) => (.error e, s, v)
  | (.ok _, s, v) =>
    match scan C s with
    | (.error e, s) => (.error e, s, v)
    | (.ok t, s) =>
      if t = .endOfInput then (.ok (), s, v) else (.error (.exn .deserialization), s, v)

/-- `json_parser::parse`, json.hpp:157-162, with the object type `ins`. -/
def parseO (n : Nat) (h : Option Handler) (c : Value F) (s : Lex S F) : PRes S F :=
  match readNext C s with
  | (.error e, s) => (.error e, s, c)
  | (.ok _, s) => handled h (parseBodyO C ins n c s)

/-- `parse(c, is, options)`, parser.hpp:241-251, with the object type `ins`; see `parseFrom`. -/
def parseFromO {σ F : Type} (A : ParseArgs F) (ins : Emplace F) (B : SBuf σ) (n : Nat) (h : Option Handler) (c : Value F) (b : σ) :
    Outcome F :=
  let r := parseO (A.cfg B n) ins n h c (Lex.init (.ofBuf b) (A.fo.ofInt 0))
  (r.1, r.2.2)

/-- `parse(c, str, options)`, parser.hpp:262-270, with the object type `ins`; see `jsonParse`. -/
def jsonParseO {F : Type} (A : ParseArgs F) (ins : Emplace F) (h : Option Handler) (c : Value F) (str : List Nat) : Outcome F :=
  parseFromO A ins (strSBuf A.sw) (2 * str.length + 4) h c (.ofString str)

end Configor
