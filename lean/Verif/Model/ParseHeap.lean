import Verif.Model.Api
import Verif.Model.Heap
/-!
# Parsing into memory (include/configor/details/parser.hpp, include/configor/json.hpp)

`do_parse` as in `Model/Parser.lean`, but it works on a value in memory: it assigns to the value, lets its string grow,
appends to its vector and copies members into its map, and every allocation may fail.
-/
namespace Configor
open Lexer

variable {S F : Type} (C : Cfg S F)

/-! ## Strings that cannot grow -/

/-- A `std::string` behind an output stream that has room for `room` characters: the `push_back` in `overflow`
(stream.hpp:225-232) throws for the next one, `std::basic_ostream` catches that and sets `badbit`, and from then on nothing
is written. `none` is a string that grows as needed. -/
def OStream.within (room : Option Nat) (o : OStream) : OStream :=
  match room with
  | none => o
  | some k => if o.out.length ≤ k then o else ⟨o.out.take k, true⟩

namespace Lexer

/-- `target_encoder_(oss, cp)` and the check of `oss`, json.hpp:454-458, 472-476; see `putCp`. -/
def putCpIn (room : Option Nat) (cp : Nat) : L S F Unit := do
  M.modify fun s => { s with out := (C.enc s.out cp).within room }
  if (← M.gets fun s => s.out.good) then pure () else fail

/-- `oss << ch` for an ASCII character. There is no check. json.hpp:409-430; see `putAscii`. -/
def putAsciiIn (room : Option Nat) (c : Nat) : L S F Unit :=
  M.modify fun s => { s with out := (s.out.put c).within room }

/-- The `'u'` case of an escape, json.hpp:432-460; see `scanUnicodeEscape`. -/
def scanUnicodeEscapeIn (room : Option Nat) : L S F Unit := do
  let cp ← readEscaped C
  if isLead cp then
    let a ← readNext C
    if a != 0x5C then fail
    else
      let b ← readNext C
      if b != 0x75 then fail
      else
        let tr ← readEscaped C
        if !isTrail tr then fail
        else putCpIn C room (decodeSurrogates cp tr)
  else putCpIn C room cp

/-- The escape after a backslash, json.hpp:403-468; see `scanEscape`. -/
def scanEscapeIn (room : Option Nat) : L S F Unit := do
  let c ← readNext C
  if c == 0x22 then putAsciiIn room 0x22
  else if c == 0x5C then putAsciiIn room 0x5C
  else if c == 0x2F then putAsciiIn room 0x2F
  else if c == 0x62 then putAsciiIn room 0x08
  else if c == 0x66 then putAsciiIn room 0x0C
  else if c == 0x6E then putAsciiIn room 0x0A
  else if c == 0x72 then putAsciiIn room 0x0D
  else if c == 0x74 then putAsciiIn room 0x09
  else if c == 0x75 then scanUnicodeEscapeIn C room
  else fail

/-- The loop of `scan_string`, json.hpp:350-479; see `stringLoop`. -/
def stringLoopIn (room : Option Nat) : Nat → L S F Unit
  | 0 => M.stop .fuel
  | n + 1 => do
    let c ← readNext C
    if (← eof C) then fail
    else if c == 0x22 then
      let _ ← readNext C
      pure ()
    else if c ≤ 0x1F then fail
    else if c == 0x5C then
      scanEscapeIn C room
      stringLoopIn room n
    else
      putCpIn C room c
      stringLoopIn room n

/-- `scan_string`, json.hpp:344-480, writing to a fresh string; see `scanString`. -/
def scanStringIn (room : Option Nat) : L S F Unit := do
  M.modify fun s => { s with out := .ofString [] }
  assert C ((← cur) == 0x22)
  stringLoopIn C room C.bound

end Lexer

/-! ## Memory operations of the parser -/

/-- How far the next string can grow: without limit, or, if its allocation fails, up to the length `room` gives for that
allocation. (Simplification: the allocations of one string are counted as one. After one has failed there are no more of
them.) json.hpp:344-480, stream.hpp:225-232. -/
def nextRoom (room : Nat → Nat) (h : Heap F) : Option Nat × Heap F :=
  (if h.plan h.tick then none else some (room h.tick), { h with tick := h.tick + 1 })

/-- How parsing ended, the scanner and the memory. parser.hpp:96-204. -/
abbrev HRes (S F α : Type) := Except Stop α × Lex S F × State F

/-- A memory operation in the parser. Model infrastructure for parser.hpp:96-204. -/
def HRes.of {α : Type} (s : Lex S F) (r : Except Stop α × State F) : HRes S F α := (r.1, s, r.2)

/-- `c.data().vector->push_back(_ValTy())`, `c.data().vector->back()`, parser.hpp:161-162: a new null element; the result is
its place. The temporary null is not modelled. -/
def State.grow (dst : Loc) : M (State F) Loc := do
  match (← State.read dst) with
  | .arr a => do
    onHeap Heap.attempt
    let cs ← onHeap (Heap.vector a)
    onHeap (Heap.put a (.arr (cs ++ [.null])))
    pure (.slot a cs.length)
  | _ => M.stop .ub

/-- `c.data().object->emplace(key, object)`, parser.hpp:189: a node with copies of both is made first, and thrown away if
the key is there already. -/
def State.emplace (dst : Loc) (key : List Nat) (src : Loc) : M (State F) Unit := do
  match (← State.read dst) with
  | .obj a => do
    onHeap Heap.attempt
    let c ← State.read src
    let n ← M.gets State.depth
    let c' ← onHeap (Heap.copy n c)
    let ms ← onHeap (Heap.map a)
    if (Map.find key ms).isSome then
      let n ← M.gets State.depth
      onHeap (Heap.destroy n c')
    else onHeap (Heap.put a (.obj (Map.emplace key c' ms)))
  | _ => M.stop .ub

/-- `get_string(*c.data().string)`, parser.hpp:121, json.hpp:174-177. -/
def getStringH (room : Nat → Nat) (dst : Loc) (s : Lex S F) (st : State F) : HRes S F Unit :=
  match State.read dst st with
  | (.ok (.str a), st) =>
    let w := nextRoom room st.heap
    let r := scanStringIn C w.1 s
    match State.onHeap (Heap.put a (.str r.2.out.out)) { st with heap := w.2 } with
    | (.ok _, st) => (r.1, r.2, st)
    | (.error e, st) => (.error e, r.2, st)
  | (.ok _, st) => (.error .ub, s, st)
  | (.error e, st) => (.error e, s, st)

/-- `string_type key{}; get_string(key);`, parser.hpp:179-180. The key is in the scanner's `out` afterwards. -/
def getKeyH (room : Nat → Nat) (s : Lex S F) (st : State F) : HRes S F Unit :=
  let w := nextRoom room st.heap
  let r := scanStringIn C w.1 s
  (r.1, r.2, { st with heap := w.2 })

/-- `c = value_constant::integer; get_integer(c.data().integer);` and the same for floats, parser.hpp:124-132. -/
def numberH (dst : Loc) (v : Value F) (c : Cell F) : M (State F) Unit := do
  State.become dst v
  State.write dst c

/-- The rest of the block with the local value `object` after `do_parse(object, token)`, parser.hpp:189-192. -/
def afterMember (l : Loc) (key : List Nat) (k : Nat) (r : HRes S F Unit) : HRes S F Token :=
  match r with
  | (.error e, s, st) => (.error e, s, st)
  | (.ok _, s, st) =>
    match State.emplace l key (.var (.user k)) st with
    | (.error e, st) => (.error e, s, st)
    | (.ok _, st) =>
      match scan C s with
      | (.error e, s) => (.error e, s, st)
      | (.ok t, s) => (.ok t, s, st)

/-- The end of the block with the local value `object`, parser.hpp:187-195: its destructor is called, also when an
exception leaves the block. -/
def leaving (k : Nat) (r : HRes S F Token) : HRes S F Token :=
  match State.destruct (.user k) r.2.2 with
  | (.ok _, st) => (r.1, r.2.1, st)
  | (.error e, st) => (.error e, r.2.1, st)

mutual
/-- `do_parse`, parser.hpp:96-204, on the value at a place. Local values are the variables from number `k` on. -/
def doParseH (room : Nat → Nat) : Nat → Nat → Loc → Option Token → Lex S F → State F → HRes S F Unit
  | 0, _, _, _, s, st => (.error .fuel, s, st)
  | n + 1, k, l, tok, s, st =>
    match (match tok with | some t => (Except.ok t, s) | none => scan C s) with
    | (.error e, s) => (.error e, s, st)
    | (.ok t, s) =>
      match t with
      | .literalTrue => .of s (State.become l (.bool true) st)
      | .literalFalse => .of s (State.become l (.bool false) st)
      | .literalNull => .of s (State.become l .null st)
      | .valueString =>
        match State.become l (.str []) st with
        | (.error e, st) => (.error e, s, st)
        | (.ok _, st) => getStringH C room l s st
      | .valueInteger => .of s (numberH l (.int 0) (.int (getInteger s)) st)
      | .valueFloat => .of s (numberH l (.flt (C.fo.ofInt 0)) (.flt (getFloat C s)) st)
      | .beginArray =>
        match State.become l (.arr []) st with
        | (.error e, st) => (.error e, s, st)
        | (.ok _, st) => parseArrayH room n k l s st
      | .beginObject =>
        match State.become l (.obj []) st with
        | (.error e, st) => (.error e, s, st)
        | (.ok _, st) => parseObjectH room n k l s st
      | _ => (.error (.exn .deserialization), s, st)

/-- The array loop, parser.hpp:135-170. -/
def parseArrayH (room : Nat → Nat) : Nat → Nat → Loc → Lex S F → State F → HRes S F Unit
  | 0, _, _, s, st => (.error .fuel, s, st)
  | n + 1, k, l, s, st =>
    match scan C s with
    | (.error e, s) => (.error e, s, st)
    | (.ok t, s) =>
      if t.startsValue then
        match State.grow l st with
        | (.error e, st) => (.error e, s, st)
        | (.ok l', st) =>
          match doParseH room n k l' (some t) s st with
          | (.error e, s, st) => (.error e, s, st)
          | (.ok _, s, st) =>
            match scan C s with
            | (.error e, s) => (.error e, s, st)
            | (.ok t, s) =>
              if t = .valueSeparator then parseArrayH room n k l s st
              else if t = .endArray then (.ok (), s, st)
              else (.error (.exn .deserialization), s, st)
      else if t = .endArray then (.ok (), s, st)
      else (.error (.exn .deserialization), s, st)

/-- The object loop, parser.hpp:172-198. The local value `object` is variable `k`. -/
def parseObjectH (room : Nat → Nat) : Nat → Nat → Loc → Lex S F → State F → HRes S F Unit
  | 0, _, _, s, st => (.error .fuel, s, st)
  | n + 1, k, l, s, st =>
    match scan C s with
    | (.error e, s) => (.error e, s, st)
    | (.ok t, s) =>
      if t = .valueString then
        match getKeyH C room s st with
        | (.error e, s, st) => (.error e, s, st)
        | (.ok _, s, st) =>
          let key := s.out.out
          match scan C s with
          | (.error e, s) => (.error e, s, st)
          | (.ok t, s) =>
            if t = .nameSeparator then
              match leaving k (afterMember C l key k
                  (doParseH room n (k + 1) (.var (.user k)) none s { st with vars := upd st.vars (.user k) (some .null) })) with
              | (.error e, s, st) => (.error e, s, st)
              | (.ok t, s, st) =>
                if t = .valueSeparator then parseObjectH room n k l s st
                else if t = .endObject then (.ok (), s, st)
                else (.error (.exn .deserialization), s, st)
            else if t = .endObject then (.ok (), s, st)
            else (.error (.exn .deserialization), s, st)
      else if t = .endObject then (.ok (), s, st)
      else (.error (.exn .deserialization), s, st)
end

/-- The body of the `try` in `basic_parser::parse`, parser.hpp:59-61. -/
def parseBodyH (room : Nat → Nat) (n k : Nat) (l : Loc) (s : Lex S F) (st : State F) : HRes S F Unit :=
  match doParseH C room n k l none s st with
  | (.error e, s, st) => (.error e, s, st)
  | (.ok _, s, st) =>
    match scan C s with
    | (.error e, s) => (.error e, s, st)
    | (.ok t, s) => if t = .endOfInput then (.ok (), s, st) else (.error (.exn .deserialization), s, st)

/-- `basic_parser::parse`, parser.hpp:55-70: the handler sees the exceptions of the body. -/
def handledH (h : Option Handler) (r : HRes S F Unit) : HRes S F Unit :=
  match r, h with
  | (.error (.exn e), s, st), some h => if h.swallows e then (.ok (), s, st) else (.error (.exn e), s, st)
  | r, _ => r

/-- `json_parser::parse`, json.hpp:157-162. -/
def parseH (room : Nat → Nat) (n k : Nat) (h : Option Handler) (l : Loc) (s : Lex S F) (st : State F) : HRes S F Unit :=
  match readNext C s with
  | (.error e, s) => (.error e, s, st)
  | (.ok _, s) => handledH h (parseBodyH C room n k l s st)

/-- `parse(c, is, options)`, parser.hpp:241-251, where `c` is a part of a variable and the buffer of the stream is in state
`b`; see `parseFrom`. `k` is the number of the first variable for local values, `n` bounds the loops. -/
def parseFromH {σ F : Type} (A : ParseArgs F) (B : SBuf σ) (n : Nat) (h : Option Handler) (room : Nat → Nat) (k : Nat)
    (x : Nat) (p : List Nat) (b : σ) : M (State F) Unit := do
  let l ← State.ref (.user x) p
  fun st =>
    let r := parseH (A.cfg B n) room n k h l (Lex.init (.ofBuf b) (A.fo.ofInt 0)) st
    (r.1, r.2.2)

/-- `value_type c; parse(c, is, options); return c;`, parser.hpp:253-260, where the result becomes variable `x`. -/
def parseNewH {σ F : Type} (A : ParseArgs F) (B : SBuf σ) (n : Nat) (h : Option Handler) (room : Nat → Nat) (k : Nat)
    (x : Nat) (b : σ) : M (State F) Unit := do
  State.declare (.user x) .null
  fun st =>
    match parseFromH A B n h room k x [] b st with
    | (.ok _, st) => (.ok (), st)
    | (.error e, st) =>
      match State.destruct (.user x) st with
      | (.ok _, st) => (.error e, st)
      | (.error e', st) => (.error e', st)

end Configor
