import Verif.Model.Api
import Verif.Model.Serializer
/-!
# `wrap`: values in stream expressions (include/configor/details/wrapper.hpp)
-/
namespace Configor

/-- The loop of `std::istream::sentry` that skips white space (libstdc++, istream.tcc:60-66;
`snextc` is `sbumpc` and then `sgetc`). `sp` says which characters are white space in the
stream's locale, `c` is the current character. `n` bounds the loop. `none`: the buffer threw. -/
def skipWs {σ : Type} (B : SBuf σ) (sp : Int → Bool) : Nat → Int → σ → Except Stop (Option Int × σ)
  | 0, _, _ => .error .fuel
  | n + 1, c, b =>
    if c ≠ -1 && sp c then
      if B.throws b then .ok (none, b) else
      let r := B.sbumpc b
      if r.1 = -1 then skipWs B sp n (-1) r.2
      else
        if B.throws r.2 then .ok (none, r.2) else
        let q := B.sgetc r.2
        skipWs B sp n q.1 q.2
    else .ok (some c, b)

/-- `std::istream::sentry s(in)` with `skipws` set, as in a new stream (istream.tcc:44-90):
whether the operation goes on, and the stream. An exception is caught and sets badbit. -/
def sentry {σ : Type} (B : SBuf σ) (sp : Int → Bool) (n : Nat) (s : IStream σ) :
    Except Stop (Bool × IStream σ) :=
  if s.good then
    if B.throws s.sb then .ok (false, s.setFail) else
    let q := B.sgetc s.sb
    match skipWs B sp n q.1 q.2 with
    | .error e => .error e
    | .ok (none, b) => .ok (false, { s with sb := b, failb := true })
    | .ok (some c, b) => if c = -1 then .ok (false, ⟨b, true, true⟩) else .ok (true, { s with sb := b })
  else .ok (false, s.setFail)

/-- `in >> json::wrap(v)` for a value `v`, wrapper.hpp:131-143: how the expression ends, `v`
and the stream afterwards. The parser reads from the stream's buffer through a stream of its
own (parser.hpp:46-47), so the flags of `in` do not change. -/
def extract {σ F : Type} (A : ParseArgs F) (B : SBuf σ) (sp : Int → Bool) (n : Nat) (v : Value F)
    (s : IStream σ) : Except Stop Unit × Value F × IStream σ :=
  match sentry B sp n s with
  | .error e => (.error e, v, s)
  | .ok (false, s) => (.ok (), v, s)
  | .ok (true, s) =>
    let r := parse (A.cfg B n) n none v (Lex.init (.ofBuf s.sb) (A.fo.ofInt 0))
    (r.1, r.2.2, { s with sb := r.2.1.is.sb })

/-- `in >> json::wrap(x)` for an object `x` of another type, wrapper.hpp:99-112: parse into a
new value, `get<T>()` that (`get`), assign. -/
def extractAs {σ F α : Type} (A : ParseArgs F) (B : SBuf σ) (sp : Int → Bool) (n : Nat)
    (get : Value F → Except Stop α) (x : α) (s : IStream σ) : Except Stop Unit × α × IStream σ :=
  match sentry B sp n s with
  | .error e => (.error e, x, s)
  | .ok (false, s) => (.ok (), x, s)
  | .ok (true, s) =>
    let r := parse (A.cfg B n) n none .null (Lex.init (.ofBuf s.sb) (A.fo.ofInt 0))
    let s := { s with sb := r.2.1.is.sb }
    match r.1 with
    | .error e => (.error e, x, s)
    | .ok _ =>
      match get r.2.2 with
      | .error e => (.error e, x, s)
      | .ok y => (.ok (), y, s)

/-- An output stream whose buffer takes everything: what it was given so far, the width and fill
character set, and whether no flag is set. For wrapper.hpp:43, 71. -/
structure OutStream where
  text : List Nat
  width : Nat
  fill : Nat
  good : Bool

/-- `out << json::wrap(v)` for a value `v`, wrapper.hpp:71-79, with json.hpp:716-726: the
width is set to 0. A sentry is true if the stream is good; flushing tied streams is not modelled.
The serializer writes to the buffer through a stream of its own (serializer.hpp:47-48), so the
flags of `out` do not change. -/
def insert {F : Type} (se : Enc) (sw : Nat) (te : Enc) (tw : Nat) (fo : FloatOps F) (v : Value F)
    (out : OutStream) : Except Stop Unit × OutStream :=
  if out.good then
    let r := jsonDump (.ofStream se sw te tw out.width out.fill fo) none out.text v
    (r.1, { out with text := r.2, width := 0 })
  else (.ok (), out)

/-- `out << json::wrap(x)` for an object `x` of another type, wrapper.hpp:43-51: `x` is converted to
a value (`toValue`) first. -/
def insertAs {F α : Type} (se : Enc) (sw : Nat) (te : Enc) (tw : Nat) (fo : FloatOps F)
    (toValue : α → Except Stop (Value F)) (x : α) (out : OutStream) : Except Stop Unit × OutStream :=
  if out.good then
    match toValue x with
    | .error e => (.error e, out)
    | .ok v => insert se sw te tw fo v out
  else (.ok (), out)

end Configor
