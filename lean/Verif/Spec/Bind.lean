import Verif.Model.Preproc
/-!
# What `CONFIGOR_BIND` is to become

The functions one would write by hand for a list of fields, as tokens.
-/
set_option autoImplicit false

namespace Configor.Spec
open Preproc

/-- Tokens with matching parentheses. -/
inductive Matched : List Text → Prop
  | nil : Matched []
  | tok {t : Text} {ts : List Text} (h1 : t ≠ lparen) (h2 : t ≠ rparen) (h : Matched ts) : Matched (t :: ts)
  | group {g ts : List Text} (hg : Matched g) (h : Matched ts) : Matched (lparen :: (g ++ rparen :: ts))

/-- The tokens of a macro argument: parentheses match and all commas are inside of them. -/
inductive Argument : List Text → Prop
  | nil : Argument []
  | tok {t : Text} {ts : List Text} (h1 : t ≠ lparen) (h2 : t ≠ rparen) (h3 : t ≠ comma) (h : Argument ts) : Argument (t :: ts)
  | group {g ts : List Text} (hg : Matched g) (h : Argument ts) : Argument (lparen :: (g ++ rparen :: ts))

/-- `REQUIRED(field)`, `REQUIRED(field, name)`, `OPTIONAL(field)` or `OPTIONAL(field, name)`. -/
structure Bound where
  optional : Bool
  field : List Text
  name : Option (List Text)

namespace Bound

/-- How it is written. -/
def source (b : Bound) : List Text :=
  (if b.optional then text! "OPTIONAL" else text! "REQUIRED") :: lparen :: (b.field ++ ((match b.name with
    | none => []
    | some n => comma :: n) ++ [rparen]))

/-- The key: the name, or the field in quotes. -/
def key (b : Bound) : List Text :=
  match b.name with
  | none => [stringize b.field]
  | some n => n

/-- The statement that stores the field: `c[key].operator=(v.field);`, for an optional field only if it is not the default. -/
def store (b : Bound) : List Text :=
  let set := toks! "c[" ++ b.key ++ toks! "].operator=(v." ++ b.field ++ toks! ");"
  if b.optional then toks! "if (v." ++ b.field ++ toks! "!= decltype(v." ++ b.field ++ toks! "){}) {" ++ set ++ toks! "}" else set

/-- The statement that loads the field: `c.at(key).get(v.field);`, for an optional field only if the key is there. -/
def load (b : Bound) : List Text :=
  let get := toks! "c.at(" ++ b.key ++ toks! ").get(v." ++ b.field ++ toks! ");"
  if b.optional then toks! "if (c.count(" ++ b.key ++ toks! ")) {" ++ get ++ toks! "}" else get

end Bound

/-- `CONFIGOR_BIND(value_type, custom_type, fields...)`. -/
def bindSource (valueType customType : List Text) (fields : List Bound) : List Text :=
  text! "CONFIGOR_BIND" :: lparen :: (commas comma (valueType :: customType :: fields.map Bound.source) ++ [rparen])

/-- The two functions that convert between values and objects. -/
def bindResult (valueType customType : List Text) (fields : List Bound) : List Text :=
  toks! "friend void to_value(" ++ valueType ++ toks! "& c, const" ++ customType ++ toks! "& v) {" ++ fields.flatMap Bound.store ++
  toks! "} friend void from_value(const" ++ valueType ++ toks! "& c," ++ customType ++ toks! "& v) {" ++ fields.flatMap Bound.load ++ toks! "}"

/-- The words of these functions, and those that mark the fields. -/
def bindWords : List Text := toks! "friend void to_value from_value c v const operator if decltype at get count REQUIRED OPTIONAL"

/-- The other macros of a program are names, do not start with `__CONFIGOR` and are none of the words above. -/
structure Harmless (user : Text → Option Macro) : Prop where
  names : ∀ (c : Nat) (t : Text), user (c :: t) ≠ none → wordChar c ∧ ¬ (0x30 ≤ c ∧ c ≤ 0x39)
  empty : user [] = none
  own : ∀ t, user (text! "__CONFIGOR" ++ t) = none
  words : ∀ t ∈ bindWords, user t = none

/-- Tokens that can stand for a type, a field or a key: not empty, no macros, and one macro argument. -/
structure Plain (user : Text → Option Macro) (ts : List Text) : Prop where
  argument : Argument ts
  macros : ∀ t ∈ ts, Preproc.macros user t = none ∧ t ≠ []

end Configor.Spec
