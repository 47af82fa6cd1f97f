import Verif.Proofs.BindMain
/-!
# Properties of `CONFIGOR_BIND`

The preprocessor (`Model/Preproc.lean`) on the macros of conversion.hpp, for every list of fields.
-/
set_option autoImplicit false
set_option maxRecDepth 100000

namespace Configor.Props
open Configor Spec Preproc

/-! ## C122: the fields of a class -/

/-- C122. `CONFIGOR_BIND(value_type, custom_type, fields...)`, for each list of one to fifty fields, required or optional, with or
without names, becomes the two functions one would write by hand: one that stores each field under
its key and one that loads each field from its key, in the order of the list. `user` are the macros of the
rest of the program; types, fields and names may be any tokens without macros. -/
theorem C122_bind (user : Text → Option Macro) (hu : Harmless user) (valueType customType : List Text) (fields : List Bound)
    (hv : Plain user valueType) (hc : Plain user customType) (hf : ∀ b ∈ fields, Plain user b.field ∧ ∀ n, b.name = some n → Plain user n)
    (h1 : 1 ≤ fields.length) (h50 : fields.length ≤ 50) :
    ∃ n, ∀ m, n ≤ m → preprocess user m (bindSource valueType customType fields) = some (bindResult valueType customType fields) :=
  (gives_bind hu h1 h50 hv hc hf).preprocess

/-- C122. With more than fifty fields, no field is left out in silence: both functions contain a name of a macro, which nothing
declares, so that they do not compile. -/
theorem C122_bind_many (user : Text → Option Macro) (hu : Harmless user) (valueType customType : List Text) (fields : List Bound)
    (hv : Plain user valueType) (hc : Plain user customType) (hf : ∀ b ∈ fields, Plain user b.field ∧ ∀ n, b.name = some n → Plain user n)
    (h50 : 50 < fields.length) :
    ∃ body body', text! "__CONFIGOR_COMBINE_PASTE1" ∈ body ∧ text! "__CONFIGOR_COMBINE_PASTE1" ∈ body' ∧
      ∃ n, ∀ m, n ≤ m → preprocess user m (bindSource valueType customType fields) =
        some (toks! "friend void to_value(" ++ valueType ++ toks! "& c, const" ++ customType ++ toks! "& v) {" ++ body ++
          toks! "} friend void from_value(const" ++ valueType ++ toks! "& c," ++ customType ++ toks! "& v) {" ++ body' ++ toks! "}") := by
  obtain ⟨n, hn⟩ := (gives_bind_many hu (List.getElem?_eq_getElem h50) hv hc hf).preprocess
  refine ⟨leftover false fields fields[50], leftover true fields fields[50], ?_, ?_, n, fun m hm => ?_⟩
  · unfold leftover; rw [listArgs_eq _ (by omega)]; exact List.mem_append_right _ (List.mem_cons_of_mem _ List.mem_cons_self)
  · unfold leftover; rw [listArgs_eq _ (by omega)]; exact List.mem_append_right _ (List.mem_cons_of_mem _ List.mem_cons_self)
  · rw [hn m hm]
    simp [functions]

/-! ### Examples -/

/-- No other macros. -/
def noMacros : Text → Option Macro := fun _ => none

theorem harmless_none : Harmless noMacros := ⟨fun _ _ h => absurd rfl h, rfl, fun _ => rfl, fun _ _ => rfl⟩

/-- A token that is no macro of the library. -/
theorem plain_word {t : Text} (h : macros noMacros t = none ∧ t ≠ [] ∧ t ≠ lparen ∧ t ≠ rparen ∧ t ≠ comma) : Plain noMacros [t] :=
  ⟨.word h.2.2, fun x hx => by rw [List.mem_singleton.1 hx]; exact ⟨h.1, h.2.1⟩⟩

/-- README.md: `CONFIGOR_BIND(json::value, User, REQUIRED(name), OPTIONAL(age))`. -/
def userFields : List Bound := [⟨false, toks! "name", none⟩, ⟨true, toks! "age", none⟩]

example : bindSource (toks! "json::value") (toks! "User") userFields = toks! "CONFIGOR_BIND(json::value, User, REQUIRED(name), OPTIONAL(age))" := by decide +kernel

example : bindResult (toks! "json::value") (toks! "User") userFields =
    toks! "friend void to_value(json::value & c, const User & v) { c[" ++ [text! "\"name\""] ++
    toks! "].operator=(v.name); if (v.age != decltype(v.age){}) { c[" ++ [text! "\"age\""] ++
    toks! "].operator=(v.age); } } friend void from_value(const json::value & c, User & v) { c.at(" ++ [text! "\"name\""] ++
    toks! ").get(v.name); if (c.count(" ++ [text! "\"age\""] ++ toks! ")) { c.at(" ++ [text! "\"age\""] ++
    toks! ").get(v.age); } }" := by
  decide +kernel

example : Plain noMacros (toks! "json::value") :=
  ⟨.tok (by decide) (by decide) (by decide) (.tok (by decide) (by decide) (by decide) (.tok (by decide) (by decide) (by decide) (.tok (by decide) (by decide) (by decide) .nil))),
    by decide +kernel⟩

example : ∃ n, ∀ m, n ≤ m → preprocess noMacros m (bindSource [text! "value"] [text! "User"] userFields) = some (bindResult [text! "value"] [text! "User"] userFields) := by
  refine C122_bind noMacros harmless_none _ _ userFields (plain_word (by decide +kernel)) (plain_word (by decide +kernel)) ?_ (by decide) (by decide)
  intro b hb
  have : b = ⟨false, toks! "name", none⟩ ∨ b = ⟨true, toks! "age", none⟩ := by simpa [userFields] using hb
  rcases this with rfl | rfl
  · exact ⟨plain_word (t := text! "name") (by decide +kernel), fun n h => by cases h⟩
  · exact ⟨plain_word (t := text! "age") (by decide +kernel), fun n h => by cases h⟩

/-- A macro of the program that does no harm: `#define MAX_AGE 150`. -/
def oneMacro : Text → Option Macro := fun t => if t = text! "MAX_AGE" then some ⟨none, false, [text! "150"]⟩ else none

example : Harmless oneMacro := by
  refine ⟨fun c t h => ?_, by decide, fun t => ?_, by decide +kernel⟩
  · unfold oneMacro at h
    split at h
    · next e => injection e with e _; subst e; decide
    · exact absurd rfl h
  · unfold oneMacro
    rw [if_neg]
    intro e
    injection e with e _
    exact absurd e (by decide)

/-- A key that is a call, and fifty-one fields. -/
example : Argument (toks! "key(1, 2)") :=
  .tok (by decide) (by decide) (by decide) (.group (g := toks! "1, 2") (.tok (by decide) (by decide) (.tok (by decide) (by decide) (.tok (by decide) (by decide) .nil))) .nil)

example : ∃ fields : List Bound, 50 < fields.length ∧ ∀ b ∈ fields, Plain noMacros b.field ∧ ∀ n, b.name = some n → Plain noMacros n :=
  ⟨List.replicate 51 ⟨false, [text! "x"], none⟩, by decide, fun b hb => by
    rw [List.eq_of_mem_replicate hb]
    exact ⟨plain_word (by decide +kernel), fun n h => by cases h⟩⟩

end Configor.Props
