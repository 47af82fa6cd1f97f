import Verif.Proofs.LeftoverParse
import Verif.Props.ParserCore
/-!
# What a failed `json::parse` leaves in its argument

C25. `Leaves` is in Spec/Leftover.lean.
-/
set_option autoImplicit false
namespace Configor.Props
open Spec

variable {F : Type}

/-- C25. Parsing `str` into a variable that holds `c` fails and leaves `w` in it if and only if
`w` is what `Leaves` describes: `c` itself if the first token is bad; otherwise arrays with the
elements completed before the error and the unfinished last one, objects with the completed
members, strings with the characters before the error; or the whole value if the error is
behind it. -/
theorem C25_content_after_failure (A : ParseArgs F) (hA : A.Usual) (c w : Value F) (str : List Nat)
    (l : List (Option Nat)) (hl : Sees A str l) :
    (∃ e, jsonParse A none c str = (.error e, w)) ↔ Leaves A.dialect c l w := by
  have hi := (sees_iff A str l).1 hl
  subst hi
  rw [jsonParse_items hA]
  have := itemsOf_length A.se A.sw str
  exact parseItems_leaves hA c w (by omega)

/-- C25. With a handler that swallows errors, a call that returns normally leaves the value of
the text, if it is a document, and otherwise what `Leaves` describes. -/
theorem C25_content_with_handler (A : ParseArgs F) (hA : A.Usual) (c w : Value F) (str : List Nat)
    (l : List (Option Nat)) (hl : Sees A str l) (h : jsonParse A (some swallowAll) c str = (.ok (), w)) :
    Document A.dialect l w ∨ ((∀ v, ¬ Document A.dialect l v) ∧ Leaves A.dialect c l w) := by
  have hw : (jsonParse A none c str).2 = w := by
    have := (C24_handler_partial A hA c str l hl).1 (some swallowAll)
    rw [h] at this
    exact this.symm
  rcases hr : jsonParse A none c str with ⟨e | u, v⟩
  · rw [hr] at hw
    simp only at hw
    subst hw
    right
    refine ⟨fun v' hv' => ?_, (C25_content_after_failure A hA c v str l hl).1 ⟨e, hr⟩⟩
    rw [(C11_accepts_exactly_grammar A hA c v' str l hl).2 hv'] at hr
    cases hr
  · rw [hr] at hw
    simp only at hw
    subst hw
    exact Or.inl ((C11_accepts_exactly_grammar A hA c v str l hl).1 hr)

/-- C25. `Leaves` determines the value: there is exactly one if the text is not a document,
and none if it is. -/
theorem C25_content_unique (A : ParseArgs F) (hA : A.Usual) (c : Value F) (str : List Nat)
    (l : List (Option Nat)) (hl : Sees A str l) :
    (∀ w w', Leaves A.dialect c l w → Leaves A.dialect c l w' → w = w') ∧
    ((∃ w, Leaves A.dialect c l w) ↔ ∀ v, ¬ Document A.dialect l v) := by
  refine ⟨fun w w' h h' => ?_, ?_⟩
  · obtain ⟨e, he⟩ := (C25_content_after_failure A hA c w str l hl).2 h
    obtain ⟨e', he'⟩ := (C25_content_after_failure A hA c w' str l hl).2 h'
    rw [he] at he'
    exact (Prod.mk.inj he').2
  · constructor
    · rintro ⟨w, h⟩ v hv
      obtain ⟨e, he⟩ := (C25_content_after_failure A hA c w str l hl).2 h
      rw [(C11_accepts_exactly_grammar A hA c v str l hl).2 hv] at he
      cases he
    · intro h
      rcases hr : jsonParse A none c str with ⟨e | u, v⟩
      · exact ⟨v, (C25_content_after_failure A hA c v str l hl).1 ⟨e, hr⟩⟩
      · exact absurd ((C11_accepts_exactly_grammar A hA c v str l hl).1 hr) (h v)

/-- The array keeps `1` and the unfinished second element; the object in it keeps the complete
member `a` and drops `b`. -/
example : Leaves (utf8Args true).dialect (.bool true) ((ascii "[1,[2,{\"a\":[3,],\"b\":").map some)
    (.arr [.int 1, .arr [.int 2, .obj [(ascii "a", .arr [.int 3])]]]) :=
  (C25_content_after_failure _ (utf8Args_usual true) _ _ (ascii "[1,[2,{\"a\":[3,],\"b\":") _
    ((sees_iff _ _ _).2 (by decide +kernel))).1 ⟨.exn .deserialization, by decide +kernel⟩

/-- A bad first token changes nothing. -/
example : Leaves (utf8Args true).dialect (.bool true) ((ascii " nul").map some) (.bool true) :=
  (C25_content_after_failure _ (utf8Args_usual true) _ _ (ascii " nul") _
    ((sees_iff _ _ _).2 (by decide +kernel))).1 ⟨.exn .deserialization, by decide +kernel⟩

/-- A string keeps the characters before the error. -/
example : Leaves (utf8Args true).dialect .null ((ascii "\"ab\\x").map some) (.str (ascii "ab")) :=
  (C25_content_after_failure _ (utf8Args_usual true) _ _ (ascii "\"ab\\x") _
    ((sees_iff _ _ _).2 (by decide +kernel))).1 ⟨.exn .deserialization, by decide +kernel⟩

example : jsonParse (utf8Args true) (some swallowAll) (.bool true) (ascii "{\"a\":1} x") =
    (.ok (), .obj [(ascii "a", .int 1)]) := by decide +kernel

end Configor.Props
