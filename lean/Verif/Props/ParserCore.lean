import Verif.Proofs.TokenFail
import Verif.Proofs.ValueEq
/-!
# Properties of `json::parse`: acceptance, termination, errors

`jsonParse A h c str` is the model of `json::parse(c, str, ...)` with error handler `h`.
`A.Usual` says that the character types have at least 8 bits.
-/
set_option autoImplicit false
namespace Configor.Props
open Spec

variable {F : Type}

/-- What the source decoder of a call delivers for the string `str`: code points, and a last
`none` if a character is malformed. -/
def Sees (A : ParseArgs F) (str : List Nat) (l : List (Option Nat)) : Prop :=
  Delivers (A.se.decode A.sw (strSBuf A.sw)) (onString str) l

/-- The source decoder of a call reads `str` as the text `cps`. -/
def Reads (A : ParseArgs F) (str cps : List Nat) : Prop :=
  ReadsAs (A.se.decode A.sw (strSBuf A.sw)) (onString str) cps

theorem sees_iff (A : ParseArgs F) (str : List Nat) (l : List (Option Nat)) :
    Sees A str l ↔ l = itemsOf A.se A.sw str := delivers_iff _ _ _ _

theorem Reads.sees {A : ParseArgs F} {str cps : List Nat} (h : Reads A str cps) : Sees A str (cps.map some) :=
  delivers_of_reads h

theorem number_value {D : Dialect F} {t : List Nat} {nx : Option Nat} {v : Value F} (h : Number D t nx v) :
    (∃ i, v = .int i) ∨ ∃ f, v = .flt f := by
  have : ∀ (b : Bool) (n : Num F), (∃ i, n.value D.fo b = .int i) ∨ ∃ f, n.value D.fo b = .flt f := by
    intro b n
    cases n with
    | int n => exact Or.inl ⟨_, rfl⟩
    | flt f => exact Or.inr ⟨_, rfl⟩
  cases h with
  | plain => exact this _ _
  | signed => exact this _ _

/-- A floating type with one value, for examples about other things. -/
def unitFloat : FloatOps Unit where
  ofInt _ := ()
  add _ _ := ()
  mul _ _ := ()
  neg _ := ()
  tenth := ()
  isIntegral _ := true
  toI64 _ := some 0
  fmt _ := []
  eq _ _ := true
  lt _ _ := false

/-- Parsing UTF-8 to UTF-8, asserts on or off. -/
def utf8Args (debug : Bool) : ParseArgs Unit := ⟨.utf8, 8, .utf8, 8, debug, unitFloat⟩

theorem utf8Args_usual (b : Bool) : (utf8Args b).Usual := ⟨Nat.le_refl 8, Nat.le_refl 8⟩

/-- The bytes of an ASCII text. -/
def ascii (s : String) : List Nat := s.toList.map Char.toNat

/-! ## C10 -/

/-- C10. Parsing a string ends: the loops of the model never run out of the bound given to
them, and the bound has no influence on the result. -/
theorem C10_parse_terminates (A : ParseArgs F) (hA : A.Usual) (h : Option Handler) (c : Value F)
    (str : List Nat) :
    (jsonParse A h c str).1 ≠ .error .fuel ∧
    ∀ n, 2 * str.length + 4 ≤ n →
      parseFrom A (strSBuf A.sw) n h c (.ofString str) = jsonParse A h c str := by
  have hl := itemsOf_length A.se A.sw str
  rw [jsonParse_items hA]
  refine ⟨parseItems_nofuel hA h c (by omega), fun n hn => ?_⟩
  exact parseFrom_string hA h c str (by omega) (by omega)

example : (utf8Args true).Usual := utf8Args_usual true
example : (jsonParse (utf8Args true) none .null (ascii "[[[1, /* x */ {\"a\": []}]")).1 =
    .error (.exn .deserialization) := by decide +kernel

/-! ## C11 -/

/-- C11. `json::parse` succeeds with the value `v` exactly if what the decoder delivers is a
document of the grammar that denotes `v`. -/
theorem C11_accepts_exactly_grammar (A : ParseArgs F) (hA : A.Usual) (c v : Value F) (str : List Nat)
    (l : List (Option Nat)) (hl : Sees A str l) :
    jsonParse A none c str = (.ok (), v) ↔ Document A.dialect l v := by
  rw [(sees_iff A str l).1 hl, jsonParse_items hA]
  have hle := itemsOf_length A.se A.sw str
  constructor
  · intro h
    have := parseItems_sound hA c (l := itemsOf A.se A.sw str) (n := 2 * str.length + 4) (by omega)
    rw [h] at this
    exact this
  · intro h
    exact parseItems_complete hA none c h (by omega)

/-- C11. The decoder delivers exactly one sequence for every string. -/
theorem C11_decoded_once (A : ParseArgs F) (str : List Nat) :
    ∃ l, Sees A str l ∧ ∀ l', Sees A str l' → l' = l :=
  ⟨_, itemsOf_delivers _ _ _, fun _ h => (sees_iff A str _).1 h⟩

/-- C11. A document of the grammar denotes one value. -/
theorem C11_document_unique (A : ParseArgs F) (hA : A.Usual) (l : List (Option Nat)) (v w : Value F)
    (hv : Document A.dialect l v) (hw : Document A.dialect l w) : v = w := by
  have h1 := parseItems_complete hA none .null hv (Nat.le_refl _)
  have h2 := parseItems_complete hA none .null hw (Nat.le_refl _)
  rw [h1] at h2
  simpa using h2

example : jsonParse (utf8Args true) none .null (ascii "{\"b\": [1, true,], \"a\": null, \"b\": 2} // x") =
    (.ok (), .obj [([0x61], .null), ([0x62], .arr [.int 1, .bool true])]) := by decide +kernel

/-! ## C18 -/

/-- C18. After a successful parse everything behind the value, up to the end of the input or
to a NUL, is blanks and comments. -/
theorem C18_no_trailing_garbage (A : ParseArgs F) (hA : A.Usual) (c v : Value F) (str : List Nat)
    (l : List (Option Nat)) (hl : Sees A str l) (h : jsonParse A none c str = (.ok (), v)) :
    ∃ g t e more, l = (g ++ t ++ e).map some ++ more ∧ Gap g ∧
      (∃ nx, Val A.dialect t nx v) ∧
      ((more = [] ∧ (Gap e ∨ ∃ g' x, e = g' ++ 0x2F :: 0x2F :: x ∧ Gap g' ∧ Line x)) ∨
        (Gap e ∧ ∃ r, more = some 0 :: r)) := by
  obtain ⟨g, t, e, more, h1, h2, h3, h4⟩ := (C11_accepts_exactly_grammar A hA c v str l hl).1 h
  refine ⟨g, t, e, more, h1, h2, ⟨_, h3⟩, ?_⟩
  cases h4 with
  | eof h => exact Or.inl ⟨rfl, Or.inl h⟩
  | eofInLine h h' => exact Or.inl ⟨rfl, Or.inr ⟨_, _, rfl, h, h'⟩⟩
  | nul h => exact Or.inr ⟨h, _, rfl⟩

example : (jsonParse (utf8Args true) none .null (ascii "1 2")).1 = .error (.exn .deserialization) := by decide +kernel
example : jsonParse (utf8Args true) none .null (ascii "1 /**/ //") = (.ok (), .int 1) := by decide +kernel

/-! ## C22, C23 -/

/-- C22. An exception of `json::parse` is a `configor_deserialization_error`, with every handler. -/
theorem C22_exceptions_are_deserialization (A : ParseArgs F) (hA : A.Usual) (h : Option Handler)
    (c : Value F) (str : List Nat) (e : Err) (he : (jsonParse A h c str).1 = .error (.exn e)) :
    e = .deserialization := by
  rw [jsonParse_items hA, parseItems_handler] at he
  have hle := itemsOf_length A.se A.sw str
  have := parseItems_sound hA c (l := itemsOf A.se A.sw str) (n := 2 * str.length + 4) (by omega)
  rcases hr : parseItems A (2 * str.length + 4) none c (itemsOf A.se A.sw str) with ⟨x | _, v⟩
  · rw [hr] at this he
    simp only at this
    rcases this with rfl | ⟨rfl, _⟩ | ⟨rfl, _⟩
    · cases h with
      | none => simp [withHandler] at he; exact he.symm
      | some h =>
        simp only [withHandler] at he
        split at he
        · cases he
        · simp at he; exact he.symm
    · simp [withHandler] at he
    · simp [withHandler] at he
  · rw [hr] at he; cases h <;> simp [withHandler] at he

example : (jsonParse (utf8Args false) none .null (ascii "[1 2]")).1 = .error (.exn .deserialization) := by decide +kernel

/-- C23 is false: a debug build aborts on the text `-x`. -/
theorem C23_violated : (jsonParse (utf8Args true) none .null (ascii "-x")).1 = .error .abort := by decide +kernel

/-- C23, partial. With asserts on `json::parse` aborts only if some sign in the input is not
followed by a digit; with asserts off it never aborts. -/
theorem C23_no_abort_partial (A : ParseArgs F) (hA : A.Usual) (h : Option Handler) (c : Value F)
    (str : List Nat) (l : List (Option Nat)) (hl : Sees A str l)
    (hs : A.debug = true → ∀ p sg r, l = p ++ some sg :: r → (sg = 0x2B ∨ sg = 0x2D) →
      ∃ d r', r = some d :: r' ∧ 0x30 ≤ d ∧ d ≤ 0x39) :
    (jsonParse A h c str).1 ≠ .error .abort := by
  rw [jsonParse_items hA, parseItems_handler]
  rw [(sees_iff A str l).1 hl] at hs
  have hle := itemsOf_length A.se A.sw str
  have := parseItems_sound hA c (l := itemsOf A.se A.sw str) (n := 2 * str.length + 4) (by omega)
  rcases hr : parseItems A (2 * str.length + 4) none c (itemsOf A.se A.sw str) with ⟨x | _, v⟩
  · rw [hr] at this
    simp only at this
    rcases this with rfl | ⟨rfl, hdb, p, sg, r, h1, h2, h3⟩ | ⟨rfl, _⟩
    · cases h with
      | none => simp [withHandler]
      | some h => simp only [withHandler]; split <;> simp
    · obtain ⟨d, r', rfl, h4, h5⟩ := hs hdb p sg r h1 h2
      refine absurd ?_ h3
      unfold IsDig
      have h6 : d % 2 ^ A.sw = d := by
        apply Nat.mod_eq_of_lt
        have : 2 ^ 8 ≤ 2 ^ A.sw := Nat.pow_le_pow_right (by decide) hA.sw
        simp only [Nat.reducePow] at this; omega
      show 0x30 ≤ d % 2 ^ A.sw ∧ d % 2 ^ A.sw ≤ 0x39
      rw [h6]; exact ⟨h4, h5⟩
    · simp [withHandler]
  · cases h <;> simp [withHandler]

example : ∀ p sg r, [some 0x2D, some 0x31] = p ++ some sg :: r → (sg = 0x2B ∨ sg = 0x2D) →
    ∃ d r', r = some d :: r' ∧ 0x30 ≤ d ∧ d ≤ 0x39 := by
  intro p sg r h hs
  rcases p with _ | ⟨_, _ | ⟨_, p⟩⟩
  · simp at h
    exact ⟨0x31, [], h.2.symm, by decide, by decide⟩
  · simp at h
    omega
  · simp at h

/-! ## C24 -/

/-- `error_handler_with<ignore>` and `<record>`: swallow every library exception. -/
def swallowAll : Handler := ⟨fun _ => true⟩
/-- `error_handler_with<strict>`: rethrow. -/
def strict : Handler := ⟨fun _ => false⟩

/-- C24 is false: an error of the very first character is not shown to the handler, so an
ignore handler does not prevent the exception. -/
theorem C24_violated :
    (jsonParse (utf8Args true) (some swallowAll) .null [0xFF]).1 = .error (.exn .deserialization) := by decide +kernel

/-- C24, partial. The value produced is the same with every handler. A strict handler changes
nothing. If the first character is well formed, a swallowing handler turns exactly the
exceptions into normal returns. -/
theorem C24_handler_partial (A : ParseArgs F) (hA : A.Usual) (c : Value F) (str : List Nat)
    (l : List (Option Nat)) (hl : Sees A str l) :
    (∀ h, (jsonParse A h c str).2 = (jsonParse A none c str).2) ∧
    jsonParse A (some strict) c str = jsonParse A none c str ∧
    (l.head? ≠ some none →
      (∀ e, (jsonParse A none c str).1 = .error (.exn e) → (jsonParse A (some swallowAll) c str).1 = .ok ()) ∧
      ((∀ e, (jsonParse A none c str).1 ≠ .error (.exn e)) →
        jsonParse A (some swallowAll) c str = jsonParse A none c str)) := by
  have hi := (sees_iff A str l).1 hl
  have key : ∀ h, jsonParse A h c str = withHandler h (l.head? != some none) (jsonParse A none c str) := by
    intro h
    rw [jsonParse_items hA, jsonParse_items hA, parseItems_handler, hi]
  generalize jsonParse A none c str = r at key
  obtain ⟨r, v⟩ := r
  refine ⟨?_, ?_, ?_⟩
  · intro h
    rw [key h]
    cases h with
    | none =>
      cases r with
      | ok => rfl
      | error e => cases e <;> rfl
    | some h =>
      cases r with
      | ok => rfl
      | error e =>
        cases e with
        | exn e => simp only [withHandler]; split <;> rfl
        | abort => rfl
        | ub => rfl
        | fuel => rfl
  · rw [key]
    cases r with
    | ok => rfl
    | error e => cases e <;> simp [withHandler, strict]
  · intro hh
    have hb : (l.head? != some none) = true := by simpa using hh
    refine ⟨?_, ?_⟩
    · rintro e rfl
      rw [key, hb]
      simp [withHandler, swallowAll]
    · intro he
      rw [key, hb]
      cases r with
      | ok => rfl
      | error e =>
        cases e with
        | exn e => exact absurd rfl (he e)
        | abort => rfl
        | ub => rfl
        | fuel => rfl

example : jsonParse (utf8Args true) (some swallowAll) .null (ascii "[1, 2") = (.ok (), .arr [.int 1, .int 2]) := by decide +kernel
example : jsonParse (utf8Args true) none .null (ascii "[1, 2") =
    (.error (.exn .deserialization), .arr [.int 1, .int 2]) := by decide +kernel

/-! ## C19 -/

/-- C19. If parsing gives an object, its text has members, the keys of the object increase
strictly, and every key is mapped to the value of its first occurrence (and is absent if it
does not occur). -/
theorem C19_first_key_wins (A : ParseArgs F) (hA : A.Usual) (c : Value F) (r : List (List Nat × Value F))
    (str : List Nat) (l : List (Option Nat)) (hl : Sees A str l)
    (h : jsonParse A none c str = (.ok (), .obj r)) :
    ∃ g t e ms, l = (g ++ 0x7B :: t).map some ++ e ∧ Gap g ∧ Members A.dialect t ms ∧
      r.Pairwise (fun a b => a.1 < b.1) ∧ ∀ k, r.lookup k = ms.lookup k := by
  obtain ⟨g, t, e, more, h1, h2, h3, h4⟩ := (C11_accepts_exactly_grammar A hA c _ str l hl).1 h
  generalize (e.map some ++ more).head?.join = nx at h3
  generalize hv : Value.obj r = v at h3
  cases h3 with
  | vtrue => cases hv
  | vfalse => cases hv
  | vnull => cases hv
  | num hn => rcases number_value hn with ⟨_, rfl⟩ | ⟨_, rfl⟩ <;> cases hv
  | str => cases hv
  | arr => cases hv
  | @obj t _ ms r' hm hf =>
    cases hv
    exact ⟨g, t, e.map some ++ more, ms, by rw [h1]; simp, h2, hm, hf.1, hf.2⟩

/-- C19. The object with the members `ms` exists, and there is only one. -/
theorem C19_object_unique (ms : List (List Nat × Value F)) :
    ∃ r, FirstWins ms r ∧ ∀ r', FirstWins ms r' → r' = r :=
  ⟨addAll [] ms, addAll_firstWins ms, fun _ h => firstWins_unique h (addAll_firstWins ms)⟩

example : jsonParse (utf8Args true) none .null (ascii "{\"b\":1,\"a\":2,\"b\":3}") =
    (.ok (), .obj [([0x61], .int 2), ([0x62], .int 1)]) := by decide +kernel

end Configor.Props
