import Verif.Props.ParserText
import Verif.Proofs.AdapterHang
import Verif.Proofs.Rejected
import Verif.Proofs.UsedUp
import Verif.Proofs.Broken
import Verif.Props.Dump
/-!
# Properties of the sources a text can be parsed from

`jsonParse A h c text` is `json::parse(c, text, ...)` of a `std::string`, `parseCString`,
`parseFile` and `parseAdapter` are the same for a C string, a `std::FILE*` and an
`iadapterstream`, `parseFrom A B n h c b` for a `std::istream` whose buffer is of kind `B` and
in state `b`.
-/
set_option autoImplicit false
namespace Configor.Props
open Spec

variable {F : Type}

/-- Characters an adapter that ends with NULs can deliver: units of the character type, no NUL
and none that equals `eof`. -/
def Sendable (w : Nat) (text : List Nat) : Prop := ∀ u ∈ text, u ≠ 0 ∧ u < 2 ^ w ∧ u ≠ 2 ^ w - 1

instance (w : Nat) (text : List Nat) : Decidable (Sendable w text) := by unfold Sendable; infer_instance

theorem Sendable.noEof {w : Nat} {text : List Nat} (h : Sendable w text) : NoEof w text := fun u hu => Or.inr (h u hu).2.2

theorem Sendable.adaptAt {w : Nat} {text : List Nat} (h : Sendable w text) (k : Nat) :
    AdaptAt w ⟨text, 0⟩ (text.map (signExtend w) ++ List.replicate k 0) :=
  ⟨fun u hu => ⟨signExtend_nonzero (h u hu).2.1 (h u hu).1, signExtend_noEof (h u hu).2.2⟩, by simp, k, by simp⟩

theorem view_of_holds {σ : Type} {B : SBuf σ} {b : σ} {l : List Int} (h : Delivering B b l) :
    ∃ R, View B R ∧ R b l := by
  obtain ⟨R, h1, h0, h2, h3⟩ := h
  exact ⟨R, ⟨fun {s} h => h2 s h, fun {s u us} h => h3 s u us h, fun {s l} h => h0 s l h⟩, h1⟩

/-! ## C76 -/

/-- C76. A `std::istream` on any buffer that holds the characters of a text is parsed like the
`std::string`. (No character may equal the character type's `eof`, which a `char` never does.) -/
theorem C76_stream {σ : Type} (A : ParseArgs F) (hA : A.Usual) (h : Option Handler) (c : Value F) (B : SBuf σ) (b : σ)
    (text : List Nat) (hc : ∀ u ∈ text, A.sw = 8 ∨ u ≠ 2 ^ A.sw - 1)
    (hb : Delivering B b (text.map Int.ofNat)) (n : Nat) (hn : 2 * text.length + 4 ≤ n) :
    parseFrom A B n h c b = jsonParse A h c text := by
  obtain ⟨R, V, hr⟩ := view_of_holds hb
  have e : text.map Int.ofNat = unitsOf A.sw text := (unitsOf_ints hc).symm
  rw [e] at hr
  have hl := itemsOf_length A.se A.sw text
  rw [jsonParse_items hA]
  exact parseFrom_view V hA hr h c (by show 2 * (itemsOf A.se A.sw text).length + 2 ≤ _; omega)
    (by show 2 * (itemsOf A.se A.sw text).length + 2 ≤ _; omega)

theorem file_holds (text : List Nat) (h0 : ∀ u ∈ text, u ≠ 0) : Delivering (cacheSBuf fgetc) ⟨text, 0⟩ (text.map Int.ofNat) :=
  ⟨FileAt, ⟨h0, Or.inl ⟨rfl, rfl⟩⟩, fun _ _ h => fileView.calm h, fun _ h => fileView.nil h, fun _ _ _ h => fileView.cons h⟩

/-- C76. Parsing a `std::FILE*` is parsing the `std::string` with the file's characters, if none
of them is NUL. -/
theorem C76_file (A : ParseArgs F) (hA : A.Usual) (h : Option Handler) (c : Value F) (text : List Nat)
    (h0 : ∀ u ∈ text, u ≠ 0) (hc : ∀ u ∈ text, A.sw = 8 ∨ u ≠ 2 ^ A.sw - 1) :
    parseFile A h c text = jsonParse A h c text :=
  C76_stream A hA h c _ _ text hc (file_holds text h0) _ (Nat.le_refl _)

/-- C76. Parsing a C string is parsing the `std::string` of the characters in front of the
first NUL. -/
theorem C76_cstring (A : ParseArgs F) (hA : A.Usual) (h : Option Handler) (c : Value F) (text behind : List Nat)
    (h0 : ∀ u ∈ text, u ≠ 0) : parseCString A h c (text ++ 0 :: behind) = jsonParse A h c text := by
  have e : (text ++ 0 :: behind).takeWhile (· ≠ 0) = text := by
    rw [List.takeWhile_append_of_pos (by simpa using h0)]
    simp
  unfold parseCString StrBuf.ofCString
  rw [e, jsonParse_items hA]
  have hl := itemsOf_length A.se A.sw text
  exact parseFrom_string hA h c text (by omega) (by simp; omega)

/-- C76, partial. Parsing an `iadapterstream` whose adapter delivers a well-formed text and then
`'\0'` is parsing the `std::string`, or it does not end, and then the text ends inside a
comment. What is missing: see `C76_violated` and `C77_violated`. -/
theorem C76_adapter_partial (A : ParseArgs F) (hA : A.Usual) (hf : A.se.Fits A.sw) (h : Option Handler) (c : Value F)
    (text cps : List Nat) (hs : Sendable A.sw text) (hr : Reads A text cps) :
    EndsWith (parseAdapter A h c text) (jsonParse A h c text) ∨
      (Unclosed (cps.map some) ∧ Hangs (parseAdapter A h c text)) := by
  have hi : itemsOf A.se A.sw text = cps.map some := ((sees_iff A text _).mp hr.sees).symm
  have hl := itemsOf_length A.se A.sw text
  have e : items (A.se.step A.sw) (text.map (signExtend A.sw)) = cps.map some := by
    rw [items_signExtend hf, ← unitsOf_ints hs.noEof]
    exact hi
  have hat := hs.adaptAt 0
  simp only [List.replicate_zero, List.append_nil] at hat
  have := feed_call (adaptFeed A.sw) hat (Or.inl (by
    rw [e]; intro x hx; obtain ⟨a, _, rfl⟩ := List.mem_map.mp hx; simp)) hA h c (n := 2 * text.length + 4)
    (by rw [e, ← hi]; omega)
  rw [e] at this
  rw [jsonParse_items hA, hi]
  exact this

/-- The hypotheses are met: a file, a C string, a string stream and an adapter with a text. -/
example : parseFile (utf8Args true) none .null (ascii "{\"a\": [1, true]}") =
    (.ok (), .obj [([0x61], .arr [.int 1, .bool true])]) := by decide +kernel
example : parseCString (utf8Args true) none .null (ascii "[1]" ++ 0 :: ascii "junk") = (.ok (), .arr [.int 1]) := by
  decide +kernel
example : Sendable 8 (ascii "[1, /* x */ 2]") := by decide +kernel
example : ∀ u ∈ ascii "[1, 2]", u ≠ 0 := by decide +kernel
example : parseAdapter (utf8Args true) none .null (ascii "[1, /* x */ 2]") 32 = (.ok (), .arr [.int 1, .int 2]) := by
  decide +kernel

/-- C76 is false: the bytes `31 20 C2` contain no NUL. As a string they are rejected, because the
character that starts with C2 is cut off; from an adapter they are the number 1, because the
decoder takes the NUL behind them for the rest of that character. -/
theorem C76_violated :
    Sendable 8 [0x31, 0x20, 0xC2] ∧
    (jsonParse (utf8Args true) none .null [0x31, 0x20, 0xC2]).1 = .error (.exn .deserialization) ∧
    (parseAdapter (utf8Args true) none .null [0x31, 0x20, 0xC2] 30) = (.ok (), .int 1) := by decide +kernel

/-! ## C77 -/

/-- C77, partial. Parsing an `iadapterstream` whose adapter delivers any text, well-formed or
not, and then `'\0'`, ends as parsing the string with some NULs behind it does, or it does not
end, and then the text ends inside a comment. -/
theorem C77_adapter_ends_partial (A : ParseArgs F) (hA : A.Usual) (hf : A.se.Fits A.sw) (h : Option Handler) (c : Value F)
    (text : List Nat) (hs : Sendable A.sw text) (l : List (Option Nat)) (hl : Sees A (text ++ List.replicate 6 0) l) :
    EndsWith (parseAdapter A h c text) (jsonParse A h c (text ++ List.replicate 6 0)) ∨
      (Unclosed l ∧ Hangs (parseAdapter A h c text)) := by
  have hl' := (sees_iff A _ _).mp hl
  have hw : A.sw ≠ 0 := by have := hA.1; omega
  have hne : NoEof A.sw (text ++ List.replicate 6 0) := by
    intro u hu
    rcases List.mem_append.mp hu with hu | hu
    · exact hs.noEof u hu
    · right
      have := (List.mem_replicate.mp hu).2
      subst this
      have : 2 ^ 1 ≤ 2 ^ A.sw := Nat.pow_le_pow_right (by decide) (by omega)
      omega
  have h0 : signExtend A.sw 0 = 0 := by
    unfold signExtend
    rw [if_pos (Nat.two_pow_pos _)]; rfl
  have e : items (A.se.step A.sw) (text.map (signExtend A.sw) ++ List.replicate 6 0) = l := by
    have : text.map (signExtend A.sw) ++ List.replicate 6 0 = (text ++ List.replicate 6 0).map (signExtend A.sw) := by
      simp [h0]
    rw [this, items_signExtend hf, ← unitsOf_ints hne]
    exact hl'.symm
  have hlen := itemsOf_length A.se A.sw (text ++ List.replicate 6 0)
  have := feed_call (adaptFeed A.sw) (hs.adaptAt 6) (Or.inr (Or.inl ⟨_, rfl⟩)) hA h c
    (n := 2 * (text ++ List.replicate 6 0).length + 4) (by rw [e, hl']; omega)
  rw [e] at this
  rw [jsonParse_items hA, ← hl']
  exact this

/-- C77, partial. If a character of the text equals `eof` (the byte FF), the text ends there:
the call ends as parsing the string up to that character. -/
theorem C77_adapter_eof_partial (A : ParseArgs F) (hA : A.Usual) (hf : A.se.Fits A.sw) (h : Option Handler) (c : Value F)
    (text behind : List Nat) (hs : Sendable A.sw text) :
    EndsWith (parseAdapter A h c (text ++ (2 ^ A.sw - 1) :: behind)) (jsonParse A h c text) := by
  have hw : A.sw ≠ 0 := by have := hA.1; omega
  have he : signExtend A.sw (2 ^ A.sw - 1) = -1 := by
    unfold signExtend
    have h1 : 2 ^ A.sw = 2 * 2 ^ (A.sw - 1) := by
      rw [← Nat.pow_succ']; congr 1; omega
    have h2 := Nat.two_pow_pos (A.sw - 1)
    rw [if_neg (by omega)]
    omega
  have hat : CutAt A.sw ⟨text ++ (2 ^ A.sw - 1) :: behind, 0⟩ (text.map (signExtend A.sw)) :=
    Or.inr ⟨by simp, text, _, behind, rfl, he, fun u hu =>
      ⟨signExtend_nonzero (hs u hu).2.1 (hs u hu).1, signExtend_noEof (hs u hu).2.2⟩, by simp⟩
  have e : items (A.se.step A.sw) (text.map (signExtend A.sw)) = itemsOf A.se A.sw text := by
    rw [items_signExtend hf, ← unitsOf_ints hs.noEof]
    rfl
  have hlen := itemsOf_length A.se A.sw text
  refine ⟨?_, 2 * text.length + 4, fun m hm => ?_⟩
  · rw [jsonParse_items hA]
    exact parseItems_nofuel hA h c (by omega)
  · rw [jsonParse_items hA]
    have := parseFrom_view (cutView A.sw) hA hat h c (n := 2 * text.length + 4) (m := m) (by rw [e]; omega) (by rw [e]; omega)
    rw [e] at this
    exact this

/-- C77 is false: whenever a text consists of a complete value and a line comment at the end
that no line end follows (and blanks and comments elsewhere), parsing it from an adapter does not
end, while parsing the string gives the value. -/
theorem C77_violated (A : ParseArgs F) (hA : A.Usual) (hf : A.se.Fits A.sw) (h : Option Handler) (c : Value F)
    (text g t g' q : List Nat) (v : Value F) (hs : Sendable A.sw text)
    (hr : Reads A text (g ++ t ++ (g' ++ 0x2F :: 0x2F :: q)))
    (hg : Gap g) (hv : Val A.dialect t (g' ++ 0x2F :: 0x2F :: q).head? v) (hg' : Gap g') (hq : Line q) :
    Hangs (parseAdapter A h c text) ∧ jsonParse A h c text = (.ok (), v) := by
  have hi : itemsOf A.se A.sw text = (g ++ t ++ (g' ++ 0x2F :: 0x2F :: q)).map some := ((sees_iff A text _).mp hr.sees).symm
  have hlen := itemsOf_length A.se A.sw text
  constructor
  · have hat := hs.adaptAt 0
    simp only [List.replicate_zero, List.append_nil] at hat
    refine feed_hangs (adaptFeed A.sw) hat hA h c ?_ hg hg' hq hv
    rw [items_signExtend hf, ← unitsOf_ints hs.noEof]
    exact hi
  · rw [jsonParse_items hA]
    refine parseItems_complete hA h c ⟨g, t, g' ++ 0x2F :: 0x2F :: q, [], by rw [hi]; simp, hg, ?_, .eofInLine hg' hq⟩ (by omega)
    have : ((g' ++ 0x2F :: 0x2F :: q).map some ++ []).head?.join = (g' ++ 0x2F :: 0x2F :: q).head? := by
      cases g' <;> rfl
    rw [this]
    exact hv

/-- The text `null//` meets the hypotheses. -/
example : Reads (utf8Args true) (ascii "null//") ([] ++ ascii "null" ++ ([] ++ 0x2F :: 0x2F :: [])) ∧ Sendable 8 (ascii "null//") ∧
    Val (utf8Args true).dialect (ascii "null") (some 0x2F) .null ∧ (utf8Args true).se.Fits 8 := by
  refine ⟨?_, by decide +kernel, .vnull ?_, Nat.le_refl 8⟩
  · exact (reads_iff _ _ _).mpr (by decide +kernel)
  · exact ⟨rfl, by decide +kernel⟩

/-- Malformed texts end: the byte 80, and the byte FF behind a value. -/
example : (parseAdapter (utf8Args true) none .null [0x80] 30).1 = .error (.exn .deserialization) := by decide +kernel
example : parseAdapter (utf8Args true) none .null [0x31, 0xFF, 0x32] 30 = (.ok (), .int 1) := by decide +kernel

/-! ## C78 -/

theorem adapterReadN_text (n : Nat) (text : List Nat) :
    (adapterReadN textRead n text).1 = (text ++ List.replicate n 0).take n ∧ (adapterReadN textRead n text).2 = text.drop n := by
  induction n generalizing text with
  | zero => simp [adapterReadN]
  | succ n ih =>
    cases text with
    | nil =>
      have := ih []
      simp only [adapterReadN, textRead, this]
      simp [List.replicate_succ]
    | cons u us =>
      have := ih us
      simp only [adapterReadN, textRead, this]
      refine ⟨?_, by simp⟩
      rw [List.cons_append, List.take_succ_cons, List.replicate_succ', ← List.append_assoc,
        List.take_append_of_le_length (l₁ := us ++ List.replicate n 0) (by simp)]

/-- C78, partial. `read(buf, n)` on an adapter stream from which nothing was peeked stores the
next `n` characters (NULs behind the end of the text), and `gcount()` is `n`. What is missing:
see `C78_violated`. -/
theorem C78_read_partial (w n : Nat) (text : List Nat) :
    IStream.readN w textRead ⟨⟨text, 0⟩, false, false⟩ n =
      .ok ((text ++ List.replicate n 0).take n, n, ⟨⟨text.drop n, 0⟩, false, false⟩) := by
  have := adapterReadN_text n text
  simp [IStream.readN, IStream.good, CacheBuf.xsgetn, this]

/-- C78 is false. After `peek()` has seen a character, `read(buf, n)` stores the right `n`
characters, but `gcount()` is `n - 1`, and the stream is at its end and has failed. With
`n = 0` the behaviour is undefined. -/
theorem C78_violated (w n u : Nat) (text : List Nat) (hu : u < 2 ^ w) (h0 : u ≠ 0) (h1 : u ≠ 2 ^ w - 1) :
    let s := (IStream.peek (cacheSBuf (adapterRead w)) ⟨⟨u :: text, 0⟩, false, false⟩).2
    s.good = true ∧ s.readN w textRead 0 = .error .ub ∧
    s.readN w textRead (n + 1) =
      .ok (((u :: text) ++ List.replicate (n + 1) 0).take (n + 1), n, ⟨⟨text.drop n, 0⟩, true, true⟩) := by
  have hz := signExtend_nonzero (w := w) hu h0
  have he := signExtend_noEof (w := w) (u := u) h1
  have hs : (IStream.peek (cacheSBuf (adapterRead w)) ⟨⟨u :: text, 0⟩, false, false⟩).2 =
      ⟨⟨text, signExtend w u⟩, false, false⟩ := by
    simp [IStream.peek, IStream.good, cacheSBuf, CacheBuf.underflow, adapterRead, he]
  have hc : castU w (signExtend w u) = u := by
    rw [castU_signExtend (Nat.le_refl w)]
    unfold castU
    rw [Int.emod_eq_of_lt (by omega) (by omega)]
    omega
  simp only [hs]
  refine ⟨rfl, ?_, ?_⟩
  · simp [IStream.readN, IStream.good, CacheBuf.xsgetn, hz]
  · have := adapterReadN_text n text
    have hx : CacheBuf.xsgetn w textRead ⟨text, signExtend w u⟩ (n + 1) =
        .ok (u :: (text ++ List.replicate n 0).take n, n, ⟨text.drop n, 0⟩) := by
      unfold CacheBuf.xsgetn
      rw [if_pos hz, if_neg (by omega)]
      simp only [Nat.add_sub_cancel, this, hc]
    simp only [IStream.readN, IStream.good, hx]
    rw [if_pos (by simp), if_neg (by omega), List.cons_append, List.take_succ_cons, List.replicate_succ',
      ← List.append_assoc, List.take_append_of_le_length (l₁ := text ++ List.replicate n 0) (by simp)]

example : (0x61 : Nat) < 2 ^ 8 ∧ (0x61 : Nat) ≠ 0 ∧ (0x61 : Nat) ≠ 2 ^ 8 - 1 := by decide

/-! ## C97, C98: `in >> json::wrap(x)` -/

/-- C97. `in >> json::wrap(v)` on a good stream that holds a text skips the white space of the
stream's locale and then does what `json::parse` does with the rest; the flags of `in` stay. If
there is only white space, `v` stays, and `in` is at its end and has failed. If `in` is not good,
`v` stays and `in` has failed. -/
theorem C97_extract {σ : Type} (A : ParseArgs F) (hA : A.Usual) (B : SBuf σ) (sp : Int → Bool) (v : Value F) (s : IStream σ)
    (text : List Nat) (hc : ∀ u ∈ text, A.sw = 8 ∨ u ≠ 2 ^ A.sw - 1) (hb : Delivering B s.sb (text.map Int.ofNat))
    (n : Nat) (hn : 2 * text.length + 4 ≤ n) :
    let rest := text.dropWhile fun u : Nat => sp u
    let r := extract A B sp n v s
    (s.good = true → rest ≠ [] →
      (r.1, r.2.1) = jsonParse A none v rest ∧ r.2.2.eofb = s.eofb ∧ r.2.2.failb = s.failb) ∧
    (s.good = true → rest = [] → r.1 = .ok () ∧ r.2.1 = v ∧ r.2.2.eofb = true ∧ r.2.2.failb = true) ∧
    (s.good = false → r.1 = .ok () ∧ r.2.1 = v ∧ r.2.2.failb = true) := by
  obtain ⟨R, V, hr⟩ := view_of_holds hb
  have hd : (text.map Int.ofNat).dropWhile sp = (text.dropWhile fun u : Nat => sp u).map Int.ofNat := by
    rw [List.dropWhile_map]; rfl
  have hsub : (text.dropWhile fun u : Nat => sp u).length ≤ text.length := (List.dropWhile_sublist _).length_le
  simp only
  refine ⟨fun hg hne => ?_, fun hg he => ?_, fun hg => ?_⟩
  · obtain ⟨b', h1, h2⟩ := (sentry_view V sp n _ s hg hr (by simp; omega)).2 (by rw [hd]; simpa using hne)
    rw [hd] at h2
    have hp := C76_stream A hA none v B b' (text.dropWhile fun u : Nat => sp u)
      (fun u hu => hc u ((List.dropWhile_sublist _).subset hu)) ⟨R, h2, fun _ _ h => V.calm h, fun _ h => V.nil h, fun _ _ _ h => V.cons h⟩ n (by omega)
    unfold extract
    rw [h1]
    exact ⟨hp, rfl, rfl⟩
  · obtain ⟨b', h1⟩ := (sentry_view V sp n _ s hg hr (by simp; omega)).1 (by rw [hd, he]; rfl)
    unfold extract
    rw [h1]
    exact ⟨rfl, rfl, rfl, rfl⟩
  · unfold extract sentry
    rw [if_neg (by simp [hg])]
    exact ⟨rfl, rfl, rfl⟩

/-- C98. `in >> json::wrap(x)` for an `x` of another type either ends normally, and then `x` is
what `get<T>()` gives for the parsed value, or it throws what parsing or `get<T>()` throws, and
then `x` is what it was. -/
theorem C98_extract_as {σ α : Type} (A : ParseArgs F) (hA : A.Usual) (B : SBuf σ) (sp : Int → Bool)
    (get : Value F → Except Stop α) (x : α) (s : IStream σ)
    (text : List Nat) (hc : ∀ u ∈ text, A.sw = 8 ∨ u ≠ 2 ^ A.sw - 1) (hb : Delivering B s.sb (text.map Int.ofNat))
    (hg : s.good = true) (hne : (text.dropWhile fun u : Nat => sp u) ≠ []) (n : Nat) (hn : 2 * text.length + 4 ≤ n) :
    let r := extractAs A B sp n get x s
    match jsonParse A none .null (text.dropWhile fun u : Nat => sp u) with
    | (.error e, _) => r.1 = .error e ∧ r.2.1 = x
    | (.ok _, w) =>
      match get w with
      | .error e => r.1 = .error e ∧ r.2.1 = x
      | .ok y => r.1 = .ok () ∧ r.2.1 = y := by
  obtain ⟨R, V, hr⟩ := view_of_holds hb
  have hd : (text.map Int.ofNat).dropWhile sp = (text.dropWhile fun u : Nat => sp u).map Int.ofNat := by
    rw [List.dropWhile_map]; rfl
  have hsub : (text.dropWhile fun u : Nat => sp u).length ≤ text.length := (List.dropWhile_sublist _).length_le
  obtain ⟨b', h1, h2⟩ := (sentry_view V sp n _ s hg hr (by simp; omega)).2 (by rw [hd]; simpa using hne)
  rw [hd] at h2
  have hp := C76_stream A hA none .null B b' (text.dropWhile fun u : Nat => sp u)
    (fun u hu => hc u ((List.dropWhile_sublist _).subset hu)) ⟨R, h2, fun _ _ h => V.calm h, fun _ h => V.nil h, fun _ _ _ h => V.cons h⟩ n (by omega)
  simp only
  rw [← hp]
  unfold extractAs
  rw [h1]
  unfold parseFrom
  simp only
  generalize parse (A.cfg B n) n none .null (Lex.init (.ofBuf b') (A.fo.ofInt 0)) = q
  obtain ⟨q1, q2, q3⟩ := q
  cases q1 with
  | error e => exact ⟨rfl, rfl⟩
  | ok _ =>
    simp only
    cases get q3 with
    | error e => exact ⟨rfl, rfl⟩
    | ok y => exact ⟨rfl, rfl⟩

/-- White space in the classic locale. -/
def classicSpace (c : Int) : Bool := c == 0x20 || (0x09 ≤ c && c ≤ 0x0D)

/-- A string stream meets the hypotheses. A vertical tab, which `json::parse` rejects, is
skipped. -/
example : (extract (utf8Args true) (strSBuf 8) classicSpace 30 .null (.ofBuf (.ofString (0x0B :: ascii " [1]")))).2.1 =
    .arr [.int 1] := by decide +kernel
example : (jsonParse (utf8Args true) none .null (0x0B :: ascii " [1]")).1 = .error (.exn .deserialization) := by decide +kernel
example (text : List Nat) (h : ∀ u ∈ text, u ≠ 0) : Delivering (cacheSBuf fgetc) (IStream.ofBuf ⟨text, 0⟩).sb (text.map Int.ofNat) :=
  file_holds text h
example : (extract (utf8Args true) (strSBuf 8) classicSpace 30 (.int 7) (.ofBuf (.ofString (ascii " ")))).2.1 = .int 7 := by
  decide +kernel

theorem sentry_broken {σ : Type} {B : SBuf σ} {sp : Int → Bool} {s : IStream σ} {l : List Int} (hb : Breaking B s.sb l)
    (hl : ∀ c ∈ l, sp c = true) (hg : s.good = true) {n : Nat} (hn : l.length + 1 ≤ n) :
    ∃ b, sentry B sp n s = .ok (false, ⟨b, s.eofb, true⟩) := by
  obtain ⟨R, h0, h1, h2⟩ := hb
  unfold sentry
  rw [if_pos hg]
  have skip : ∀ (l : List Int) (u : Int) (b : σ) (n : Nat), R b (u :: l) → (∀ c ∈ u :: l, sp c = true) → (u :: l).length ≤ n →
      ∃ b', skipWs B sp n u b = .ok (none, b') := by
    intro l
    induction l with
    | nil =>
      intro u b n hr hs hn
      obtain ⟨hb, hu, h3, h4, h5, h6⟩ := h2 b u [] hr
      obtain ⟨n, rfl⟩ : ∃ k, n = k + 1 := ⟨n - 1, by simp at hn; omega⟩
      rw [skipWs, if_pos (by simp [hu, hs u (by simp)]), if_neg (by simp [hb])]
      simp only
      rw [if_neg (by rw [h5]; exact hu), if_pos (h1 _ h6)]
      exact ⟨_, rfl⟩
    | cons w l ih =>
      intro u b n hr hs hn
      obtain ⟨hb, hu, h3, h4, h5, h6⟩ := h2 b u (w :: l) hr
      obtain ⟨hb', hw, h3', h4', h5', h6'⟩ := h2 _ w l h6
      obtain ⟨n, rfl⟩ : ∃ k, n = k + 1 := ⟨n - 1, by simp at hn; omega⟩
      rw [skipWs, if_pos (by simp [hu, hs u (by simp)]), if_neg (by simp [hb])]
      simp only
      rw [if_neg (by rw [h5]; exact hu), if_neg (by simp [hb']), h3']
      exact ih w _ n h4' (fun c hc => hs c (by simp only [List.mem_cons] at hc ⊢; exact .inr hc)) (by simp at hn ⊢; omega)
  cases l with
  | nil =>
    rw [if_pos (h1 _ h0)]
    exact ⟨s.sb, rfl⟩
  | cons u l =>
    obtain ⟨hb, hu, h3, h4, h5, h6⟩ := h2 s.sb u l h0
    rw [if_neg (by simp [hb])]
    simp only
    obtain ⟨b', hb'⟩ := skip l u _ n h4 hl (by simp at hn ⊢; omega)
    rw [h3, hb']
    exact ⟨b', rfl⟩

/-- C97, if the stream buffer throws before it delivered anything but white space: the exception does not leave
`in >> json::wrap(v)`, `v` stays what it was, and `in` has failed without being at its end. So it is for
an `x` of another type (C98). -/
theorem C97_broken {σ α : Type} (A : ParseArgs F) (B : SBuf σ) (sp : Int → Bool) (v : Value F) (get : Value F → Except Stop α) (x : α)
    (s : IStream σ) (l : List Int) (hb : Breaking B s.sb l) (hl : ∀ c ∈ l, sp c = true) (hg : s.good = true)
    (n : Nat) (hn : l.length + 1 ≤ n) :
    (∃ b, extract A B sp n v s = (.ok (), v, ⟨b, false, true⟩)) ∧
    ∃ b, extractAs A B sp n get x s = (.ok (), x, ⟨b, false, true⟩) := by
  obtain ⟨b, h⟩ := sentry_broken hb hl hg hn
  have he : s.eofb = false := by
    unfold IStream.good at hg
    simp at hg
    exact hg.1
  rw [he] at h
  refine ⟨⟨b, ?_⟩, b, ?_⟩
  · unfold extract; rw [h]
  · unfold extractAs; rw [h]

/-! ## C105 -/

theorem view_of_just {σ : Type} {B : SBuf σ} {b : σ} {l : List Int} (h : DeliveringJust B b l) :
    ∃ R, View B R ∧ Stays B R ∧ R b l := by
  obtain ⟨R, h1, h0, h2, h3⟩ := h
  exact ⟨R, ⟨fun {s} h => ⟨(h2 s h).1, (h2 s h).2.2.1⟩, fun {s u us} h => h3 s u us h, fun {s l} h => h0 s l h⟩,
    ⟨fun {s} h => (h2 s h).2.1, fun {s} h => (h2 s h).2.2.2⟩, h1⟩

theorem just_of_view {σ : Type} {B : SBuf σ} {R : σ → List Int → Prop} (V : View B R) (S : Stays B R) {b : σ} {l : List Int}
    (h : R b l) : DeliveringJust B b l :=
  ⟨R, h, fun _ _ h => V.calm h, fun _ h => ⟨(V.nil h).1, S.peek h, (V.nil h).2, S.get h⟩, fun _ _ _ h => V.cons h⟩

theorem delivering_of_just {σ : Type} {B : SBuf σ} {b : σ} {l : List Int} (h : DeliveringJust B b l) : Delivering B b l := by
  obtain ⟨R, V, _, h⟩ := view_of_just h
  exact ⟨R, h, fun _ _ h => V.calm h, fun _ h => V.nil h, fun _ _ _ h => V.cons h⟩

/-- C105. `in >> json::wrap(v)` on a good stream that holds one document, without NUL, uses the
stream up: its buffer is at its end, although no flag of `in` says so. -/
theorem C105_used_up {σ : Type} (A : ParseArgs F) (hA : A.Usual) (B : SBuf σ) (sp : Int → Bool) (v : Value F) (s : IStream σ)
    (text : List Nat) (hc : ∀ u ∈ text, A.sw = 8 ∨ u ≠ 2 ^ A.sw - 1) (hb : DeliveringJust B s.sb (text.map Int.ofNat))
    (hg : s.good = true) (hne : (text.dropWhile fun u : Nat => sp u) ≠ []) (cps : List Nat)
    (hr : Reads A (text.dropWhile fun u : Nat => sp u) cps) (h0 : 0 ∉ cps) (n : Nat) (hn : 2 * text.length + 4 ≤ n)
    (hok : (extract A B sp n v s).1 = .ok ()) :
    DeliveringJust B (extract A B sp n v s).2.2.sb [] ∧ (extract A B sp n v s).2.2.good = true := by
  obtain ⟨R, V, S, hr0⟩ := view_of_just hb
  have hd : (text.map Int.ofNat).dropWhile sp = (text.dropWhile fun u : Nat => sp u).map Int.ofNat := by
    rw [List.dropWhile_map]; rfl
  have hsub : (text.dropWhile fun u : Nat => sp u).length ≤ text.length := (List.dropWhile_sublist _).length_le
  obtain ⟨b', h1, h2⟩ := (sentry_view V sp n _ s hg hr0 (by simp; omega)).2 (by rw [hd]; simpa using hne)
  have e : (text.dropWhile fun u : Nat => sp u).map Int.ofNat = unitsOf A.sw (text.dropWhile fun u : Nat => sp u) :=
    (unitsOf_ints fun u hu => hc u ((List.dropWhile_sublist _).subset hu)).symm
  rw [hd, e] at h2
  have hi : itemsOf A.se A.sw (text.dropWhile fun u : Nat => sp u) = cps.map some := itemsOf_reads hr
  have hl := itemsOf_length A.se A.sw (text.dropWhile fun u : Nat => sp u)
  unfold extract at hok ⊢
  rw [h1] at hok ⊢
  exact ⟨just_of_view V S (parse_usedUp V S hA h2 v (by show 2 * (itemsOf A.se A.sw _).length + 2 ≤ n; omega)
    (by show some 0 ∉ itemsOf A.se A.sw _; rw [hi]; simpa using h0) hok), hg⟩

/-- C105. The same for an object of another type, even if `get<T>()` throws. -/
theorem C105_used_up_as {σ α : Type} (A : ParseArgs F) (hA : A.Usual) (B : SBuf σ) (sp : Int → Bool)
    (get : Value F → Except Stop α) (x : α) (s : IStream σ)
    (text : List Nat) (hc : ∀ u ∈ text, A.sw = 8 ∨ u ≠ 2 ^ A.sw - 1) (hb : DeliveringJust B s.sb (text.map Int.ofNat))
    (hg : s.good = true) (hne : (text.dropWhile fun u : Nat => sp u) ≠ []) (cps : List Nat)
    (hr : Reads A (text.dropWhile fun u : Nat => sp u) cps) (h0 : 0 ∉ cps) (n : Nat) (hn : 2 * text.length + 4 ≤ n)
    (hok : (jsonParse A none .null (text.dropWhile fun u : Nat => sp u)).1 = .ok ()) :
    DeliveringJust B (extractAs A B sp n get x s).2.2.sb [] ∧ (extractAs A B sp n get x s).2.2.good = true := by
  have hx := (C97_extract A hA B sp .null s text hc (delivering_of_just hb) n hn).1 hg hne
  have hx1 := congrArg Prod.fst hx.1
  simp only at hx1
  rw [hok] at hx1
  have := C105_used_up A hA B sp .null s text hc hb hg hne cps hr h0 n hn hx1
  have e : (extractAs A B sp n get x s).2.2 = (extract A B sp n .null s).2.2 := by
    unfold extractAs extract
    split <;> try rfl
    simp only
    split
    · rfl
    · split <;> rfl
  rw [e]
  exact this

/-- C105. Extracting once more from a stream that is used up leaves the target as it is; the
stream is then at its end and has failed. -/
theorem C105_no_second {σ : Type} (A : ParseArgs F) (hA : A.Usual) (B : SBuf σ) (sp : Int → Bool) (v : Value F) (s : IStream σ)
    (hb : DeliveringJust B s.sb []) (hg : s.good = true) (n : Nat) (hn : 4 ≤ n) :
    let r := extract A B sp n v s
    r.1 = .ok () ∧ r.2.1 = v ∧ r.2.2.eofb = true ∧ r.2.2.failb = true :=
  (C97_extract A hA B sp v s [] (by simp) (delivering_of_just hb) n (by simpa using hn)).2.1 hg rfl

theorem file_just (text : List Nat) (h0 : ∀ u ∈ text, u ≠ 0) : DeliveringJust (cacheSBuf fgetc) ⟨text, 0⟩ (text.map Int.ofNat) := by
  refine just_of_view fileView ⟨fun {s} h => ?_, fun {s} h => ?_⟩ ⟨h0, Or.inl ⟨rfl, rfl⟩⟩
  all_goals
    obtain ⟨dev, last⟩ := s
    obtain ⟨hz, ⟨h1, h2⟩ | ⟨_, _, h2⟩ | ⟨h1, h2, _⟩⟩ := h
    · simp only at h1 h2
      have : dev = [] := by simpa [ints] using h2.symm
      subst this h1
      simp [cacheSBuf, CacheBuf.underflow, fgetc, FileAt, ints]
    · simp at h2
    · simp only at h1 h2
      subst h1 h2
      simp [cacheSBuf, CacheBuf.underflow, FileAt, ints]

/-- Two extractions from a stream with one document: the second one finds nothing. -/
example : let s : IStream (CacheBuf (List Nat)) := .ofBuf ⟨ascii "[1] ", 0⟩
    let r := extract (utf8Args true) (cacheSBuf fgetc) classicSpace 30 .null s
    let q := extract (utf8Args true) (cacheSBuf fgetc) classicSpace 30 (.int 7) r.2.2
    (r.1, r.2.1, r.2.2.good) = (.ok (), .arr [.int 1], true) ∧ (q.1, q.2.1, q.2.2.good) = (.ok (), .int 7, false) := by
  decide +kernel
example : DeliveringJust (cacheSBuf fgetc) (⟨ascii "[1] ", 0⟩ : CacheBuf (List Nat)) ((ascii "[1] ").map Int.ofNat) :=
  file_just _ (by decide)
/-- Behind a NUL the stream is not used up. -/
example : let s : IStream StrBuf := .ofBuf (.ofString (ascii "[1]" ++ 0 :: ascii "[2]"))
    let r := extract (utf8Args true) (strSBuf 8) classicSpace 30 .null s
    (r.1, r.2.1, ((strSBuf 8).sgetc r.2.2.sb).1) = (.ok (), .arr [.int 1], 0x5B) := by decide +kernel

/-! ## C99 -/

/-- C99 fails. A value of nulls, booleans, integers and arrays is dumped to a stream whose buffer
accepts nothing: the call ends normally, although nothing was written. -/
theorem C99_violated (A : DumpArgs F) (hA : A.pretty = false) (h : Option Handler) (v : Value F) (hv : Plain v = true) :
    dumpRejected A h v = (.ok (), []) :=
  dumpRejected_plain hA h v hv

example : dumpRejected (dumpArgs false false 0 0x20) none (.arr [.int 1, .null, .arr [.bool true]]) = (.ok (), []) :=
  C99_violated _ rfl _ _ (by decide +kernel)

/-- C99, the part that holds. The failure is reported for a string with a character that is
written as itself or as `\\u`. -/
theorem C99_string_reported_partial (A : DumpArgs F) (hA : A.pretty = false) (str : List Nat) (l : List (Option Nat))
    (hl : Delivers (A.se.decode A.sw (strSBuf A.sw)) (onString str) l) (c : Nat) (hc : some c ∈ l) (ho : Ordinary c) :
    (dumpRejected A none (.str str)).1 = .error (.exn .serialization) :=
  dumpRejected_string hA str hl ⟨c, hc, ho⟩

example : (dumpRejected (dumpArgs false false 0 0x20) none (.str (ascii "\n\tx"))).1 = .error (.exn .serialization) := by
  decide +kernel
/-- A string of line ends is lost without notice. -/
example : dumpRejected (dumpArgs false false 0 0x20) none (.str (ascii "\n\n")) = (.ok (), []) := by decide +kernel

/-! ## C111 -/

/-- C111 fails for files. A read error ends a file like its end does: when only the first `k`
characters of a file can be read, the call does what it does for a file with just these
characters. -/
theorem C111_file_violated (A : ParseArgs F) (hA : A.Usual) (h : Option Handler) (c : Value F) (text : List Nat) (k : Nat)
    (h0 : ∀ u ∈ text, u ≠ 0) (hc : ∀ u ∈ text, A.sw = 8 ∨ u ≠ 2 ^ A.sw - 1) :
    parseBadFile A h c text k = parseFile A h c (text.take k) := by
  rw [C76_file A hA h c _ (fun u hu => h0 u (List.mem_of_mem_take hu)) (fun u hu => hc u (List.mem_of_mem_take hu))]
  refine C76_stream A hA h c _ _ _ (fun u hu => hc u (List.mem_of_mem_take hu)) ?_ _
    (by simp only [List.length_take]; omega)
  refine ⟨fun b l => (∀ u ∈ b.dev.1, u ≠ 0) ∧
    ((b.last = 0 ∧ l = ints (b.dev.1.take b.dev.2)) ∨
      (b.last ≠ 0 ∧ b.last ≠ -1 ∧ l = b.last :: ints (b.dev.1.take b.dev.2)) ∨
      (b.last = -1 ∧ l = [])), ⟨h0, Or.inl ⟨rfl, rfl⟩⟩, fun _ _ _ => rfl, ?_, ?_⟩
  · rintro ⟨⟨l, k⟩, last⟩ ⟨hz, ⟨h1, h2⟩ | ⟨_, _, h2⟩ | ⟨h1, _⟩⟩
    · simp only at h1 h2
      subst h1
      cases k with
      | zero => simp [cacheSBuf, CacheBuf.underflow, fgetcErr]
      | succ k =>
        cases l with
        | nil => simp [cacheSBuf, CacheBuf.underflow, fgetcErr]
        | cons u us => simp [ints] at h2
    · simp at h2
    · simp only at h1
      subst h1
      simp [cacheSBuf, CacheBuf.underflow]
  · rintro ⟨⟨l, k⟩, last⟩ u us ⟨hz, ⟨h1, h2⟩ | ⟨h1, h2, h3⟩ | ⟨_, h2⟩⟩
    · simp only at h1 h2 hz
      subst h1
      cases k with
      | zero => simp [ints] at h2
      | succ k =>
        cases l with
        | nil => simp [ints] at h2
        | cons v vs =>
          simp only [ints, List.take_succ_cons, List.map_cons, List.cons.injEq] at h2
          obtain ⟨rfl, rfl⟩ := h2
          have hv := hz v (by simp)
          have hu : CacheBuf.underflow fgetcErr ⟨(v :: vs, k + 1), 0⟩ = ((v : Int), ⟨(vs, k), (v : Int)⟩) := by
            simp [CacheBuf.underflow, fgetcErr]
          have hm : ∀ u ∈ vs, u ≠ 0 := fun u hu => hz u (List.mem_cons_of_mem _ hu)
          dsimp only [cacheSBuf]
          rw [hu]
          exact ⟨by omega, rfl, ⟨hm, Or.inr (Or.inl ⟨(by omega : (v : Int) ≠ 0), (by omega : (v : Int) ≠ -1), rfl⟩)⟩, rfl, ⟨hm, Or.inl ⟨rfl, rfl⟩⟩⟩
    · simp only [List.cons.injEq] at h1 h2 h3 hz
      obtain ⟨rfl, rfl⟩ := h3
      have hu : CacheBuf.underflow fgetcErr ⟨(l, k), u⟩ = (u, ⟨(l, k), u⟩) := by simp [CacheBuf.underflow, h1]
      dsimp only [cacheSBuf]
      rw [hu]
      exact ⟨h2, rfl, ⟨hz, Or.inr (Or.inl ⟨h1, h2, rfl⟩)⟩, rfl, ⟨hz, Or.inl ⟨rfl, rfl⟩⟩⟩
    · simp at h2

/-- So a file with `1234` of which two characters can be read is the number 12. -/
example : parseBadFile (utf8Args true) none .null (ascii "1234") 2 = (.ok (), .int 12) ∧
    parseFile (utf8Args true) none .null (ascii "1234") = (.ok (), .int 1234) := by decide +kernel

theorem quiet_view {σ : Type} {B : SBuf σ} {b : σ} {l : List Int} (h : Breaking B b l) :
    ∃ R, View B.quiet R ∧ (∀ s, R s [] → B.throws s = true) ∧ R b l := by
  obtain ⟨R, h1, h2, h3⟩ := h
  refine ⟨R, ⟨fun {s} h => ?_, fun {s u us} h => ?_, fun _ => rfl⟩, h2, h1⟩
  · simp [SBuf.quiet, h2 s h]
  · obtain ⟨h0, h⟩ := h3 s u us h
    simpa [SBuf.quiet, h0] using h

theorem broken_call {σ : Type} {A : ParseArgs F} (hA : A.Usual) (c : Value F) {B : SBuf σ} {b : σ} {u : List Int}
    (hb : Breaking B b u) (h0 : some 0 ∉ items (A.se.step A.sw) u) {n : Nat} (hn : 2 * u.length + 4 ≤ n) :
    ∃ e, (parseFrom A B n none c b).1 = .error e ∧ e ≠ .fuel := by
  obtain ⟨R, V, ht, hr⟩ := quiet_view hb
  have hd := broken_delivers A.se A.sw V ht hr
  have hl := items_length (A.se.step A.sw) u
  have hk : ((items (A.se.step A.sw) u).takeWhile Option.isSome).length ≤ (items (A.se.step A.sw) u).length :=
    (List.takeWhile_sublist _).length_le
  have hn' : 2 * ((items (A.se.step A.sw) u).takeWhile Option.isSome ++ [none]).length + 2 ≤ n := by simp; omega
  rw [parseFrom_delivers hA hd none c hn' hn']
  have h1 := parseItems_sound hA c hn'
  have h2 := parseItems_nofuel hA none c hn'
  rcases hp : parseItems A n none c ((items (A.se.step A.sw) u).takeWhile Option.isSome ++ [none]) with ⟨e | _, v⟩
  · exact ⟨e, rfl, fun he => h2 (by rw [hp, he])⟩
  · rw [hp] at h1
    exact (document_broken (fun h => h0 ((List.takeWhile_sublist _).subset h)) h1).elim

/-- C111, the part that holds. If reading the source throws behind some text, without NUL, the
call ends, and not normally, even if that text is a complete document. -/
theorem C111_throwing_partial {σ : Type} (A : ParseArgs F) (hA : A.Usual) (c : Value F) (B : SBuf σ) (b : σ)
    (text : List Nat) (hc : ∀ u ∈ text, A.sw = 8 ∨ u ≠ 2 ^ A.sw - 1) (hb : Breaking B b (text.map Int.ofNat))
    (l : List (Option Nat)) (hl : Sees A text l) (h0 : some 0 ∉ l) (n : Nat) (hn : 2 * text.length + 4 ≤ n) :
    ∃ e, (parseFrom A B n none c b).1 = .error e ∧ e ≠ .fuel := by
  refine broken_call hA c hb ?_ (by simpa using hn)
  have e : text.map Int.ofNat = unitsOf A.sw text := (unitsOf_ints hc).symm
  rw [e]
  rw [(sees_iff A text l).mp hl] at h0
  exact h0

theorem throwing_breaks (w : Nat) (text : List Nat) (hs : Sendable w text) :
    Breaking (throwingSBuf (adapterRead w) List.isEmpty) ⟨text, 0⟩ (text.map (signExtend w)) := by
  refine ⟨fun b l => (∀ u ∈ b.dev, signExtend w u ≠ 0 ∧ signExtend w u ≠ -1) ∧ b.last ≠ -1 ∧
    l = (if b.last = 0 then [] else [b.last]) ++ b.dev.map (signExtend w), ⟨fun u hu =>
      ⟨signExtend_nonzero (hs u hu).2.1 (hs u hu).1, signExtend_noEof (hs u hu).2.2⟩, by simp, by simp⟩, ?_, ?_⟩
  · rintro ⟨dev, last⟩ ⟨_, _, h⟩
    by_cases hz : last = 0
    · subst hz
      cases dev with
      | nil => rfl
      | cons v vs => simp at h
    · simp [hz] at h
  · rintro ⟨dev, last⟩ u us ⟨h0, h1, h⟩
    simp only at h0 h1
    by_cases hz : last = 0
    · subst hz
      cases dev with
      | nil => simp at h
      | cons v vs =>
        simp only [if_true, List.nil_append, List.map_cons, List.cons.injEq] at h
        obtain ⟨rfl, rfl⟩ := h
        have hv := h0 v (by simp)
        refine ⟨rfl, hv.2, rfl, ⟨fun u hu => h0 u (List.mem_cons_of_mem _ hu), hv.2, ?_⟩, rfl,
          ⟨fun u hu => h0 u (List.mem_cons_of_mem _ hu), by simp [throwingSBuf, cacheSBuf], ?_⟩⟩
        · simp [throwingSBuf, cacheSBuf, CacheBuf.underflow, adapterRead, hv.1]
        · simp [throwingSBuf, cacheSBuf, CacheBuf.underflow, adapterRead]
    · simp only [hz, if_false, List.singleton_append, List.cons.injEq] at h
      obtain ⟨rfl, rfl⟩ := h
      have hu : CacheBuf.underflow (adapterRead w) ⟨dev, u⟩ = (u, ⟨dev, u⟩) := by simp [CacheBuf.underflow, hz]
      refine ⟨by simp [throwingSBuf, hz], h1, by simp [throwingSBuf, cacheSBuf, hu], ?_, by simp [throwingSBuf, cacheSBuf, hu], ?_⟩
      · simp only [throwingSBuf, cacheSBuf, hu]
        exact ⟨h0, h1, by simp [hz]⟩
      · simp only [throwingSBuf, cacheSBuf, hu]
        exact ⟨h0, by simp, by simp⟩

/-- C111, the part that holds, for an adapter that throws behind the text. -/
theorem C111_adapter_partial (A : ParseArgs F) (hA : A.Usual) (hf : A.se.Fits A.sw) (c : Value F) (text : List Nat)
    (hs : Sendable A.sw text) (l : List (Option Nat)) (hl : Sees A text l) (h0 : some 0 ∉ l)
    (n : Nat) (hn : 2 * text.length + 4 ≤ n) :
    ∃ e, (parseThrowing A none c text n).1 = .error e ∧ e ≠ .fuel := by
  refine broken_call hA c (throwing_breaks A.sw text hs) ?_ (by simpa using hn)
  rw [items_signExtend hf, ← unitsOf_ints hs.noEof]
  rw [(sees_iff A text l).mp hl] at h0
  exact h0

/-- The hypotheses are met: an adapter that throws behind `[12]` makes the call throw; one that
delivers NULs there does not. -/
example : (parseThrowing (utf8Args true) none .null (ascii "[12]") 12).1 = .error (.exn .deserialization) ∧
    (parseAdapter (utf8Args true) none .null (ascii "[12]") 12) = (.ok (), .arr [.int 12]) := by decide +kernel
example : Sees (utf8Args true) (ascii "[12]") ((ascii "[12]").map some) ∧ some 0 ∉ (ascii "[12]").map some ∧
    Sendable 8 (ascii "[12]") := by
  refine ⟨(sees_iff _ _ _).mpr ?_, ?_, ?_⟩ <;> decide +kernel
/-- White space and then an exception, for C97. -/
example : Breaking (throwingSBuf (adapterRead 8) List.isEmpty) (IStream.ofBuf ⟨ascii "  ", 0⟩ : IStream (CacheBuf (List Nat))).sb ((ascii "  ").map (signExtend 8)) ∧
    ∀ c ∈ (ascii "  ").map (signExtend 8), classicSpace c = true :=
  ⟨throwing_breaks 8 (ascii "  ") (by decide), by decide⟩
example : Breaking (throwingSBuf (adapterRead 8) List.isEmpty) ⟨ascii "[12]", 0⟩ ((ascii "[12]").map Int.ofNat) :=
  throwing_breaks 8 (ascii "[12]") (by decide +kernel)

end Configor.Props
