import Verif.Proofs.Portable
import Verif.Props.Stream
/-!
# Properties of values and objects in stream expressions

`insert` is `out << json::wrap(v)`, `extract` is `in >> json::wrap(v)`; `insertAs` and `extractAs`
are the same for objects of other types.
-/
set_option autoImplicit false
namespace Configor.Props
open Spec

variable {F : Type}

/-- What a value with a text needs, to be written and read back (as in C31): its strings and
keys are text in the value's encoding, of code points that can be read back. -/
def Sent (uesc : Bool) (sw tw : Nat) (spec : Nat → List Nat) (s : List Nat) : Prop :=
  ∃ cps : List Nat, s = cps.flatMap spec ∧ ∀ c ∈ cps, Rereadable uesc c ∧ (sw = 16 ∨ tw = 16 → c ≠ 0xFFFF)

/-- In the stream's locale, printable ASCII characters are not white space. -/
def UsualSpace (sp : Int → Bool) : Prop := ∀ c : Nat, 0x21 ≤ c → c < 0x7F → sp c = false

theorem dropWhile_blank {sp : Int → Bool} {pre t : List Nat} (hpre : ∀ c ∈ pre, sp c = true) {c : Nat} {r : List Nat} (ht : t = c :: r)
    (hc : sp c = false) : (pre ++ t).dropWhile (fun u : Nat => sp u) = t := by
  induction pre with
  | nil => subst ht; simp [hc]
  | cons p pre ih =>
    rw [List.cons_append, List.dropWhile_cons_of_pos (by simpa using hpre p (by simp))]
    exact ih fun c h => hpre c (by simp [h])

/-- What `out << json::wrap(v)` writes, with all that is known about it. -/
theorem written (A : DumpArgs F) (B : ParseArgs F) (hAB : Reverses A B) (spec spec' : Nat → List Nat)
    (hs : Target A.se A.sw spec) (ht : Target A.te A.tw spec') (hb : A.pretty = true → A.ch = 0x20 ∨ A.ch = 0x09)
    (v : Value F) (hv : Carried (Sent A.uesc A.sw A.tw spec) v) :
    ∃ t, (∀ str, jsonDump A none str v = (.ok (), str ++ t)) ∧ (∀ h c, jsonParse B h c t = (.ok (), v)) ∧
      NoEof A.tw t ∧ ∃ c r, t = c :: r ∧ Printable c := by
  have := dump_parse hAB hs ht hb v hv.sorted hv.ints (fun f h => absurd h (hv.flts f)) hv.texts
  exact ⟨_, this.1, this.2, text_noEof hs ht hb v (fun f h => absurd h (hv.flts f)) hv.texts, text_head A spec' v hv.flts⟩

/-! ## C103: values -/

/-- C103. `out << json::wrap(v)` on a good stream appends a text, clears the width and changes
nothing else; on a stream that is not good it does nothing. `in >> json::wrap(w)`, on any good stream that holds
the text, after any white space, gives back the value, whatever `w` was; for every value without
floats, of integers other than -2^63 and of valid text. The width of `out` may be anything if its
fill character is a blank or a tab; `sp` is white space in the locale of `in`. -/
theorem C103_insert_extract (se te : Enc) (sw tw : Nat) (spec spec' : Nat → List Nat) (hs : Target se sw spec) (ht : Target te tw spec')
    (fo : FloatOps F) (out : OutStream) (hfill : out.width > 0 → out.fill = 0x20 ∨ out.fill = 0x09)
    (v : Value F) (hv : KeysSorted v) (hf : ∀ f, ¬ HasFloat v f)
    (hi : ∀ i, HasInt v i → -9223372036854775808 < i ∧ i < 9223372036854775808) (htx : ∀ s, HasText v s → Sent false sw tw spec s) :
    (out.good = false → insert se sw te tw fo v out = (.ok (), out)) ∧
    (out.good = true → ∃ t, insert se sw te tw fo v out = (.ok (), { out with text := out.text ++ t, width := 0 }) ∧
      ∀ (debug : Bool) (fo' : FloatOps F) (σ : Type) (B : SBuf σ) (sp : Int → Bool) (s : IStream σ) (w : Value F) (pre : List Nat) (n : Nat),
        UsualSpace sp → (∀ c ∈ pre, sp c = true ∧ (tw = 8 ∨ c ≠ 2 ^ tw - 1)) → s.good = true →
        Delivering B s.sb ((pre ++ t).map Int.ofNat) → 2 * (pre ++ t).length + 4 ≤ n →
        let r := extract ⟨te, tw, se, sw, debug, fo'⟩ B sp n w s
        r.1 = .ok () ∧ r.2.1 = v ∧ r.2.2.good = true) := by
  refine ⟨fun h => by simp [insert, h], fun hg => ?_⟩
  let A := DumpArgs.ofStream se sw te tw out.width out.fill fo
  obtain ⟨t, h1, h2, h3, c, r, h4, h5⟩ := written A ⟨te, tw, se, sw, true, fo⟩ ⟨rfl, rfl, rfl, rfl⟩ spec spec' hs ht
    (fun h => hfill (by simpa [A, DumpArgs.ofStream] using h)) v ⟨hv, hf, hi, htx⟩
  refine ⟨t, by simp [insert, hg, h1, A], ?_⟩
  intro debug fo' σ B sp s w pre n hsp hpre hgood hb hn
  obtain ⟨t', h1', h2', _, _⟩ := written A ⟨te, tw, se, sw, debug, fo'⟩ ⟨rfl, rfl, rfl, rfl⟩ spec spec' hs ht
    (fun h => hfill (by simpa [A, DumpArgs.ofStream] using h)) v ⟨hv, hf, hi, htx⟩
  have e : t' = t := by
    have := (h1' []).symm.trans (h1 [])
    simpa using this
  subst e
  have hdrop := dropWhile_blank (fun c h => (hpre c h).1) h4 (hsp c h5.1 h5.2)
  have hA : (⟨te, tw, se, sw, debug, fo'⟩ : ParseArgs F).Usual := ⟨ht.width, hs.width⟩
  obtain ⟨hx, _, _⟩ := C97_extract ⟨te, tw, se, sw, debug, fo'⟩ hA B sp w s (pre ++ t')
    (fun u hu => (List.mem_append.1 hu).elim (fun h => (hpre u h).2) (fun h => h3 u h)) hb n hn
  rw [hdrop] at hx
  obtain ⟨ha, hb', hc⟩ := hx hgood (by rw [h4]; simp)
  rw [h2' none w] at ha
  have ha := Prod.mk.inj ha
  refine ⟨ha.1, ha.2, ?_⟩
  unfold IStream.good at hgood ⊢
  rw [hb', hc]
  exact hgood

/-- The hypotheses are met, and a concrete run. -/
example : UsualSpace classicSpace := by
  intro c h1 h2
  unfold classicSpace
  simp
  omega
example : (insert .utf8 8 .utf8 8 unitFloat sample ⟨ascii "x", 2, 0x20, true⟩).1 = .ok () := by decide +kernel
example (str : List Nat) (h : ∀ u ∈ str, u ≠ 0) : Delivering (cacheSBuf fgetc) (⟨str, 0⟩ : CacheBuf (List Nat)) (str.map Int.ofNat) := file_holds str h

/-! ## C104: objects -/

/-- C104. An object of any type made of booleans, integers, strings, sequences, ordered sets and
maps, smart pointers and bound structs survives `json::dump` and `json::parse`: the text dumped for
it parses, and `get<T>()` of the result is the object. For every encoding of the strings and of
the text, compact or indented. `Portable` lists the types and what is asked of the object. -/
theorem C104_object_text {T : Type} (A : DumpArgs F) (B : ParseArgs F) (hAB : Reverses A B) (spec spec' : Nat → List Nat)
    (hs : Target A.se A.sw spec) (ht : Target A.te A.tw spec') (hb : A.pretty = true → A.ch = 0x20 ∨ A.ch = 0x09)
    (E : Conv F T) (P : T → Prop) (hE : Portable (Sent A.uesc A.sw A.tw spec) E P) (x : T) (hx : P x) :
    ∃ v t, E.toValue x = .ok v ∧ (∀ str, jsonDump A none str v = (.ok (), str ++ t)) ∧
      ∀ h c, ∃ w, jsonParse B h c t = (.ok (), w) ∧ E.get w = .ok x := by
  obtain ⟨v, h1, h2, h3⟩ := portable_carries hE x hx
  obtain ⟨t, h4, h5, _⟩ := written A B hAB spec spec' hs ht hb v h3
  exact ⟨v, t, h1, h4, fun h c => ⟨v, h5 h c, h2⟩⟩

/-- C104, for stream expressions: `out << json::wrap(x)` and then `in >> json::wrap(y)` make `y`
equal to `x`. -/
theorem C104_object_stream {T : Type} (se te : Enc) (sw tw : Nat) (spec spec' : Nat → List Nat) (hs : Target se sw spec) (ht : Target te tw spec')
    (fo : FloatOps F) (out : OutStream) (hg : out.good = true) (hfill : out.width > 0 → out.fill = 0x20 ∨ out.fill = 0x09)
    (E : Conv F T) (P : T → Prop) (hE : Portable (Sent false sw tw spec) E P) (x : T) (hx : P x) :
    ∃ t, insertAs se sw te tw fo E.toValue x out = (.ok (), { out with text := out.text ++ t, width := 0 }) ∧
      ∀ (debug : Bool) (fo' : FloatOps F) (σ : Type) (B : SBuf σ) (sp : Int → Bool) (s : IStream σ) (y : T) (pre : List Nat) (n : Nat),
        UsualSpace sp → (∀ c ∈ pre, sp c = true ∧ (tw = 8 ∨ c ≠ 2 ^ tw - 1)) → s.good = true →
        Delivering B s.sb ((pre ++ t).map Int.ofNat) → 2 * (pre ++ t).length + 4 ≤ n →
        let r := extractAs ⟨te, tw, se, sw, debug, fo'⟩ B sp n E.get y s
        r.1 = .ok () ∧ r.2.1 = x := by
  obtain ⟨v, h1, h2, h3⟩ := portable_carries hE x hx
  let A := DumpArgs.ofStream se sw te tw out.width out.fill fo
  have hfill : A.pretty = true → A.ch = 0x20 ∨ A.ch = 0x09 := fun h => hfill (by simpa [A, DumpArgs.ofStream] using h)
  obtain ⟨t, h4, _, h6, c, r, h7, h8⟩ := written A ⟨te, tw, se, sw, true, fo⟩ ⟨rfl, rfl, rfl, rfl⟩ spec spec' hs ht hfill v h3
  refine ⟨t, by simp [insertAs, insert, hg, h1, h4, A], ?_⟩
  intro debug fo' σ B sp s y pre n hsp hpre hgood hb hn
  obtain ⟨t', h4', h5', _, _⟩ := written A ⟨te, tw, se, sw, debug, fo'⟩ ⟨rfl, rfl, rfl, rfl⟩ spec spec' hs ht hfill v h3
  have e : t' = t := by
    have := (h4' []).symm.trans (h4 [])
    simpa using this
  subst e
  have hdrop := dropWhile_blank (fun c h => (hpre c h).1) h7 (hsp c h8.1 h8.2)
  have hA : (⟨te, tw, se, sw, debug, fo'⟩ : ParseArgs F).Usual := ⟨ht.width, hs.width⟩
  have := C98_extract_as ⟨te, tw, se, sw, debug, fo'⟩ hA B sp E.get y s (pre ++ t')
    (fun u hu => (List.mem_append.1 hu).elim (fun h => (hpre u h).2) (fun h => h6 u h)) hb hgood (by rw [hdrop, h7]; simp) n hn
  rw [hdrop, h5' none .null] at this
  simp only [h2] at this
  exact this

/-- C104. If `x` cannot be converted to a value, `out << json::wrap(x)` throws the exception of the conversion and writes nothing;
on a stream that is not good it does nothing at all, not even a conversion. -/
theorem C104_insert_failure {T : Type} (se te : Enc) (sw tw : Nat) (fo : FloatOps F) (E : Conv F T) (x : T) (out : OutStream) :
    (∀ e, out.good = true → E.toValue x = .error e → insertAs se sw te tw fo E.toValue x out = (.error e, out)) ∧
    (out.good = false → insertAs se sw te tw fo E.toValue x out = (.ok (), out)) := by
  unfold insertAs
  refine ⟨fun e hg he => ?_, fun hg => ?_⟩
  · rw [if_pos hg, he]
  · rw [if_neg (by simp [hg])]

/-- An element that cannot be converted makes the whole vector fail. -/
example : (Conv.vector (⟨fun _ => .error (.exn .typeError), fun _ x => (.ok (), x), 0⟩ : Conv Unit Nat)).toValue [1, 2] =
    .error (.exn .typeError) := rfl

/-- A `std::map` of vectors of structs, as in `{"x":[{"a":1,"b":2},{"a":3}]}`, meets the
hypotheses. -/
def points : List (List Nat × List (Int × Int)) := [([0x78], [(1, 2), (3, 0)])]

theorem sent_ascii {s : List Nat} (h : ∀ c ∈ s, 0x20 ≤ c ∧ c < 128) : Sent false 8 8 utf8 s := by
  refine ⟨s, (flatMap_fix fun c hc => Target.ascii .utf8 (h c hc).2).symm, fun c hc => ⟨⟨?_, .inr ⟨(h c hc).1, nofun⟩⟩, by simp⟩⟩
  have := (h c hc).2
  unfold IsScalar IsSurrogate maxCp
  omega

theorem pair_portable : ∃ P : Int × Int → Prop, Portable (Sent false 8 8 utf8) (Conv.bind (pairFields : List (Field Unit _)) (0, 0)) P ∧
    P (1, 2) ∧ P (3, 0) := by
  let Q : (f : Field Unit (Int × Int)) → f.T → Prop := fun f x =>
    ∀ y : Int, HEq x y → InRange true 32 y ∧ y ≠ -9223372036854775808 ∧ y ≠ 9223372036854775808
  have hint : Portable (Sent false 8 8 utf8) (Conv.int true 32 : Conv Unit Int) fun x =>
      ∀ y : Int, HEq x y → InRange true 32 y ∧ y ≠ -9223372036854775808 ∧ y ≠ 9223372036854775808 := by
    have e : (fun x : Int => ∀ y : Int, HEq x y → InRange true 32 y ∧ y ≠ -9223372036854775808 ∧ y ≠ 9223372036854775808) =
        fun x => InRange true 32 x ∧ x ≠ -9223372036854775808 ∧ x ≠ 9223372036854775808 := by
      funext x
      exact propext ⟨fun h => h x HEq.rfl, fun h y hy => eq_of_heq hy ▸ h⟩
    rw [e]
    exact .int true 32 (by decide) (by decide)
  refine ⟨_, .struct (P := Q) pairFields_lenses (by decide) ?_ ?_ ?_ ?_, ?_, ?_⟩
  · intro f hf
    simp [pairFields] at hf
    rcases hf with rfl | rfl <;> exact sent_ascii (by decide)
  · intro s s' h
    have h1 := h _ (List.mem_cons_self ..)
    have h2 := h _ (List.mem_cons_of_mem _ (List.mem_cons_self ..))
    exact Prod.ext h1.symm h2.symm
  · intro f hf
    simp [pairFields] at hf
    rcases hf with rfl | rfl <;> exact .inl rfl
  · intro f hf
    simp [pairFields] at hf
    rcases hf with rfl | rfl <;> exact hint
  · intro f hf
    simp [pairFields] at hf
    rcases hf with rfl | rfl
    · exact ⟨fun y hy => eq_of_heq hy ▸ ⟨⟨by decide, by decide⟩, by decide, by decide⟩, by decide⟩
    · exact ⟨fun y hy => eq_of_heq hy ▸ ⟨⟨by decide, by decide⟩, by decide, by decide⟩, by decide⟩
  · intro f hf
    simp [pairFields] at hf
    rcases hf with rfl | rfl
    · exact ⟨fun y hy => eq_of_heq hy ▸ ⟨⟨by decide, by decide⟩, by decide, by decide⟩, by decide⟩
    · exact ⟨fun y hy => eq_of_heq hy ▸ ⟨⟨by decide, by decide⟩, by decide, by decide⟩, fun _ => rfl⟩

example : ∃ P, Portable (Sent false 8 8 utf8) (Conv.map (Conv.vector (Conv.bind (pairFields : List (Field Unit _)) (0, 0))) Map.emplace) P ∧
    P points := by
  obtain ⟨P, h, h1, h2⟩ := pair_portable
  refine ⟨_, .map (.vector h), by decide, fun x hx => ?_⟩
  simp [points] at hx
  subst hx
  refine ⟨sent_ascii (by decide), by decide, fun y hy => ?_⟩
  simp at hy
  rcases hy with rfl | rfl
  · exact h1
  · exact h2

example : jsonDump (dumpArgs false false 0 0) none []
      (.obj [([0x78], .arr [.obj [([0x61], .int 1), ([0x62], .int 2)], .obj [([0x61], .int 3)]])]) =
    (.ok (), ascii "{\"x\":[{\"a\":1,\"b\":2},{\"a\":3}]}") := by decide +kernel

end Configor.Props
