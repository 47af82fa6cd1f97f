import Verif.Proofs.Pretty
import Verif.Props.Dump
/-!
# C101, C102: the layout of indented texts, and the options of `dump`
-/
set_option autoImplicit false
namespace Configor.Props
open Spec

variable {F : Type}

/-! ## C101 -/

/-- The text of a call with indentation, for the settings the serializer ends up with. -/
theorem layout (A : DumpArgs F) (hp : A.pretty = true) (hc : A.ch ≠ 0) (str : List Nat) (v : Value F) {r : List Nat}
    (h : jsonDump A none str v = (.ok (), r)) (A0 : DumpArgs F) (h0 : A0 = { A with pretty := false, step := A0.step }) :
    r = str ++ textOfLines (fun d => d % 65536 * A.step) A.ch (linesOf (fun t => (jsonDump A0 none [] t).2) A.ch 0 v) := by
  obtain ⟨hg, hr⟩ := jsonDump_good h
  have tok : ∀ t : Value F, GoodVal A t → (jsonDump A0 none [] t).2 = A0.printer'.text 0 t := by
    intro t ht
    rw [jsonDump_ok A0 [] t (by rw [h0]; exact ht)]
    simp
  have flat : ∀ t : Value F, (∀ s, ¬ HasText t s) → (∀ f, ¬ HasFloat t f) → (jsonDump A0 none [] t).2 = A0.printer'.text 0 t :=
    fun t h1 h2 => tok t ⟨fun s hs => absurd hs (h1 s), fun f hf => absurd hf (h2 f)⟩
  have H : Agree A.printer' (fun d => d % 65536 * A.step) (fun t => (jsonDump A0 none [] t).2) := by
    refine ⟨?_, ?_, ?_, ?_, ?_, ?_⟩
    · show Style.nl A.style = _
      simp [Style.nl, DumpArgs.style, hp]
    · intro d
      show Style.indent A.style d = List.replicate _ A.ch
      simp [Style.indent, DumpArgs.style, hp, hc]
    · show Style.space A.style = [A.ch]
      simp [Style.space, DumpArgs.style, hp]
    · exact flat _ nofun nofun
    · intro b
      rw [flat (.bool b) nofun nofun]
      cases b <;> rfl
    · intro i
      exact flat _ nofun nofun
  have hs : A.printer'.text 0 v = body (fun d => d % 65536 * A.step) A.ch (linesOf (fun t => (jsonDump A0 none [] t).2) A.ch 0 v) := by
    refine text_lines H 0 v ?_ ?_
    · intro s hs
      show (jsonDump A0 none [] _).2 = _
      rw [tok (.str s) ⟨fun s' h' => by cases h'; exact hg.1 s hs, nofun⟩, h0]
      rfl
    · intro f hf
      show (jsonDump A0 none [] _).2 = _
      rw [tok (.flt f) ⟨nofun, fun f' h' => by cases h'; exact hg.2 f hf⟩, h0]
      rfl
  rw [hr, hs]
  obtain ⟨t, ls, e⟩ := linesOf_starts (fun t => (jsonDump A0 none [] t).2) A.ch 0 v
  rw [e, textOfLines_cons]
  simp [body]

theorem layout_shallow (A : DumpArgs F) (hp : A.pretty = true) (hc : A.ch ≠ 0) (str : List Nat) (v : Value F) (hl : levels v < 65536) {r : List Nat}
    (h : jsonDump A none str v = (.ok (), r)) (A0 : DumpArgs F) (h0 : A0 = { A with pretty := false, step := A0.step }) :
    r = str ++ textOfLines (· * A.step) A.ch (linesOf (fun t => (jsonDump A0 none [] t).2) A.ch 0 v) := by
  rw [layout A hp hc str v h A0 h0]
  congr 1
  refine textOfLines_congr fun l hl' => ?_
  have := lines_depths _ _ _ _ l hl'
  rw [Nat.mod_eq_of_lt (by omega)]

/-- C101, for indentation by less than 256 characters and values with less than 65536 levels. `dump(str, v, {with_indent(n, ch)})`
appends the lines of `v`, each indented by `n` times its depth; scalars, strings and keys are written as they are without
indentation. Missing: more than that, see `C101_violated_step` and `C101_violated_deep`. -/
theorem C101_indent_option_partial (A : DumpArgs F) (step ch : Nat) (hs : 0 < step) (hs' : step < 256) (hc : ch ≠ 0) (str : List Nat) (v : Value F)
    (hl : levels v < 65536) {r : List Nat} (h : jsonDump (A.prepare [.indent step ch]) none str v = (.ok (), r)) :
    r = str ++ textOfLines (· * step) ch (linesOf (fun t => (jsonDump (A.prepare [.indent 0 ch]) none [] t).2) ch 0 v) := by
  have hm : step % 256 = step := Nat.mod_eq_of_lt hs'
  have := layout_shallow (A.prepare [.indent step ch]) (by simp [DumpArgs.prepare, DumpArgs.apply, hm, hs]) hc str v hl h (A.prepare [.indent 0 ch])
    (by simp [DumpArgs.prepare, DumpArgs.apply])
  simpa [DumpArgs.prepare, DumpArgs.apply, hm] using this

/-- C101, for indentation by less than 256 characters and values with less than 65536 levels. The same for
`os << std::setw(n) << std::setfill(ch) << v`. -/
theorem C101_stream_width_partial (se : Enc) (sw : Nat) (te : Enc) (tw width fill : Nat) (fo : FloatOps F) (hs : 0 < width) (hs' : width < 256) (hc : fill ≠ 0)
    (str : List Nat) (v : Value F) (hl : levels v < 65536) {r : List Nat} (h : jsonDump (.ofStream se sw te tw width fill fo) none str v = (.ok (), r)) :
    r = str ++ textOfLines (· * width) fill (linesOf (fun t => (jsonDump (.ofStream se sw te tw 0 fill fo) none [] t).2) fill 0 v) := by
  have hm : width % 256 = width := Nat.mod_eq_of_lt hs'
  have := layout_shallow (.ofStream se sw te tw width fill fo) (by simp [DumpArgs.ofStream, hs]) hc str v hl h (.ofStream se sw te tw 0 fill fo)
    (by simp [DumpArgs.ofStream])
  simpa [DumpArgs.ofStream, hm] using this

/-- The arguments of `json::dump` of UTF-8 strings. -/
def plainArgs (fo : FloatOps F) : DumpArgs F := .ofStream .utf8 8 .utf8 8 0 0x20 fo

/-- The hypotheses are met: `{"a":[1,true,"é\n"],"b":{},"c":[[],-5]}` with an indent of 2 is written on 14 lines. -/
example : ∃ r, jsonDump ((dumpArgs false false 0 0).prepare [.indent 2 0x20]) none [] sample = (.ok (), r) ∧
    levels sample < 65536 ∧ (r.filter (· = 0x0A)).length = 13 :=
  ⟨(jsonDump ((dumpArgs false false 0 0).prepare [.indent 2 0x20]) none [] sample).2, by decide +kernel⟩

/-- The lines of `[{"a": null}, []]`. -/
example (tok : Value F → List Nat) : linesOf tok 0x20 0 (.arr [.obj [([0x61], .null)], .arr []]) =
    [(0, [0x5B]), (1, [0x7B]), (2, tok (.str [0x61]) ++ [0x3A, 0x20] ++ tok .null), (1, [0x7D, 0x2C]), (1, [0x5B]), (1, [0x5D]), (0, [0x5D])] := rfl

set_option maxRecDepth 100000 in
/-- C101 does not hold for an indent of 256: the option is the same as no indentation, and a stream width of 256 gives lines
without indentation. The text of `[null]` is not the one expected. -/
theorem C101_violated_step (fo : FloatOps F) :
    jsonDump ((plainArgs fo).prepare [.indent 256 0x20]) none [] (.arr [.null]) = (.ok (), [0x5B, 0x6E, 0x75, 0x6C, 0x6C, 0x5D]) ∧
    jsonDump (.ofStream .utf8 8 .utf8 8 256 0x20 fo) none [] (.arr [.null]) = (.ok (), [0x5B, 0x0A, 0x6E, 0x75, 0x6C, 0x6C, 0x0A, 0x5D]) ∧
    textOfLines (· * 256) 0x20 (linesOf (fun t => (jsonDump ((plainArgs fo).prepare [.indent 0 0x20]) none [] t).2) 0x20 0 (.arr [.null])) =
      [0x5B, 0x0A] ++ List.replicate 256 0x20 ++ [0x6E, 0x75, 0x6C, 0x6C, 0x0A, 0x5D] :=
  ⟨rfl, rfl, rfl⟩

/-- `n` arrays in one another. -/
def towerOf : Nat → Value F
  | 0 => .arr []
  | n + 1 => .arr [towerOf n]

theorem towerOf_good (A : DumpArgs F) : ∀ n, GoodVal A (towerOf n)
  | 0 => by
    refine ⟨fun s h => ?_, fun f h => ?_⟩
    · cases h with
      | elem h _ => cases h
    · cases h with
      | elem h _ => cases h
  | n + 1 => by
    obtain ⟨h1, h2⟩ := towerOf_good A n
    refine ⟨fun s h => ?_, fun f h => ?_⟩
    · cases h with
      | elem h h' => rw [List.mem_singleton.1 h] at h'; exact h1 s h'
    · cases h with
      | elem h h' => rw [List.mem_singleton.1 h] at h'; exact h2 f h'

theorem towerOf_deep (tok : Value F → List Nat) (ch : Nat) : ∀ n d, (d + n, [0x5B]) ∈ linesOf tok ch d (towerOf n)
  | 0, d => by simp [towerOf, linesOf]
  | n + 1, d => by
    have := towerOf_deep tok ch n (d + 1)
    simp only [towerOf, linesOf, elemLines, withCommas]
    rw [show d + (n + 1) = d + 1 + n by omega]
    simp [this]

theorem more_length {w w' : Nat → Nat} (hw : ∀ d, w' d ≤ w d) (ch : Nat) : ∀ ls, (more w' ch ls).length ≤ (more w ch ls).length
  | [] => by simp [more]
  | (d, t) :: ls => by
    have := more_length hw ch ls
    have := hw d
    simp [more]
    omega

theorem more_length_lt {w w' : Nat → Nat} (hw : ∀ d, w' d ≤ w d) (ch : Nat) {l : Line'} (hl : w' l.1 < w l.1) :
    ∀ ls, l ∈ ls → (more w' ch ls).length < (more w ch ls).length
  | [], h => by cases h
  | (d, t) :: ls, h => by
    have h1 := more_length hw ch ls
    have h2 := hw d
    rcases List.mem_cons.1 h with rfl | h
    · simp only at hl; simp [more]; omega
    · have := more_length_lt hw ch hl ls h
      simp [more]; omega

/-- C101 does not hold for more than 65536 levels: with 65537 arrays in one another the text is shorter than expected for every
indent. -/
theorem C101_violated_deep (A : DumpArgs F) (step ch : Nat) (hs : 0 < step) (hs' : step < 256) (hc : ch ≠ 0) :
    ∃ r, jsonDump (A.prepare [.indent step ch]) none [] (towerOf 65536) = (.ok (), r) ∧
      r.length < (textOfLines (· * step) ch (linesOf (fun t => (jsonDump (A.prepare [.indent 0 ch]) none [] t).2) ch 0 (towerOf 65536))).length := by
  have hm : step % 256 = step := Nat.mod_eq_of_lt hs'
  have h := jsonDump_ok (A.prepare [.indent step ch]) [] (towerOf 65536) (towerOf_good _ _)
  refine ⟨_, h, ?_⟩
  rw [layout (A.prepare [.indent step ch]) (by simp [DumpArgs.prepare, DumpArgs.apply, hm, hs]) hc [] _ h (A.prepare [.indent 0 ch])
    (by simp [DumpArgs.prepare, DumpArgs.apply])]
  have e1 : (A.prepare [.indent step ch]).ch = ch := rfl
  have e2 : (A.prepare [.indent step ch]).step = step := hm
  rw [e1, e2, List.nil_append]
  generalize (fun t => (jsonDump (A.prepare [.indent 0 ch]) none [] t).2) = tok
  have hd := towerOf_deep tok ch 65536 0
  obtain ⟨t, ls, e⟩ := linesOf_starts tok ch 0 (towerOf 65536)
  rw [e] at hd ⊢
  rw [textOfLines_cons, textOfLines_cons]
  have hmem : (0 + 65536, [0x5B]) ∈ ls := by
    rcases List.mem_cons.1 hd with hd | hd
    · injection hd with hd _; omega
    · exact hd
  have := more_length_lt (w := (· * step)) (w' := fun d => d % 65536 * step) (fun d => Nat.mul_le_mul_right _ (Nat.mod_le _ _)) ch
    (l := (0 + 65536, [0x5B])) (by simp; omega) ls hmem
  simp only [List.length_append, List.length_replicate, Nat.zero_mod, Nat.zero_mul]
  omega

/-! ## C102 -/

/-- What the last of the options that have a say sets. -/
def lastSet {α : Type} (f : DumpOption → Option α) (opts : List DumpOption) (dflt : α) : α := (opts.filterMap f).getLast?.getD dflt

/-- Indentation an option asks for. -/
def asksIndent : DumpOption → Option (Nat × Nat)
  | .indent step ch => some (step, ch)
  | _ => none

/-- Escaping an option asks for. -/
def asksEscaping : DumpOption → Option Bool
  | .unicodeEscaping on => some on
  | _ => none

/-- Source encoding an option asks for. -/
def asksSource : DumpOption → Option Enc
  | .encoding e => some e
  | .sourceEncoding e => some e
  | _ => none

/-- Target encoding an option asks for. -/
def asksTarget : DumpOption → Option Enc
  | .encoding e => some e
  | .targetEncoding e => some e
  | _ => none

theorem lastSet_cons {α : Type} (f : DumpOption → Option α) (o : DumpOption) (opts : List DumpOption) (dflt : α) :
    lastSet f (o :: opts) dflt = lastSet f opts ((f o).getD dflt) := by
  simp only [lastSet, List.filterMap_cons]
  cases f o with
  | none => rfl
  | some a =>
    simp only [Option.getD_some]
    cases h : opts.filterMap f with
    | nil => rfl
    | cons b bs =>
      rw [List.getLast?_cons_cons, List.getLast?_eq_some_getLast (by simp : b :: bs ≠ [])]
      rfl

/-- C102. A call of `dump` with a list of options does what it does for the last setting of each kind in the list, in whatever
order these come; what no option sets is as without options. -/
theorem C102_options (A : DumpArgs F) (opts : List DumpOption) (h : Option Handler) (str : List Nat) (v : Value F) :
    jsonDump (A.prepare opts) h str v =
      jsonDump { A with
        se := lastSet asksSource opts A.se, te := lastSet asksTarget opts A.te, uesc := lastSet asksEscaping opts A.uesc
        pretty := lastSet (fun o => (asksIndent o).map fun i => decide (i.1 % 256 > 0)) opts A.pretty
        step := lastSet (fun o => (asksIndent o).map fun i => i.1 % 256) opts A.step
        ch := lastSet (fun o => (asksIndent o).map fun i => i.2) opts A.ch } h str v := by
  suffices e : A.prepare opts = _ by rw [e]
  unfold DumpArgs.prepare
  induction opts generalizing A with
  | nil => rfl
  | cons o opts ih =>
    rw [List.foldl_cons, ih]
    simp only [lastSet_cons]
    cases o <;> rfl

/-- Two options of a kind: the later one counts. -/
example : jsonDump ((dumpArgs false true 2 0x20).prepare [.unicodeEscaping false, .indent 4 0x20, .unicodeEscaping true, .indent 0 0x20]) none []
    (.arr [.str [0xE2, 0x82, 0xAC]]) = (.ok (), ascii "[\"\\u20AC\"]") := by decide +kernel

end Configor.Props
