import Verif.Props.Pretty
/-!
# When the indentation shows the depth
-/
set_option autoImplicit false
namespace Configor.Props
open Configor Spec

variable {F : Type}

/-- Two widths of which one is never more than the other give the same text only if they agree on all lines. -/
theorem textOfLines_eq_iff {w w' : Nat → Nat} (hw : ∀ d, w' d ≤ w d) (ch : Nat) (ls : List Line') :
    textOfLines w' ch ls = textOfLines w ch ls ↔ ∀ l ∈ ls, w' l.1 = w l.1 := by
  constructor
  · intro h l hl
    cases ls with
    | nil => cases hl
    | cons m ls =>
      obtain ⟨d, t⟩ := m
      rw [textOfLines_cons, textOfLines_cons] at h
      have h1 := congrArg List.length h
      have h2 := more_length hw ch ls
      have h3 := hw d
      simp only [List.length_append, List.length_replicate] at h1
      rcases List.mem_cons.1 hl with rfl | hl
      · simp only; omega
      · have h4 := hw l.1
        rcases Nat.lt_or_ge (w' l.1) (w l.1) with h5 | h5
        · have := more_length_lt hw ch h5 ls hl
          omega
        · omega
  · intro h
    unfold textOfLines
    congr 1
    refine List.map_congr_left fun l hl => ?_
    rw [h l hl]

theorem width_right {step : Nat} (hs : 0 < step) (d : Nat) : d % 65536 * (step % 256) = d * step ↔ d = 0 ∨ (step < 256 ∧ d < 65536) := by
  constructor
  · intro k
    by_cases hd : d = 0
    · exact .inl hd
    · have a1 : d % 65536 ≤ d := Nat.mod_le _ _
      have a2 : step % 256 ≤ step := Nat.mod_le _ _
      have b1 : d % 65536 * (step % 256) ≤ d * (step % 256) := Nat.mul_le_mul_right _ a1
      have b2 : d * (step % 256) ≤ d * step := Nat.mul_le_mul_left _ a2
      have c1 : step % 256 = step := Nat.eq_of_mul_eq_mul_left (by omega) (by omega : d * (step % 256) = d * step)
      have c2 : d % 65536 = d := Nat.eq_of_mul_eq_mul_right (by omega : 0 < step % 256) (by omega)
      exact .inr ⟨by omega, by omega⟩
  · rintro (rfl | ⟨k1, k2⟩)
    · simp
    · rw [Nat.mod_eq_of_lt k1, Nat.mod_eq_of_lt k2]

/-- C101, exactly: for every indent that is no multiple of 256 and every value, a line of depth `d` is indented by `d % 65536` times
`n % 256`. So the text is the one expected if and only if every line is at depth 0, or `n` is less than 256 and no line is at depth
65536 or more. For the multiples of 256 see `C101_violated_step`. -/
theorem C101_exactly_partial (A : DumpArgs F) (step ch : Nat) (hs : step % 256 ≠ 0) (hc : ch ≠ 0) (str : List Nat) (v : Value F)
    {r : List Nat} (h : jsonDump (A.prepare [.indent step ch]) none str v = (.ok (), r)) (ls : List Line')
    (hl : ls = linesOf (fun t => (jsonDump (A.prepare [.indent 0 ch]) none [] t).2) ch 0 v) :
    r = str ++ textOfLines (fun d => d % 65536 * (step % 256)) ch ls ∧
    (r = str ++ textOfLines (· * step) ch ls ↔ ∀ l ∈ ls, l.1 = 0 ∨ (step < 256 ∧ l.1 < 65536)) := by
  have e := layout (A.prepare [.indent step ch]) (by simp [DumpArgs.prepare, DumpArgs.apply]; omega) hc str v h (A.prepare [.indent 0 ch])
    (by simp [DumpArgs.prepare, DumpArgs.apply])
  have e1 : (A.prepare [.indent step ch]).ch = ch := rfl
  have e2 : (A.prepare [.indent step ch]).step = step % 256 := rfl
  rw [e1, e2, ← hl] at e
  refine ⟨e, ?_⟩
  rw [e, List.append_cancel_left_eq, textOfLines_eq_iff (fun d => Nat.mul_le_mul (Nat.mod_le _ _) (Nat.mod_le _ _))]
  exact ⟨fun k l hl => (width_right (by omega) _).1 (k l hl), fun k l hl => (width_right (by omega) _).2 (k l hl)⟩

/-- The hypotheses are met, on both sides: `[null]` with an indent of 257 is indented by 1, and with an indent of 2 as expected. -/
example :
    jsonDump ((dumpArgs false false 0 0).prepare [.indent 257 0x20]) none [] (.arr [.null]) = (.ok (), [0x5B, 0x0A, 0x20, 0x6E, 0x75, 0x6C, 0x6C, 0x0A, 0x5D]) ∧
    jsonDump ((dumpArgs false false 0 0).prepare [.indent 2 0x20]) none [] (.arr [.null]) = (.ok (), [0x5B, 0x0A, 0x20, 0x20, 0x6E, 0x75, 0x6C, 0x6C, 0x0A, 0x5D]) :=
  by decide +kernel

/-- C101, exactly, for `os << std::setw(n) << std::setfill(ch) << v`, with every width but 0. -/
theorem C101_stream_exactly_partial (se : Enc) (sw : Nat) (te : Enc) (tw width fill : Nat) (fo : FloatOps F) (hs : 0 < width) (hc : fill ≠ 0)
    (str : List Nat) (v : Value F) {r : List Nat} (h : jsonDump (.ofStream se sw te tw width fill fo) none str v = (.ok (), r)) (ls : List Line')
    (hl : ls = linesOf (fun t => (jsonDump (.ofStream se sw te tw 0 fill fo) none [] t).2) fill 0 v) :
    r = str ++ textOfLines (fun d => d % 65536 * (width % 256)) fill ls ∧
    (r = str ++ textOfLines (· * width) fill ls ↔ ∀ l ∈ ls, l.1 = 0 ∨ (width < 256 ∧ l.1 < 65536)) := by
  have e := layout (.ofStream se sw te tw width fill fo) (by simp [DumpArgs.ofStream, hs]) hc str v h (.ofStream se sw te tw 0 fill fo)
    (by simp [DumpArgs.ofStream])
  have e1 : (DumpArgs.ofStream se sw te tw width fill fo).ch = fill := rfl
  have e2 : (DumpArgs.ofStream se sw te tw width fill fo).step = width % 256 := rfl
  rw [e1, e2, ← hl] at e
  refine ⟨e, ?_⟩
  rw [e, List.append_cancel_left_eq, textOfLines_eq_iff (fun d => Nat.mul_le_mul (Nat.mod_le _ _) (Nat.mod_le _ _))]
  exact ⟨fun k l hl => (width_right hs _).1 (k l hl), fun k l hl => (width_right hs _).2 (k l hl)⟩

/-- The hypotheses are met, with a width of 256. -/
example (fo : FloatOps F) : ∃ r, jsonDump (.ofStream .utf8 8 .utf8 8 256 0x20 fo) none [] (.arr [.null]) = (.ok (), r) :=
  ⟨_, (C101_violated_step fo).2.1⟩

end Configor.Props
