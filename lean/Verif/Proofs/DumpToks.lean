import Verif.Proofs.DumpAppend
/-! The tokens of the text of a value. -/
namespace Configor
open Spec Props

variable {F : Type}

/-- Gaps that can be joined. -/
structure Gaps (G : List Nat → Prop) : Prop where
  nil : G []
  append : ∀ {a b}, G a → G b → G (a ++ b)

section
variable {G : List Nat → Prop} (H : Gaps G)
include H

theorem _root_.Spec.Spaced.gap {g : List Nat} (hg : G g) {ts : List (List Nat)} {l : List Nat} (h : Spaced G ts l) : Spaced G ts (g ++ l) := by
  cases h with
  | nil h => exact .nil (H.append hg h)
  | @cons g' t ts l h h' =>
    have := Spaced.cons (t := t) (H.append hg h) h'
    simpa using this

theorem _root_.Spec.Spaced.append {a b : List (List Nat)} {l m : List Nat} (h : Spaced G a l) (h' : Spaced G b m) : Spaced G (a ++ b) (l ++ m) := by
  induction h with
  | nil hg => exact Spaced.gap H hg h'
  | @cons g t ts l hg _ ih =>
    have := Spaced.cons (t := t) hg ih
    simpa using this

theorem _root_.Spec.Spaced.one (t : List Nat) : Spaced G [t] t := by
  have := Spaced.cons (t := t) H.nil (.nil H.nil)
  simpa using this

end

/-- The layout of a printer is made of gaps. -/
structure Lays (G : List Nat → Prop) (P : Printer F) : Prop where
  gaps : Gaps G
  nl : G P.style.nl
  indent : ∀ d, G (P.style.indent d)
  space : G P.style.space

mutual

theorem text_toks {G : List Nat → Prop} {P : Printer F} (H : Lays G P) (d : Nat) (v : Value F) :
    Spaced G (P.toks v) (P.text d v) := by
  have hblock : ∀ (op cl : Nat) (ts : List (List Nat)) (l : List Nat), Spaced G ts l →
      Spaced G ([op] :: ts ++ [[cl]]) ([op] ++ l ++ P.style.nl ++ P.style.indent d ++ [cl]) := by
    intro op cl ts l h
    have := ((Spaced.one H.gaps [op]).append H.gaps h).append H.gaps
      (Spaced.gap H.gaps (H.gaps.append H.nl (H.indent d)) (Spaced.one H.gaps [cl]))
    simpa using this
  match v with
  | .null => exact .one H.gaps _
  | .bool true => exact .one H.gaps _
  | .bool false => exact .one H.gaps _
  | .int i => exact .one H.gaps _
  | .flt f => exact .one H.gaps _
  | .str s => exact .one H.gaps _
  | .arr xs =>
    refine hblock _ _ _ _ ?_
    have := elems_toks H (d + 1) xs
    cases xs with
    | nil => exact .nil H.gaps.nil
    | cons x xs => exact Spaced.gap H.gaps H.nl this
  | .obj ms =>
    refine hblock _ _ _ _ ?_
    have := members_toks H (d + 1) ms
    cases ms with
    | nil => exact .nil H.gaps.nil
    | cons x xs => exact Spaced.gap H.gaps H.nl this

theorem elems_toks {G : List Nat → Prop} {P : Printer F} (H : Lays G P) (d : Nat) (xs : List (Value F)) :
    Spaced G (P.elemToks xs) (P.items d (P.texts d xs)) := by
  match xs with
  | [] => exact .nil H.gaps.nil
  | x :: xs =>
    have h1 := Spaced.gap H.gaps (H.indent d) (text_toks H d x)
    have h2 := elems_toks H d xs
    simp only [Printer.texts, Printer.elemToks, printItems_cons]
    cases xs with
    | nil => simpa [Printer.elemToks, Printer.texts] using h1
    | cons y ys =>
      have := (h1.append H.gaps (Spaced.one H.gaps [0x2C])).append H.gaps (Spaced.gap H.gaps H.nl h2)
      simpa [Printer.texts] using this

theorem members_toks {G : List Nat → Prop} {P : Printer F} (H : Lays G P) (d : Nat) (ms : List (List Nat × Value F)) :
    Spaced G (P.memberToks ms) (P.items d (P.members d ms)) := by
  match ms with
  | [] => exact .nil H.gaps.nil
  | (k, v) :: ms =>
    have h1 := Spaced.gap H.gaps (H.indent d) (((Spaced.one H.gaps (P.literal k)).append H.gaps (Spaced.one H.gaps [0x3A])).append H.gaps
      (Spaced.gap H.gaps H.space (text_toks H d v)))
    have h2 := members_toks H d ms
    simp only [Printer.members, Printer.memberToks, printItems_cons]
    cases ms with
    | nil => simpa [Printer.memberToks, Printer.members] using h1
    | cons y ys =>
      obtain ⟨yk, yv⟩ := y
      have := (h1.append H.gaps (Spaced.one H.gaps [0x2C])).append H.gaps (Spaced.gap H.gaps H.nl h2)
      simpa [Printer.members] using this

end

theorem spaced_flatten {ts : List (List Nat)} {l : List Nat} (h : Spaced (· = []) ts l) : l = ts.flatten := by
  induction h with
  | nil h => exact h
  | cons h _ ih => rw [h, ih]; rfl

mutual

theorem toks_same {P P' : Printer F} (h1 : P.num = P'.num) (h2 : P.flt = P'.flt) (h3 : P.literal = P'.literal) (v : Value F) :
    P.toks v = P'.toks v := by
  match v with
  | .null => rfl
  | .bool true => rfl
  | .bool false => rfl
  | .int i => simp only [Printer.toks, h1]
  | .flt f => simp only [Printer.toks, h2]
  | .str s => simp only [Printer.toks, h3]
  | .arr xs => simp only [Printer.toks]; rw [elemToks_same h1 h2 h3 xs]
  | .obj ms => simp only [Printer.toks]; rw [memberToks_same h1 h2 h3 ms]

theorem elemToks_same {P P' : Printer F} (h1 : P.num = P'.num) (h2 : P.flt = P'.flt) (h3 : P.literal = P'.literal) (xs : List (Value F)) :
    P.elemToks xs = P'.elemToks xs := by
  match xs with
  | [] => rfl
  | x :: xs => simp only [Printer.elemToks]; rw [toks_same h1 h2 h3 x, elemToks_same h1 h2 h3 xs]

theorem memberToks_same {P P' : Printer F} (h1 : P.num = P'.num) (h2 : P.flt = P'.flt) (h3 : P.literal = P'.literal)
    (ms : List (List Nat × Value F)) : P.memberToks ms = P'.memberToks ms := by
  match ms with
  | [] => rfl
  | (k, v) :: ms => simp only [Printer.memberToks]; rw [toks_same h1 h2 h3 v, memberToks_same h1 h2 h3 ms, h3]

end

/-- The printer of a call, for any target encoding. -/
def DumpArgs.printer' (A : DumpArgs F) : Printer F := A.printer fun c => (storeWith (A.te.encode A.tw) [c]).getD []

theorem prints_printer' (A : DumpArgs F) : Prints A A.printer' :=
  prints_printer A fun c u h => by rw [h]; rfl

/-- A dump call succeeds exactly if everything can be written. -/
theorem jsonDump_ok (A : DumpArgs F) (str : List Nat) (v : Value F) (h : GoodVal A v) :
    jsonDump A none str v = (.ok (), str ++ A.printer'.text 0 v) := by
  have := jsonDump_spec (prints_printer' A) str v
  rcases hd : jsonDump A none str v with ⟨e | _, r⟩
  · rw [hd] at this
    rcases this with ⟨_, s, hs, hn⟩ | ⟨_, f, hf', hn⟩
    · exact absurd (h.1 s hs) hn
    · exact absurd (h.2 f hf') hn
  · rw [hd] at this
    rw [this.2]

theorem jsonDump_good {A : DumpArgs F} {str r : List Nat} {v : Value F} (h : jsonDump A none str v = (.ok (), r)) :
    GoodVal A v ∧ r = str ++ A.printer'.text 0 v := by
  have := jsonDump_spec (prints_printer' A) str v
  rw [h] at this
  exact this

/-- Decoded code points are at most U+10FFFF. -/
theorem decode_le {σ : Type} {B : SBuf σ} {e : Enc} {w : Nat} (he : e ≠ .ignore) {s s' : IStream σ} {cp : Nat}
    (h : e.decode w B s = (true, cp, s')) (hg : s'.good = true) : cp ≤ maxCp := by
  have key : ∀ (x : IStream σ), (if cp > 0x10FFFF then x.setFail else x) = s' → cp ≤ maxCp := by
    intro x hx
    unfold maxCp
    by_cases hc : cp > 0x10FFFF
    · rw [if_pos hc] at hx
      subst hx
      simp [IStream.setFail, IStream.good] at hg
    · omega
  cases e with
  | ignore => exact absurd rfl he
  | utf8 =>
    simp only [Enc.decode, utf8Decode] at h
    split at h
    · cases h
    · simp only [Prod.mk.injEq, true_and] at h
      obtain ⟨h1, h2⟩ := h
      rw [h1] at h2
      exact key _ h2
  | utf16 =>
    simp only [Enc.decode, utf16Decode] at h
    split at h
    · cases h
    split at h
    · split at h
      · simp only [Prod.mk.injEq, true_and] at h
        obtain ⟨h1, h2⟩ := h
        rw [h1] at h2
        exact key _ h2
      · simp only [Prod.mk.injEq, true_and] at h
        obtain ⟨h1, h2⟩ := h
        subst h2
        simp [IStream.setFail, IStream.good] at hg
    · simp only [Prod.mk.injEq, true_and] at h
      obtain ⟨h1, h2⟩ := h
      rw [h1] at h2
      exact key _ h2
  | utf32 =>
    simp only [Enc.decode, utf32Decode] at h
    split at h
    · cases h
    · simp only [Prod.mk.injEq, true_and] at h
      obtain ⟨h1, h2⟩ := h
      rw [h1] at h2
      exact key _ h2

theorem readsAs_le {σ : Type} {B : SBuf σ} {e : Enc} {w : Nat} (he : e ≠ .ignore) {s : IStream σ} {cps : List Nat}
    (h : ReadsAs (e.decode w B) s cps) : ∀ c ∈ cps, c ≤ maxCp := by
  induction h with
  | done => simp
  | more h hg _ ih =>
    intro c hc
    rcases List.mem_cons.1 hc with rfl | hc
    · exact decode_le he h hg
    · exact ih c hc

end Configor
