import Verif.Proofs.Settings
import Verif.Props.Float
/-!
# Where `dump` takes its settings from
-/
set_option autoImplicit false
namespace Configor.Props
open Configor Spec

/-! ## C141 -/

/-- C141. `dump` to a stream writes doubles in the style of the last `with_precision`, or else of the stream, and never as hexadecimal
floats; all errors go to the last handler given; the other options act as they do without these (see C102). The formats that are not
described (`other`) play no part. Of the stream's formatting state only the width changes. -/
theorem C141_settings (other : FmtFlags → Int → Dbl → List Nat) (se : Enc) (sw : Nat) (te : Enc) (tw : Nat) (os : Ios)
    (opts : List SerOption) (text : List Nat) (v : Value Dbl) :
    dumpStream other se sw te tw os opts text v =
      (jsonDump ((DumpArgs.ofStream se sw te tw os.width os.fill (Dbl.ops (wantedStyle os opts))).prepare (opts.filterMap asksPlain))
        (lastOf asksHandler opts none) text v, { os with width := 0 }) := by
  have hp : ∀ (A : DumpArgs Dbl) (fo : FloatOps Dbl) (l : List DumpOption), { A.prepare l with fo := fo } = DumpArgs.prepare { A with fo := fo } l := by
    intro A fo l
    unfold DumpArgs.prepare
    induction l generalizing A with
    | nil => rfl
    | cons o l ih =>
      rw [List.foldl_cons, List.foldl_cons, ih]
      cases o <;> rfl
  have hfl : ∀ fl : FmtFlags, lastOf asksPrecision opts (os.precision, fl) = lastOf asksPrecision opts (os.precision, os.flags) ∨
      (lastOf asksPrecision opts (os.precision, fl) = (os.precision, fl) ∧
        lastOf asksPrecision opts (os.precision, os.flags) = (os.precision, os.flags)) := by
    intro fl
    unfold lastOf
    cases (opts.filterMap asksPrecision).getLast? with
    | none => exact .inr ⟨rfl, rfl⟩
    | some a => exact .inl rfl
  have key : ∀ t : Settings, t = opts.foldl Settings.apply (Settings.init se sw te tw os) →
      t.precision = (lastOf asksPrecision opts (os.precision, os.flags)).1 ∧
      t.flags = FmtFlags.initial.setFloat (lastOf asksPrecision opts (os.precision, os.flags)).2 := by
    rintro t rfl
    rw [foldl_apply]
    rcases hfl (FmtFlags.initial.setFloat os.flags) with h | ⟨h1, h2⟩
    · simp only [Settings.init, h]
      exact ⟨trivial, rfl⟩
    · simp only [Settings.init, h1, h2]
      exact ⟨trivial, rfl⟩
  have hx : ((Settings.init se sw te tw os).prepare opts).args = (Settings.init se sw te tw os).args.prepare (opts.filterMap asksPlain) ∧
      ((Settings.init se sw te tw os).prepare opts).handler = lastOf asksHandler opts none ∧
      putDouble other ((Settings.init se sw te tw os).prepare opts).flags ((Settings.init se sw te tw os).prepare opts).precision =
        Dbl.fmt (wantedStyle os opts) := by
    obtain ⟨k1, k2⟩ := key _ rfl
    have k3 := congrArg Settings.args (foldl_apply opts (Settings.init se sw te tw os))
    have k4 := congrArg Settings.handler (foldl_apply opts (Settings.init se sw te tw os))
    simp only [Settings.prepare, wantedStyle]
    generalize opts.foldl Settings.apply (Settings.init se sw te tw os) = t at *
    generalize lastOf asksPrecision opts (os.precision, os.flags) = w at *
    obtain ⟨p, a, b, n⟩ := w
    split
    · rename_i h
      refine ⟨k3, k4, ?_⟩
      rw [k2] at h
      simp only [FmtFlags.setFloat] at h
      rw [putDouble_style other _ (by simp [k2, FmtFlags.setFloat]) (by simp), k1]
      simp [styleOf, h.1, h.2]
    · rename_i h
      refine ⟨k3, k4, ?_⟩
      rw [putDouble_style other _ (by simp [k2, FmtFlags.setFloat]) h, k1, k2]
      rfl
  obtain ⟨h1, h2, h3⟩ := hx
  simp only [dumpStream, Settings.toArgs]
  rw [h2, h1, h3, hp]
  rfl

/-- For examples: a stream with `hexfloat`, `showpos` and `uppercase` set, and a precision of 3. -/
def oddStream : Ios := ⟨⟨true, true, 0x5802⟩, 3, 2, 0x20⟩

example : wantedStyle oddStream [] = .general 3 ∧ wantedStyle oddStream [.precision 2 ⟨true, false, 0⟩, .handler none, .precision (-1) ⟨false, true, 0⟩] = .scientific 6 ∧
    (dumpStream (fun _ _ _ => [0x3F]) .utf8 8 .utf8 8 oddStream [] [] (.arr [.flt (.fin false (Dbl.one / 4)), .int 7])).1 =
      (.ok (), ascii "[\n  0.25,\n  7\n]") ∧
    (dumpStream (fun _ _ _ => [0x3F]) .utf8 8 .utf8 8 oddStream [.precision 4 ⟨true, false, 0⟩, .plain (.indent 0 0x20)] []
      (.arr [.flt (.fin false (Dbl.one / 4))])).1 = (.ok (), ascii "[0.2500]") := by
  refine ⟨rfl, rfl, ?_, ?_⟩ <;> decide +kernel

/-- C141. Flags of the stream other than `fixed` and `scientific` do not matter. -/
theorem C141_other_flags (other : FmtFlags → Int → Dbl → List Nat) (se : Enc) (sw : Nat) (te : Enc) (tw : Nat) (os : Ios) (n : Nat)
    (opts : List SerOption) (text : List Nat) (v : Value Dbl) :
    (dumpStream other se sw te tw { os with flags := { os.flags with others := n } } opts text v).1 = (dumpStream other se sw te tw os opts text v).1 := by
  rw [C141_settings, C141_settings]
  have : wantedStyle { os with flags := { os.flags with others := n } } opts = wantedStyle os opts := by
    unfold wantedStyle lastOf
    cases (opts.filterMap asksPrecision).getLast? <;> rfl
  rw [this]

/-- C141. Whatever the settings are, a finite double is written as a number of RFC 8259, if the call is defined; see C83 for when it is. -/
theorem C141_number (other : FmtFlags → Int → Dbl → List Nat) (se : Enc) (sw : Nat) (te : Enc) (tw : Nat) (os : Ios)
    (opts : List SerOption) (a : Bool) (k : Nat) (h : ¬ OutOfRange (.fin a k)) :
    ∃ n : Rfc.Lit, n.Valid ∧ (dumpStream other se sw te tw os opts [] (.flt (.fin a k))).1 = (.ok (), n.text) := by
  rw [C141_settings]
  generalize hA : (DumpArgs.ofStream se sw te tw os.width os.fill (Dbl.ops (wantedStyle os opts))).prepare (opts.filterMap asksPlain) = A
  have hf : A.fo = Dbl.ops (wantedStyle os opts) := by
    rw [← hA]
    have : ∀ (B : DumpArgs Dbl) (l : List DumpOption), (B.prepare l).fo = B.fo := by
      intro B l
      unfold DumpArgs.prepare
      induction l generalizing B with
      | nil => rfl
      | cons o l ih => rw [List.foldl_cons, ih]; cases o <;> rfl
    rw [this]
    rfl
  have ok := (Dbl.floatOk_iff hf (.fin a k)).2 h
  have h1 : jsonDump A none [] (.flt (.fin a k)) = (.ok (), A.printer'.text 0 (.flt (.fin a k))) :=
    jsonDump_ok A [] _ ⟨(by intro s hs; cases hs), fun f hv => by cases hv; exact ok⟩
  have h2 : ∀ hd, jsonDump A hd [] (.flt (.fin a k)) = jsonDump A none [] (.flt (.fin a k)) := by
    intro hd
    unfold jsonDump Serializer.dump at h1 ⊢
    generalize (do Serializer.doDump A (.flt (.fin a k)); Serializer.next A .endOfInput : M Ser Unit) (Serializer.init A []) = r at *
    obtain ⟨e | u, s⟩ := r
    · cases e <;> simp at h1
    · cases hd <;> rfl
  simp only
  rw [h2, h1]
  have h3 : A.printer'.text 0 (.flt (.fin a k)) = A.printer'.flt (.fin a k) := rfl
  rw [h3]
  cases hi : A.fo.isIntegral (.fin a k) with
  | false =>
    obtain ⟨n, hn, ht⟩ := Dbl.fraction_lit (wantedStyle os opts) a k
    refine ⟨n, hn, ?_⟩
    rw [(prints_printer' A).flt _ hi, ht, hf]
    rfl
  | true =>
    obtain ⟨i, h4⟩ := ok hi
    rw [(prints_printer' A).intFlt _ i hi h4]
    refine ⟨⟨decide (i < 0), Dbl.natText i.natAbs, some [0x30], none⟩, ⟨Dbl.natText_int _, ?_, by intro e s ds h; cases h⟩, ?_⟩
    · intro ds hd
      cases hd
      exact ⟨by simp, by simp [Rfc.Digit]⟩
    · simp only [Rfc.Lit.text, decText, Dbl.natText]
      by_cases hneg : i < 0
      · simp [hneg]
      · simp [hneg]

example : ¬ OutOfRange (.fin true (Dbl.one / 4)) := by
  rw [← Dbl.floatOk_iff (A := dblDump (.general 6)) rfl]
  intro h
  exact absurd h (by decide +kernel)
example : (dumpStream (fun _ _ _ => [0x3F]) .utf8 8 .utf16 16 oddStream [.precision (-5) ⟨true, true, 0⟩] [] (.flt (.fin true (Dbl.one / 4)))).1 =
    (.ok (), ascii "-0.25") := by decide +kernel

end Configor.Props
