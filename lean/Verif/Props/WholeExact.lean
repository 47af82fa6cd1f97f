import Verif.Props.Float
/-!
# Which whole doubles are read back
-/
set_option autoImplicit false
namespace Configor.Props
open Configor Spec

theorem whole_dump (A : DumpArgs Dbl) (st : Dbl.Style) (hA : A.fo = Dbl.ops st) (f : Dbl) (i : Int) (hw : Whole f i)
    (hi : i.natAbs < 9223372036854775808) (str : List Nat) :
    jsonDump A none str (.flt f) = (.ok (), str ++ (decText i ++ [0x2E, 0x30])) := by
  have htext := Dbl.whole_text hA hw hi
  have hd := jsonDump_spec (prints_printer' A) str (.flt f)
  rcases hr : jsonDump A none str (.flt f) with ⟨e | _, r⟩
  · rw [hr] at hd
    rcases hd with ⟨_, s, hs, _⟩ | ⟨_, g, hg, hn⟩
    · cases hs
    · cases hg
      exact absurd ((Dbl.floatOk_iff hA f).2 (Dbl.whole_ok hw hi)) hn
  · rw [hr] at hd
    rw [hd.2, ← htext]
    rfl

/-- C81, exactly: a double that is a whole number below 2^63 is read back as itself if and only if it is not `-0.0`, which is read back
as `0.0`. -/
theorem C81_exactly_partial (A : DumpArgs Dbl) (B : ParseArgs Dbl) (hAB : Reverses A B) (st st' : Dbl.Style)
    (hA : A.fo = Dbl.ops st) (hB : B.fo = Dbl.ops st') (spec spec' : Nat → List Nat)
    (hs : Target A.se A.sw spec) (ht : Target A.te A.tw spec') (f : Dbl) (hv : f.Valid) (i : Int) (hw : Whole f i)
    (hi : i.natAbs < 9223372036854775808) :
    ∃ t, (∀ str, jsonDump A none str (.flt f) = (.ok (), str ++ t)) ∧ ∀ h c,
      (jsonParse B h c t = (.ok (), .flt f) ↔ ¬ NegZero f) ∧ (NegZero f → jsonParse B h c t = (.ok (), .flt (.fin false 0))) := by
  by_cases hz : NegZero f
  · have hi0 : i = 0 := by
      rw [hz] at hw
      have hp := Dbl.one_pos
      simp only [Whole] at hw
      rcases Int.mul_eq_zero.1 (show i * (Dbl.one : Int) = 0 by simpa using hw.symm) with h | h
      · exact h
      · omega
    subst hi0
    have hg : Whole (.fin false 0) 0 := by simp [Whole]
    obtain ⟨t, _, h1, h2⟩ := C81_whole_doubles_partial A B hAB st st' hA hB spec spec' hs ht (.fin false 0) (by rw [hz] at hv; exact hv) 0 hg hi (by simp [NegZero])
    have h3 := h1 []
    rw [whole_dump A st hA _ 0 hg hi] at h3
    have h4 : decText 0 ++ [0x2E, 0x30] = t := by simpa using congrArg Prod.snd h3
    refine ⟨t, fun str => ?_, fun h c => ⟨⟨fun h5 => ?_, fun h5 => absurd hz h5⟩, fun _ => h2 h c⟩⟩
    · rw [whole_dump A st hA f 0 hw hi, h4]
    · rw [h2 h c, hz] at h5
      simp at h5
  · obtain ⟨t, _, h1, h2⟩ := C81_whole_doubles_partial A B hAB st st' hA hB spec spec' hs ht f hv i hw hi hz
    exact ⟨t, h1, fun h c => ⟨⟨fun _ => hz, fun _ => h2 h c⟩, fun h => absurd h hz⟩⟩

/-- Both sides occur: `-0.0` and `5.0`. -/
example : Whole (.fin true 0) 0 ∧ NegZero (.fin true 0) ∧ Whole (.fin false (5 * Dbl.one)) 5 ∧ ¬ NegZero (.fin false (5 * Dbl.one)) :=
  ⟨by simp [Whole], rfl, Dbl.fin_whole false 5, by simp [NegZero]⟩

end Configor.Props
