import Verif.Spec.Settings
import Verif.Spec.Rfc8259
import Verif.Proofs.DblDump
/-!
# The settings of a dump
-/
namespace Configor
open Spec

theorem lastOf_cons {α : Type} (f : SerOption → Option α) (o : SerOption) (opts : List SerOption) (dflt : α) :
    lastOf f (o :: opts) dflt = lastOf f opts ((f o).getD dflt) := by
  simp only [lastOf, List.filterMap_cons]
  cases f o with
  | none => rfl
  | some a =>
    simp only [Option.getD_some]
    cases h : opts.filterMap f with
    | nil => rfl
    | cons b bs =>
      rw [List.getLast?_cons_cons, List.getLast?_eq_some_getLast (by simp : b :: bs ≠ [])]
      rfl

/-- What applying options does. -/
theorem foldl_apply (opts : List SerOption) (s : Settings) :
    opts.foldl Settings.apply s =
      { args := s.args.prepare (opts.filterMap asksPlain)
        flags := s.flags.setFloat (lastOf asksPrecision opts (s.precision, s.flags)).2
        precision := (lastOf asksPrecision opts (s.precision, s.flags)).1
        handler := lastOf asksHandler opts s.handler } := by
  induction opts generalizing s with
  | nil => rfl
  | cons o opts ih =>
    rw [List.foldl_cons, ih]
    simp only [lastOf_cons]
    cases o with
    | plain o => rfl
    | handler h => rfl
    | precision p fl =>
      simp only [Settings.apply, asksPrecision, Option.getD_some, asksPlain, List.filterMap_cons, asksHandler, Option.getD_none, Settings.mk.injEq,
        true_and]
      have key : (lastOf asksPrecision opts (p, s.flags.setFloat fl)).1 = (lastOf asksPrecision opts (p, fl)).1 ∧
          s.flags.setFloat (lastOf asksPrecision opts (p, s.flags.setFloat fl)).2 = s.flags.setFloat (lastOf asksPrecision opts (p, fl)).2 := by
        unfold lastOf
        cases (opts.filterMap asksPrecision).getLast? with
        | none => exact ⟨rfl, rfl⟩
        | some a => exact ⟨rfl, rfl⟩
      refine ⟨?_, key.1, trivial⟩
      rw [← key.2]
      rfl

theorem putDouble_style (other : FmtFlags → Int → Dbl → List ℕ) (p : Int) {fl : FmtFlags} (ho : fl.others = FmtFlags.initial.others)
    (hb : ¬ (fl.fixed = true ∧ fl.scientific = true)) : putDouble other fl p = Dbl.fmt (styleOf p fl) := by
  funext f
  obtain ⟨a, b, n⟩ := fl
  cases a <;> cases b <;> simp_all [putDouble, styleOf]

namespace Dbl

/-- Every finite double with a fraction is written as a number of RFC 8259. -/
theorem fraction_lit (st : Style) (a : Bool) (k : ℕ) : ∃ n : Rfc.Lit, n.Valid ∧ n.text = fmt st (.fin a k) := by
  have pt : ∀ m v, ∃ n : Rfc.Lit, n.Valid ∧ n.text = (if a then [0x2D] else []) ++ pointed m v := fun m v =>
    ⟨litOf a m v none, litOf_valid a m v none (by intro e s ds h; cases h), litOf_text a m v⟩
  have ex : ∀ m v x, ∃ n : Rfc.Lit, n.Valid ∧ n.text = (if a then [0x2D] else []) ++ (pointed m v ++ exponentText x) := by
    intro m v x
    obtain ⟨ds, h1, h2, h3, _⟩ := exponentText_eq x
    refine ⟨litOf a m v (some (0x65, some (if x < 0 then 0x2D else 0x2B), ds)), litOf_valid a m v _ ?_, ?_⟩
    · intro e s ds' h
      cases h
      refine ⟨.inl rfl, ?_, h2, h3⟩
      intro sg hs
      cases hs
      split
      · exact .inr rfl
      · exact .inl rfl
    · rw [litOf_text_exp, h1]
  cases st with
  | fixed p => exact pt _ _
  | scientific p => exact ex _ _ _
  | general p =>
    simp only [fmt, magnitude]
    generalize (if p = 0 then 1 else p) - 1 = q
    by_cases hx : (significant q k).2 < -4 ∨ (q : ℤ) < (significant q k).2
    · rw [if_pos hx]
      obtain ⟨m, v, h, _⟩ := stripped_pointed q (significant q k).1
      rw [h]
      exact ex _ _ _
    · rw [if_neg hx]
      obtain ⟨m, v, h, _⟩ := stripped_pointed ((q : ℤ) - (significant q k).2).toNat (significant q k).1
      rw [h]
      exact pt _ _

end Dbl
end Configor
