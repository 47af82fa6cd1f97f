import Verif.Proofs.LiveRange
import Verif.Props.Lives
/-!
# Iterators of other variables: C140

`Points s p it` says that the iterator may be used and is at position `p` of the variable it was made from.
-/
set_option autoImplicit false
namespace Configor.Props
open Spec

variable {F : Type}

theorem back_one (s : Lives F) (x : Nat) (d : Live F) : (s.back x d).one x = d := by
  show (⟨d.next, if x = x then d.shape else _⟩ : Live F) = d
  rw [if_pos rfl]

theorem back_content (s : Lives F) {x y : Nat} (d : Live F) (h : y ≠ x) : (s.back x d).content y = s.content y := by
  show Live.content ⟨d.next, if y = x then d.shape else s.vars y⟩ = _
  rw [if_neg h]; rfl

theorem back_points {s : Lives F} {x q : Nat} {d : Live F} {kt : VIter} (h : kt.owner ≠ x) (hk : Points s q kt) : Points (s.back x d) q kt := by
  show PointsAt ⟨d.next, if kt.owner = x then d.shape else s.vars kt.owner⟩ q kt.place
  rw [if_neg h]; exact hk

/-- C140, partial: `it - jt` and `it < jt` with iterators of different variables throw. What is missing is `erase`, for which the property
is false. -/
theorem C140_operators_partial (s : Lives F) (it jt : VIter) (h : it.owner ≠ jt.owner) :
    s.diff it jt = .error (.exn .invalidIterator) ∧ s.lt it jt = .error (.exn .invalidIterator) ∧ s.ne it jt = .ok true :=
  ⟨if_pos h, if_pos h, if_pos h⟩

example : livesTwo.diff livesSecond ⟨1, some (0, 1), none, 0⟩ = .error (.exn .invalidIterator) ∧ livesTwo.begin 1 = .ok ⟨1, some (0, 1), none, 0⟩ := ⟨rfl, rfl⟩

/-- C140, partial: `--it`, `it + n`, `it - jt` and `it < jt` with iterators of one variable give what they give for that variable alone
(C137). -/
theorem C140_arithmetic_partial (fo : FloatOps F) (g : Growth) (s : Lives F) (hs : Dealt fo g s) (p : Nat) (it : VIter) (h : Points s p it) :
    (∀ q, p = q + 1 → ∃ jt, s.decr it = .ok jt ∧ jt.owner = it.owner ∧ Points s q jt) ∧
    ∀ xs, s.content it.owner = .arr xs →
      (∀ off : Int, 0 ≤ p + off → p + off ≤ xs.length → ∃ jt, s.plus off it = .ok jt ∧ jt.owner = it.owner ∧ Points s (p + off).toNat jt) ∧
      (∀ off : Int, ¬ (0 ≤ p + off ∧ p + off ≤ xs.length) → s.plus off it = .error .ub) ∧
      ∀ q jt, jt.owner = it.owner → Points s q jt → s.diff it jt = .ok ((p : Int) - q) ∧ s.lt it jt = .ok (decide (p < q)) := by
  have ok := (dealt_ok hs).one it.owner
  refine ⟨fun q e => ?_, fun xs hx => ⟨fun off h1 h2 => ?_, fun off h1 => ?_, fun q jt e hj => ?_⟩⟩
  · subst e
    obtain ⟨jt, h1, h2⟩ := decr_live ok h
    exact ⟨⟨it.owner, jt⟩, by unfold Lives.decr; rw [h1]; rfl, rfl, h2⟩
  · obtain ⟨jt, h3, h4⟩ := plus_live ok hx h (q := (p + off).toNat) (off := off) (by omega) (by omega)
    exact ⟨⟨it.owner, jt⟩, by unfold Lives.plus; rw [h3]; rfl, rfl, h4⟩
  · unfold Lives.plus
    rw [plus_out hx h h1]
    rfl
  · have hj : PointsAt (s.one it.owner) q jt.place := by rw [← e]; exact hj
    unfold Lives.diff Lives.lt
    rw [if_neg (by simpa using e.symm), if_neg (by simpa using e.symm)]
    exact diff_live ok hx h hj

example : livesTwo.decr livesSecond = .ok ⟨0, some (0, 0), none, 0⟩ ∧ livesTwo.plus 1 livesSecond = livesTwo.fin 0 ∧
    livesTwo.diff livesSecond ⟨0, some (0, 0), none, 0⟩ = .ok 1 := ⟨rfl, rfl, rfl⟩

/-- C140, partial: `x.erase(it, jt)` with iterators of `x` removes what is between them from `x`, gives an iterator of `x` at what followed,
and leaves all other variables and their iterators alone. -/
theorem C140_erase_range_partial (fo : FloatOps F) (g : Growth) (s : Lives F) (hs : Dealt fo g s) (x p q : Nat) (it jt : VIter) (hi : Points s p it)
    (hj : Points s q jt) (ei : it.owner = x) (ej : jt.owner = x) (hpq : p ≤ q) (ht : Container (s.content x)) :
    ∃ kt t, Lives.eraseRange x it jt s = (.ok kt, t) ∧ kt.owner = x ∧ Points t p kt ∧ t.content x = lessRange p q (s.content x) ∧
      (∀ y, y ≠ x → t.content y = s.content y) ∧ ∀ r lt, Points s r lt → lt.owner ≠ x ∨ r < p → Points t r lt := by
  have hi : PointsAt (s.one x) p it.place := by rw [← ei]; exact hi
  have hj : PointsAt (s.one x) q jt.place := by rw [← ej]; exact hj
  obtain ⟨kt, d, h1, h2, h3, h4, _⟩ := eraseRange_live (dealt_ok hs |>.one x) hi hj hpq ht
  refine ⟨⟨x, kt⟩, s.back x d, by unfold Lives.eraseRange; rw [h1], rfl, ?_, ?_, fun y hy => back_content s d hy, fun r lt hl hr => ?_⟩
  · show PointsAt ((s.back x d).one x) p kt
    rw [back_one]; exact h3
  · show ((s.back x d).one x).content = _
    rw [back_one]; exact h2
  · by_cases e : lt.owner = x
    · have hl : PointsAt (s.one x) r lt.place := by rw [← e]; exact hl
      show PointsAt ((s.back x d).one lt.owner) r lt.place
      rw [e, back_one]
      exact h4 r lt.place (hr.resolve_left (fun h => h e)) hl
    · exact back_points e hl

example : (Lives.eraseRange 0 ⟨0, some (0, 0), none, 0⟩ livesSecond livesTwo).2.content 0 = .arr [.int 2] ∧
    (Lives.eraseRange 0 ⟨0, some (0, 0), none, 0⟩ livesSecond livesTwo).2.content 1 = .arr [.int 3] ∧ Dealt unitFloat tight livesTwo ∧
    Points livesTwo 1 livesSecond := ⟨rfl, rfl, livesTwo_dealt, livesSecond_points⟩

/-- C140 is false: `x.erase` with an iterator into another array or object, in any position, is not refused but undefined. -/
theorem C140_foreign (fo : FloatOps F) (g : Growth) (s : Lives F) (hs : Dealt fo g s) (x p : Nat) (it : VIter) (hx : x ≠ it.owner)
    (h : Points s p it) (h1 : VIter.OfOneKind it) (hc : Container (s.content x)) (ho : Container (s.content it.owner)) :
    (Lives.eraseOf x it s).1 = .error .ub ∧
    ∀ jt, (Lives.eraseRange x it jt s).1 = .error .ub ∧ (Lives.eraseRange x jt it s).1 = .error .ub := by
  have ok := dealt_ok hs
  have u : Useless (s.one x) it.place :=
    useless_unless (ok.one x) hc fun a ha => ok.apart _ _ (Ne.symm hx) a (names_has (ok.one _) ho h h1 ha)
  refine ⟨?_, fun jt => ⟨?_, ?_⟩⟩
  · unfold Lives.eraseOf; rw [u.erase]
  · unfold Lives.eraseRange; rw [u.eraseFrom]
  · unfold Lives.eraseRange; rw [u.eraseTo]

/-- C140 is false. -/
theorem C140_violated : ∃ (s : Lives Unit) (it : VIter), Dealt unitFloat tight s ∧ it.owner = 0 ∧ Points s 1 it ∧
    s.content 0 = .arr [.int 1, .int 2] ∧ s.content 1 = .arr [.int 3] ∧ (Lives.eraseOf 1 it s).1 = .error .ub :=
  ⟨livesTwo, livesSecond, livesTwo_dealt, rfl, livesSecond_points, rfl, rfl,
    (C140_foreign unitFloat tight livesTwo livesTwo_dealt 1 1 livesSecond (by decide) livesSecond_points (.inr rfl) (.inl rfl) (.inl rfl)).1⟩

/-- C140, partial: what is neither an array nor an object refuses all iterators, and nothing changes. -/
theorem C140_plain_partial (fo : FloatOps F) (g : Growth) (s : Lives F) (hs : Dealt fo g s) (x : Nat) (hc : ¬ Container (s.content x)) (it jt : VIter) :
    (Lives.eraseOf x it s).1 = .error (.exn .invalidIterator) ∧ (Lives.eraseOf x it s).2.content = s.content ∧
    (Lives.eraseRange x it jt s).1 = .error (.exn .invalidIterator) ∧ (Lives.eraseRange x it jt s).2.content = s.content := by
  have key : ∃ v, s.vars x = .plain v := by
    cases hv : s.vars x with
    | plain v => exact ⟨v, rfl⟩
    | vec xs marks cap =>
      refine absurd (.inl ?_) hc
      unfold Lives.content Lives.one; rw [hv]; rfl
    | map home ms =>
      refine absurd (.inr ?_) hc
      unfold Lives.content Lives.one; rw [hv]; rfl
  obtain ⟨v, hv⟩ := key
  have same : (s.back x (s.one x)).content = s.content := by
    funext y
    by_cases e : y = x
    · subst e; show ((s.back y (s.one y)).one y).content = _; rw [back_one]; rfl
    · exact back_content s _ e
  have h1 : Live.erase it.place (s.one x) = (.error (.exn .invalidIterator), s.one x) := by unfold Lives.one; rw [hv]; rfl
  have h2 : Live.eraseRange it.place jt.place (s.one x) = (.error (.exn .invalidIterator), s.one x) := by unfold Lives.one; rw [hv]; rfl
  unfold Lives.eraseOf Lives.eraseRange
  rw [h1, h2]
  exact ⟨rfl, same, rfl, same⟩

example : (Lives.eraseOf 7 livesSecond livesTwo).1 = .error (.exn .invalidIterator) ∧ ¬ Container (livesTwo.content 7) :=
  ⟨rfl, by intro h; rcases h with h | h <;> cases h⟩

/-- `x.erase(it)` when the iterator is at position `p` of the container that `x` has, whatever variable it names. -/
theorem eraseOf_live (fo : FloatOps F) (g : Growth) (s : Lives F) (hs : Dealt fo g s) (x p : Nat) (it : VIter) (hi : PointsAt (s.one x) p it.place)
    (hp : p < (s.content x).size) (ht : Container (s.content x)) :
    ∃ jt t, Lives.eraseOf x it s = (.ok jt, t) ∧ jt.owner = x ∧ Points t p jt ∧ t.content x = lessAt p (s.content x) ∧
      ∀ y, y ≠ x → t.content y = s.content y := by
  obtain ⟨jt, d, h1, h2, h3, _, _⟩ := erase_live (dealt_ok hs |>.one x) hi hp ht
  refine ⟨⟨x, jt⟩, s.back x d, by unfold Lives.eraseOf; rw [h1], rfl, ?_, ?_, fun y hy => back_content s d hy⟩
  · show PointsAt ((s.back x d).one x) p jt
    rw [back_one]; exact h3
  · show ((s.back x d).one x).content = _
    rw [back_one]; exact h2

/-- C140, partial: after `x.swap(y)` or `y = std::move(x)`, `y.erase(it)` with an iterator of `x` from before removes the element it was
made for, which `y` has now, and gives an iterator of `y`. Every other use of that iterator is undefined after the swap (C132). -/
theorem C140_followed_partial (fo : FloatOps F) (g : Growth) (s : Lives F) (hs : Dealt fo g s) (x y p : Nat) (hxy : x ≠ y) (it : VIter)
    (ho : it.owner = x) (h : Points s p it) (hp : p < (s.content x).size) (ht : Container (s.content x)) (d : Deal F)
    (hd : d = .swap x y ∨ d = .move y x) :
    ∃ jt t, Lives.eraseOf y it (Lives.deal fo g d s).2 = (.ok jt, t) ∧ jt.owner = y ∧ Points t p jt ∧
      t.content y = lessAt p (s.content x) ∧ (d = .swap x y → t.content x = s.content y) ∧ (d = .move y x → t.content x = .null) := by
  have hu : UsualDeal d := by rcases hd with rfl | rfl <;> trivial
  have hs' : Dealt fo g (Lives.deal fo g d s).2 := .deal hs hu rfl
  have h : PointsAt (s.one x) p it.place := by rw [← ho]; exact h
  have hc := C132_content fo g s hs d hu
  have e1 : (Lives.deal fo g d s).2.one y = s.one x ∨ (Lives.deal fo g d s).2.one y = ⟨s.next, s.vars x⟩ := by
    rcases hd with rfl | rfl
    · left
      show (⟨s.next, if y = x then s.vars y else if y = y then s.vars x else s.vars y⟩ : Live F) = _
      rw [if_neg (Ne.symm hxy), if_pos rfl]; rfl
    · right
      simp only [Lives.deal, if_neg (Ne.symm hxy)]
      show (⟨s.next, if y = y then (if x = y then _ else s.vars x) else _⟩ : Live F) = _
      rw [if_pos rfl, if_neg hxy]
  have e1 : (Lives.deal fo g d s).2.one y = s.one x := e1.elim id id
  have e2 : (Lives.deal fo g d s).2.content y = s.content x := congrArg Live.content e1
  obtain ⟨jt, t, h1, h2, h3, h4, h5⟩ := eraseOf_live fo g _ hs' y p it (by rw [e1]; exact h) (by rw [e2]; exact hp) (by rw [e2]; exact ht)
  have h6 := (h5 x hxy).trans (congrFun hc.2 x)
  refine ⟨jt, t, h1, h2, h3, by rw [h4, e2], fun e => ?_, fun e => ?_⟩
  · subst e
    rw [h6]
    show (if x = x then s.content y else _) = _
    rw [if_pos rfl]
  · subst e
    rw [h6]
    show (if x = y then _ else if x = x then Value.null else _) = _
    rw [if_neg hxy, if_pos rfl]

example : (Lives.eraseOf 1 livesSecond (Lives.deal unitFloat tight (.swap 0 1) livesTwo).2).2.content 1 = .arr [.int 1] ∧
    (Lives.eraseOf 1 livesSecond (Lives.deal unitFloat tight (.swap 0 1) livesTwo).2).2.content 0 = .arr [.int 3] := ⟨rfl, rfl⟩

end Configor.Props
