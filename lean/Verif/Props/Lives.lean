import Verif.Proofs.Lives
import Verif.Props.Live
/-!
# Iterators of values that are exchanged: C132

`Points s p it` says that the iterator may be used and is at position `p` of the variable it was made from; C127 says what that means
for the operations. `Undefined s it` says that it must not be used.
-/
set_option autoImplicit false
namespace Configor.Props
open Spec

variable {F : Type}

theorem fresh_content (n spare : Nat) (v : Value F) : (Live.fresh n spare v).content = v := by
  cases v with
  | obj ms => exact congrArg Value.obj (number_strip (n + 1) ms)
  | _ => rfl

/-- C132. The operations do to the contents what they say. -/
theorem C132_content (fo : FloatOps F) (g : Growth) (s : Lives F) (hs : Dealt fo g s) (d : Deal F) (hd : UsualDeal d) :
    (Lives.deal fo g d s).1 = (exchanged fo d s.content).1 ∧ (Lives.deal fo g d s).2.content = (exchanged fo d s.content).2 := by
  have ok := dealt_ok hs
  cases d with
  | edit x e =>
    obtain ⟨h1, h2⟩ := act_content fo g (ok.one x) hd
    refine ⟨h1, funext fun z => ?_⟩
    show Live.content ⟨(Live.act fo g e (s.one x)).2.next, if z = x then (Live.act fo g e (s.one x)).2.shape else s.vars z⟩ = if z = x then _ else _
    split
    · exact h2
    · rfl
  | swap x y =>
    refine ⟨rfl, funext fun z => ?_⟩
    show Live.content ⟨s.next, if z = x then s.vars y else if z = y then s.vars x else s.vars z⟩ = if z = x then _ else if z = y then _ else _
    split
    · rfl
    · split <;> rfl
  | copy x y spare =>
    by_cases e : x = y
    · subst e
      simp only [Lives.deal, if_true, exchanged]
      refine ⟨trivial, funext fun z => ?_⟩
      split
      · rename_i h; rw [h]
      · rfl
    · simp only [Lives.deal, if_neg e, exchanged]
      refine ⟨trivial, funext fun z => ?_⟩
      show Live.content ⟨(Live.fresh s.next spare (s.content y)).next, if z = x then (Live.fresh s.next spare (s.content y)).shape else s.vars z⟩ = _
      split
      · exact fresh_content _ _ _
      · rfl
  | move x y =>
    by_cases e : x = y
    · subst e
      simp only [Lives.deal, if_true, exchanged]
      refine ⟨trivial, funext fun z => ?_⟩
      split
      · rename_i h; rw [h]
      · rfl
    · simp only [Lives.deal, if_neg e, exchanged]
      refine ⟨trivial, funext fun z => ?_⟩
      show Live.content ⟨s.next, if z = x then (if y = x then .plain .null else s.vars y) else if z = y then (if x = x then .plain .null else s.vars x)
        else if z = x then .plain .null else s.vars z⟩ = _
      by_cases hx : z = x
      · simp only [if_pos hx, if_neg (Ne.symm e)]; rfl
      · simp only [if_neg hx]
        by_cases hy : z = y
        · simp only [if_pos hy]; rfl
        · simp only [if_neg hy]; rfl


theorem sorted_ints (l : List Int) : KeysSorted (.arr (l.map .int) : Value Unit) := sorted_arr.2 (by
  intro x hx
  obtain ⟨i, _, rfl⟩ := List.mem_map.1 hx
  exact sorted_scalar (by simp [Value.type]) (by simp [Value.type]))

/-- `v0 = [1, 2]` and `v1 = [3]`, for examples. -/
def livesTwo : Lives Unit :=
  ((⟨0, fun _ => .plain .null⟩ : Lives Unit).back 0 (Live.fresh 0 0 (.arr [.int 1, .int 2]))).back 1 (Live.fresh 1 0 (.arr [.int 3]))

theorem livesTwo_dealt : Dealt unitFloat tight livesTwo :=
  .deal (d := .edit 1 (.assign (.arr [.int 3]) 0)) (.deal (d := .edit 0 (.assign (.arr [.int 1, .int 2]) 0)) (.start (n := 0)) (sorted_ints [1, 2]) rfl)
    (sorted_ints [3]) rfl

/-- The iterator to the second element of `v0`, for examples. -/
def livesSecond : VIter := ⟨0, some (1, 0), none, 0⟩

theorem livesSecond_points : Points livesTwo 1 livesSecond := ⟨_, rfl, rfl, by decide +kernel, rfl⟩

example : (Lives.deal unitFloat tight (.swap 0 1) livesTwo).2.content 0 = .arr [.int 3] ∧
    (Lives.deal unitFloat tight (.move 1 0) livesTwo).2.content 0 = .null ∧ (Lives.deal unitFloat tight (.move 1 0) livesTwo).2.content 1 = .arr [.int 1, .int 2] ∧
    (Lives.deal unitFloat tight (.copy 1 0 0) livesTwo).2.content 1 = .arr [.int 1, .int 2] := ⟨rfl, rfl, rfl, rfl⟩

/-- C132. An iterator that points at position `p` of a variable gives the element and the key there, steps to the next position,
and differs from those at other positions and those of other variables. `begin()` and `end()` are at the first position and after the
last, and name the variable. -/
theorem C132_use (fo : FloatOps F) (g : Growth) (s : Lives F) (hs : Dealt fo g s) :
    (∀ x, ∃ it, s.begin x = .ok it ∧ it.owner = x ∧ Points s 0 it) ∧
    (∀ x, ∃ it, s.fin x = .ok it ∧ it.owner = x ∧ Points s (s.content x).size it) ∧
    ∀ p it, Points s p it →
      (∀ v, (elements (s.content it.owner))[p]? = some v → s.deref it = .ok v) ∧
      (∀ ms m, s.content it.owner = .obj ms → ms[p]? = some m → s.key it = .ok m.1) ∧
      (p < (s.content it.owner).size → ∃ jt, s.incr it = .ok jt ∧ jt.owner = it.owner ∧ Points s (p + 1) jt) ∧
      (∀ q jt, Points s q jt → s.ne it jt = .ok (decide (it.owner ≠ jt.owner ∨ p ≠ q))) := by
  have ok := dealt_ok hs
  refine ⟨fun x => ?_, fun x => ?_, fun p it h => ⟨fun v hv => deref_live h hv, fun ms m e hm => key_live h e hm, fun hp => ?_, fun q jt hj => ?_⟩⟩
  · obtain ⟨it, h1, h2⟩ := begin_live (ok.one x)
    exact ⟨⟨x, it⟩, by unfold Lives.begin; rw [h1]; rfl, rfl, h2⟩
  · obtain ⟨it, h1, h2⟩ := fin_live (ok.one x)
    exact ⟨⟨x, it⟩, by unfold Lives.fin; rw [h1]; rfl, rfl, h2⟩
  · obtain ⟨jt, h1, h2⟩ := incr_live (ok.one it.owner) h hp
    exact ⟨⟨it.owner, jt⟩, by unfold Lives.incr; rw [h1]; rfl, rfl, h2⟩
  · unfold Lives.ne
    split
    · next e => simp [e]
    · next e =>
      have e : it.owner = jt.owner := Classical.not_not.1 e
      have hj : PointsAt (s.one it.owner) q jt.place := by rw [e]; exact hj
      rw [ne_live h hj]
      simp [e]

example : Dealt unitFloat tight livesTwo ∧ Points livesTwo 1 livesSecond ∧ livesTwo.deref livesSecond = .ok (.int 2) ∧
    (livesTwo.fin 0).toOption = some ⟨0, some (2, 0), none, 0⟩ := ⟨livesTwo_dealt, livesSecond_points, rfl, rfl⟩

/-- C132. `erase(it)` removes the element the iterator points at from its variable and from no other, and gives an iterator of the
same variable at the next element. -/
theorem C132_erase (fo : FloatOps F) (g : Growth) (s : Lives F) (hs : Dealt fo g s) (p : Nat) (it : VIter) (hi : Points s p it)
    (hp : p < (s.content it.owner).size) (ht : Container (s.content it.owner)) :
    ∃ jt t, Lives.erase it s = (.ok jt, t) ∧ jt.owner = it.owner ∧ Points t p jt ∧ t.content it.owner = lessAt p (s.content it.owner) ∧
      (∀ y, y ≠ it.owner → t.content y = s.content y) ∧
      ∀ q kt, Points s q kt → kt.owner ≠ it.owner ∨ q < p → Points t q kt := by
  obtain ⟨jt, d, h1, h2, h3, h4, _⟩ := erase_live (dealt_ok hs |>.one it.owner) hi hp ht
  have ho : (s.back it.owner d).one it.owner = d := by
    show (⟨d.next, if it.owner = it.owner then d.shape else _⟩ : Live F) = d
    rw [if_pos rfl]
  refine ⟨⟨it.owner, jt⟩, s.back it.owner d, by unfold Lives.erase; rw [h1], rfl, ?_, ?_, fun y hy => ?_, fun q kt hk hq => ?_⟩
  · show PointsAt ((s.back it.owner d).one it.owner) p jt
    rw [ho]; exact h3
  · show ((s.back it.owner d).one it.owner).content = _
    rw [ho]; exact h2
  · show Live.content ⟨d.next, if y = it.owner then d.shape else s.vars y⟩ = _
    rw [if_neg hy]; rfl
  · by_cases e : kt.owner = it.owner
    · have hk : PointsAt (s.one it.owner) q kt.place := by rw [← e]; exact hk
      show PointsAt ((s.back it.owner d).one kt.owner) q kt.place
      rw [e, ho]
      exact h4 q kt.place (hq.resolve_left (fun h => h e)) hk
    · show PointsAt ⟨d.next, if kt.owner = it.owner then d.shape else s.vars kt.owner⟩ q kt.place
      rw [if_neg e]
      exact hk

example : (Lives.erase livesSecond livesTwo).2.content 0 = .arr [.int 1] ∧ Container (livesTwo.content 0) := ⟨rfl, Or.inl rfl⟩

/-- C132. `*it = v` replaces the element the iterator points at in its variable, and all iterators of all variables stay where they
are. -/
theorem C132_store (fo : FloatOps F) (g : Growth) (s : Lives F) (hs : Dealt fo g s) (p : Nat) (it : VIter) (hi : Points s p it)
    (hp : p < (s.content it.owner).size) (ht : Container (s.content it.owner)) (v : Value F) :
    ∃ t, Lives.store it v s = (.ok (), t) ∧ t.content it.owner = withAt p v (s.content it.owner) ∧
      (∀ y, y ≠ it.owner → t.content y = s.content y) ∧ ∀ q kt, Points s q kt ↔ Points t q kt := by
  obtain ⟨d, h1, _, h2, h3⟩ := store_live (dealt_ok hs |>.one it.owner) hi hp ht v
  have ho : (s.back it.owner d).one it.owner = d := by
    show (⟨d.next, if it.owner = it.owner then d.shape else _⟩ : Live F) = d
    rw [if_pos rfl]
  refine ⟨s.back it.owner d, by unfold Lives.store; rw [h1], ?_, fun y hy => ?_, fun q kt => ?_⟩
  · show ((s.back it.owner d).one it.owner).content = _
    rw [ho]; exact h2
  · show Live.content ⟨d.next, if y = it.owner then d.shape else s.vars y⟩ = _
    rw [if_neg hy]; rfl
  · by_cases e : kt.owner = it.owner
    · show PointsAt (s.one kt.owner) q kt.place ↔ PointsAt ((s.back it.owner d).one kt.owner) q kt.place
      rw [e, ho]
      exact h3 q kt.place
    · show PointsAt (s.one kt.owner) q kt.place ↔ PointsAt ⟨d.next, if kt.owner = it.owner then d.shape else s.vars kt.owner⟩ q kt.place
      rw [if_neg e]
      exact Iff.rfl

example : (Lives.store livesSecond .null livesTwo).2.content 0 = .arr [.int 1, .null] := rfl

/-- C132. An iterator is not affected by what is done to other variables, also by copying from its own. -/
theorem C132_others_partial (fo : FloatOps F) (g : Growth) (s t : Lives F) (p : Nat) (it : VIter) (h : Points s p it) (ds : List (Deal F))
    (hd : ∀ d ∈ ds, ¬ Touches it.owner d) (e : Lives.dealAll fo g ds s = some t) :
    Points t p it ∧ t.content it.owner = s.content it.owner := by
  have hv := untouched_all fo g ds hd e
  unfold Points Lives.content Lives.one at *
  rw [hv]
  exact ⟨h, rfl⟩

example : Points livesTwo 1 livesSecond ∧ ¬ Touches livesSecond.owner (.copy 1 0 0 : Deal Unit) ∧
    (Lives.dealAll unitFloat tight [.copy 1 0 0] livesTwo).isSome := ⟨livesSecond_points, by simp [Touches, livesSecond], rfl⟩

/-- C132. Assigning a variable to itself, copying or moving, and swapping it with itself, changes nothing. -/
theorem C132_self_partial (fo : FloatOps F) (g : Growth) (s : Lives F) (x spare : Nat) :
    Lives.deal fo g (.copy x x spare) s = (.ok (), s) ∧ Lives.deal fo g (.move x x) s = (.ok (), s) ∧ Lives.deal fo g (.swap x x) s = (.ok (), s) := by
  refine ⟨by simp [Lives.deal], by simp [Lives.deal], ?_⟩
  have : Lives.exchange x x s = s := by
    obtain ⟨n, V⟩ := s
    simp only [Lives.exchange]
    congr
    funext z
    split
    · rename_i h; rw [h]
    · rfl
  simp only [Lives.deal, this]

/-- After `x.swap(y)` every iterator of `x`, if both were arrays or objects, is one that must not be used, although its element is
still there, in `y`. -/
theorem C132_swapped (fo : FloatOps F) (g : Growth) (s : Lives F) (hs : Dealt fo g s) (x y : Nat) (hxy : x ≠ y) (hx : Container (s.content x))
    (hy : Container (s.content y)) (p : Nat) (it : VIter) (ho : it.owner = x) (h1 : VIter.OfOneKind it) (h : Points s p it) :
    Undefined (Lives.deal fo g (.swap x y) s).2 it ∧ (Lives.deal fo g (.swap x y) s).2.content y = s.content x := by
  have ok := dealt_ok hs
  have ok' := deal_ok fo g ok (d := .swap x y) trivial
  subst ho
  have hv : (Lives.deal fo g (.swap it.owner y) s).2.vars it.owner = s.vars y := if_pos rfl
  refine ⟨undefined_of (useless_unless (ok'.one _) ?_ fun a ha => ?_), ?_⟩
  · unfold Lives.one; rw [hv]; exact hy
  · show ¬ HasNook ((Lives.deal fo g (.swap it.owner y) s).2.vars it.owner) a
    rw [hv]
    exact ok.apart _ _ hxy a (names_has (ok.one _) hx h h1 ha)
  · show Live.content ⟨s.next, if y = it.owner then s.vars y else if y = y then s.vars it.owner else s.vars y⟩ = _
    rw [if_neg (Ne.symm hxy), if_pos rfl]
    rfl

/-- C132 is false: the iterator to the second element of `[1, 2]` must not be used any more after the variable is swapped with one
that holds `[3]`. -/
theorem C132_violated : ∃ (s : Lives Unit) (it : VIter), Dealt unitFloat tight s ∧ it.owner = 0 ∧ Points s 1 it ∧ s.content 0 = .arr [.int 1, .int 2] ∧
    (Lives.deal unitFloat tight (.swap 0 1) s).2.content 1 = .arr [.int 1, .int 2] ∧ Undefined (Lives.deal unitFloat tight (.swap 0 1) s).2 it :=
  ⟨livesTwo, livesSecond, livesTwo_dealt, rfl, livesSecond_points, rfl, rfl,
    (C132_swapped unitFloat tight livesTwo livesTwo_dealt 0 1 (by decide) (.inl rfl) (.inl rfl) 1 livesSecond rfl (.inr rfl) livesSecond_points).1⟩

/-- C132, partial: after `x.swap(y)`, then anything that leaves `y` alone, and `x.swap(y)` again, the iterator is at its element again.
What is missing is the use in between, for which the property is false. -/
theorem C132_swapped_back_partial (fo : FloatOps F) (g : Growth) (s t : Lives F) (x y : Nat) (hxy : x ≠ y) (p : Nat) (it : VIter) (ho : it.owner = x)
    (h : Points s p it) (ds : List (Deal F)) (hd : ∀ d ∈ ds, ¬ Touches y d)
    (e : Lives.dealAll fo g (.swap x y :: ds ++ [.swap x y]) s = some t) : Points t p it ∧ t.content x = s.content x := by
  have split_all : ∀ (ds : List (Deal F)) (d : Deal F) (s t : Lives F), Lives.dealAll fo g (ds ++ [d]) s = some t →
      ∃ u, Lives.dealAll fo g ds s = some u ∧ Lives.dealAll fo g [d] u = some t := by
    intro ds d
    induction ds with
    | nil => intro s t e; exact ⟨s, rfl, e⟩
    | cons c cs ih =>
      intro s t e
      rw [List.cons_append] at e
      unfold Lives.dealAll at e ⊢
      split at e
      · exact ih _ _ e
      · exact ih _ _ e
      · cases e
  obtain ⟨u, e1, e2⟩ := split_all _ _ _ _ e
  have e1 : Lives.dealAll fo g ds (Lives.exchange x y s) = some u := e1
  have e2 : some (Lives.exchange x y u) = some t := e2
  have e2 := Option.some.inj e2
  have hu := untouched_all fo g ds hd e1
  have hv : t.vars x = s.vars x := by
    rw [← e2]
    show (if x = x then u.vars y else _) = _
    rw [if_pos rfl, hu]
    show (if y = x then _ else if y = y then s.vars x else _) = _
    rw [if_neg (Ne.symm hxy), if_pos rfl]
  subst ho
  unfold Points Lives.content Lives.one at *
  rw [hv]
  exact ⟨h, rfl⟩

example : (Lives.dealAll unitFloat tight (.swap 0 1 :: [.edit 0 (.push .null)] ++ [.swap 0 1]) livesTwo).isSome := rfl

/-- C132. After `x = std::move(y)` the iterators of `y` are those of null: `*it` and `it.key()` throw. `!=` with iterators of `x`, which
has the elements now, is true. -/
theorem C132_moved (fo : FloatOps F) (g : Growth) (s : Lives F) (x y : Nat) (hxy : x ≠ y) (it : VIter) (ho : it.owner = y) :
    (Lives.deal fo g (.move x y) s).2.deref it = .error (.exn .outOfRange) ∧ (∃ e, (Lives.deal fo g (.move x y) s).2.key it = .error (.exn e)) ∧
    ∀ jt, jt.owner = x → (Lives.deal fo g (.move x y) s).2.ne it jt = .ok true := by
  subst ho
  have hv : (Lives.deal fo g (.move x it.owner) s).2.one it.owner = ⟨s.next, .plain .null⟩ := by
    simp only [Lives.deal, if_neg hxy]
    show (⟨s.next, if it.owner = x then _ else if it.owner = it.owner then (if x = x then .plain .null else s.vars x) else _⟩ : Live F) = _
    rw [if_neg (Ne.symm hxy), if_pos rfl, if_pos rfl]
  refine ⟨?_, ?_, fun jt hj => ?_⟩
  · unfold Lives.deref; rw [hv]; rfl
  · unfold Lives.key; rw [hv]; exact ⟨_, rfl⟩
  · unfold Lives.ne
    rw [if_pos (by rw [hj]; exact Ne.symm hxy)]

example : (Lives.deal unitFloat tight (.move 1 0) livesTwo).2.deref livesSecond = .error (.exn .outOfRange) := rfl

/-- C132. An iterator of `x` whose array or object is gone, because another value was assigned to `x`, does not come back, whatever
is done later, with any variables: when `x` holds an array or an object, the iterator must not be used. -/
theorem C132_gone (fo : FloatOps F) (g : Growth) (s t : Lives F) (hs : Dealt fo g s) (p : Nat) (it : VIter) (hx : Container (s.content it.owner))
    (h1 : VIter.OfOneKind it) (h : Points s p it) (d : Deal F)
    (hd : (∃ v spare, d = .edit it.owner (.assign v spare) ∧ KeysSorted v) ∨ (∃ y spare, y ≠ it.owner ∧ d = .copy it.owner y spare) ∨
      ∃ y, y ≠ it.owner ∧ d = .move it.owner y)
    (ds : List (Deal F)) (hu : ∀ d ∈ ds, UsualDeal d) (e : Lives.dealAll fo g (d :: ds) s = some t) (ht : Container (t.content it.owner)) :
    Undefined t it := by
  have ok := dealt_ok hs
  have old : ∀ a, Names it.place a → a.num < s.next ∧ ∀ y, y ≠ it.owner → ¬ HasNook (s.vars y) a := by
    intro a ha
    have hh := names_has (ok.one _) hx h h1 ha
    exact ⟨has_old (ok.one it.owner) hh, fun y hy => ok.apart _ _ (Ne.symm hy) a hh⟩
  have fresh : ∀ v spare, Gone it.place (s.back it.owner (Live.fresh s.next spare v)) := by
    intro v spare a ha
    obtain ⟨k1, k2⟩ := old a ha
    have hg := fresh_grown (.plain .null) (n := s.next) spare v
    refine ⟨Nat.lt_of_lt_of_le k1 hg.next, fun y hy => ?_⟩
    simp only [Lives.back] at hy
    split at hy
    · rcases hg.has a hy with h3 | h3
      · cases a <;> exact h3
      · have h3 : s.next ≤ a.num := h3
        omega
    · rename_i hne; exact k2 y hne hy
  have key : Gone it.place (Lives.deal fo g d s).2 ∧ UsualDeal d ∧ (Lives.deal fo g d s).1 = .ok () := by
    rcases hd with ⟨v, spare, rfl, hv⟩ | ⟨y, spare, hy, rfl⟩ | ⟨y, hy, rfl⟩
    · exact ⟨fresh v spare, hv, rfl⟩
    · simp only [Lives.deal, if_neg (Ne.symm hy)]
      exact ⟨fresh _ spare, trivial, trivial⟩
    · simp only [Lives.deal, if_neg (Ne.symm hy)]
      refine ⟨gone_exchange ?_ _ _, trivial, trivial⟩
      intro a ha
      obtain ⟨k1, k2⟩ := old a ha
      refine ⟨k1, fun z hz => ?_⟩
      simp only [Lives.back] at hz
      split at hz
      · cases a <;> exact hz
      · rename_i hne; exact k2 z hne hz
  obtain ⟨k1, k2, k3⟩ := key
  have ok' := deal_ok fo g ok k2
  have e' : Lives.dealAll fo g ds (Lives.deal fo g d s).2 = some t := by
    unfold Lives.dealAll at e
    split at e
    · rename_i h2; rw [h2]; exact e
    · rename_i h2; rw [h2] at k3; cases k3
    · cases e
  obtain ⟨o, k⟩ := gone_all fo g ds ok' k1 hu e'
  exact undefined_of (useless_unless (o.one _) ht fun a ha => (k a ha).2 it.owner)

example : (Lives.dealAll unitFloat tight [.copy 0 1 0, .swap 0 1, .edit 0 (.push .null)] livesTwo).isSome ∧ Container (livesTwo.content 0) ∧
    VIter.OfOneKind livesSecond := ⟨rfl, .inl rfl, .inr rfl⟩

end Configor.Props
