import Verif.Proofs.Words
import Verif.Proofs.TokenFail
import Verif.Spec.Texts
/-! The strings of parsed values, and errors in keys. -/
namespace Configor
open Lexer Spec

variable {F : Type}

theorem lookup_mem {V : Type} {ms : List (List Nat × V)} {k : List Nat} {v : V} (h : ms.lookup k = some v) : (k, v) ∈ ms := by
  induction ms with
  | nil => cases h
  | cons x ms ih =>
    rw [lookup_if] at h
    split at h
    · rename_i hk
      cases h
      rw [hk]; simp
    · simp [ih h]

theorem sorted_lookup {V : Type} {m : Map.T V} (hm : Sorted m) {k : List Nat} {v : V} (h : (k, v) ∈ m) : m.lookup k = some v := by
  induction m with
  | nil => cases h
  | cons x m ih =>
    have hx := List.pairwise_cons.1 hm
    rw [lookup_if]
    rcases List.mem_cons.1 h with rfl | h
    · simp
    · have := hx.1 _ h
      rw [if_neg, ih hx.2 h]
      rintro rfl
      exact List.lt_irrefl _ this

theorem firstWins_mem {ms r : List (List Nat × Value F)} (h : FirstWins ms r) {k : List Nat} {v : Value F} (hm : (k, v) ∈ r) :
    (k, v) ∈ ms := lookup_mem (by rw [← h.2]; exact sorted_lookup h.1 hm)

theorem tval_texts {D : Dialect F} {ts : List (List Nat)} {v : Value F} (h : TVal D ts v) :
    ∀ s, HasText v s → ∃ t ∈ ts, StrLit D t s := by
  refine TVal.rec (D := D)
    (motive_1 := fun ts v _ => ∀ s, HasText v s → ∃ t ∈ ts, StrLit D t s)
    (motive_2 := fun ts xs _ => ∀ x ∈ xs, ∀ s, HasText x s → ∃ t ∈ ts, StrLit D t s)
    (motive_3 := fun ts ms _ => ∀ k v, (k, v) ∈ ms → (∃ t ∈ ts, StrLit D t k) ∧ ∀ s, HasText v s → ∃ t ∈ ts, StrLit D t s)
    ?_ ?_ ?_ ?_ ?_ ?_ ?_ ?_ ?_ ?_ ?_ h
  · intro t v hw hv s hs
    have hv := hv none after_none
    rcases word_val hw hv with h | h | h | h
    · cases h with
      | @plain c u _ n => cases n <;> simp only [Num.value] at hs <;> cases hs
      | @signed c u _ n => cases n <;> simp only [Num.value] at hs <;> cases hs
    all_goals
      cases hv with
      | vtrue => cases hs
      | vfalse => cases hs
      | vnull => cases hs
      | num h =>
        cases h with
        | @plain c u _ n => cases n <;> simp only [Num.value] at hs <;> cases hs
        | @signed c u _ n => cases n <;> simp only [Num.value] at hs <;> cases hs
      | str h' =>
        obtain ⟨u, cps, rfl, _⟩ := h'
        exact absurd rfl (hw.chars _ (by simp)).2.2.1
      | arr _ => exact absurd (by simp [IsPunct]) (hw.chars 0x5B (by simp)).2.2.2.1
      | obj _ _ => exact absurd (by simp [IsPunct]) (hw.chars 0x7B (by simp)).2.2.2.1
  · intro t s hs s' h
    cases h
    exact ⟨t, by simp, hs⟩
  · intro ts xs _ ih s h
    cases h with
    | elem hx hs =>
      obtain ⟨t, ht, h⟩ := ih _ hx s hs
      exact ⟨t, by simp [ht], h⟩
  · intro ts ms r _ hf ih s h
    cases h with
    | key hm =>
      obtain ⟨t, ht, h⟩ := (ih _ _ (firstWins_mem hf hm)).1
      exact ⟨t, by simp [ht], h⟩
    | member hm hs =>
      obtain ⟨t, ht, h⟩ := (ih _ _ (firstWins_mem hf hm)).2 s hs
      exact ⟨t, by simp [ht], h⟩
  · intro x hx; cases hx
  · intro ts v _ ih x hx s hs
    simp at hx
    subst hx
    obtain ⟨t, ht, h⟩ := ih s hs
    exact ⟨t, by simp [ht], h⟩
  · intro ts v us xs _ _ ih ih' x hx s hs
    rcases List.mem_cons.mp hx with rfl | hx
    · obtain ⟨t, ht, h⟩ := ih s hs
      exact ⟨t, by simp [ht], h⟩
    · obtain ⟨t, ht, h⟩ := ih' x hx s hs
      exact ⟨t, by simp [ht], h⟩
  · intro k v h; cases h
  · intro k s _ k v h; cases h
  · intro k s ts v hk _ ih k' v' hm
    simp at hm
    obtain ⟨rfl, rfl⟩ := hm
    refine ⟨⟨k, by simp, hk⟩, fun s hs => ?_⟩
    obtain ⟨t, ht, h⟩ := ih s hs
    exact ⟨t, by simp [ht], h⟩
  · intro k s ts v us ms hk _ _ ih ih' k' v' hm
    rcases List.mem_cons.mp hm with hm | hm
    · simp at hm
      obtain ⟨rfl, rfl⟩ := hm
      refine ⟨⟨k, by simp, hk⟩, fun s hs => ?_⟩
      obtain ⟨t, ht, h⟩ := ih s hs
      exact ⟨t, by simp [ht], h⟩
    · obtain ⟨⟨t, ht, h⟩, h'⟩ := ih' k' v' hm
      refine ⟨⟨t, by simp [ht], h⟩, fun s hs => ?_⟩
      obtain ⟨t, ht, h⟩ := h' s hs
      exact ⟨t, by simp [ht], h⟩

/-! ## Errors at a place where a value or a key is due -/

variable {C : Cfg CpS F} {k : List (Option Nat)}

theorem stuck_key (H : Canon C) (hst : Sticky C.enc) {e : Stop} {g q g' : List Nat} {ms : List (List Nat × Value F)} (hg : Gap g)
    (hq : MembersOpen C.dialect q ms) (hg' : Gap g')
    (hb : g.length + q.length + g'.length + k.length + 3 ≤ C.bound)
    (h : ∀ d, Fails (scanString C) (some 0x22 :: k) d e) :
    Stuck C (txt g (some 0x7B :: txt q (txt g' (some 0x22 :: k)))) e ∧
    ∀ d, Runs (scan C) (txt g (some 0x7B :: txt q (txt g' (some 0x22 :: k)))) d fun a _ _ => a.startsValue = true := by
  have hsc : ∀ d, Runs (scan C) (txt g (some 0x7B :: txt q (txt g' (some 0x22 :: k)))) d
      fun a l' d' => a = .beginObject ∧ l' = txt q (txt g' (some 0x22 :: k)) ∧ d' = d := fun d =>
    run_scan_punct H .beginObject hg ((gap_ok 0x22).txt _) (by simp only [txt_length, List.length_cons]; omega)
  refine ⟨?_, fun d => (hsc d).imp ?_⟩
  · intro n c d hn
    simp only [txt_length, List.length_cons] at hn
    obtain ⟨n, rfl⟩ : ∃ m, n = m + 1 := ⟨n - 1, by omega⟩
    obtain ⟨_, _, d1, h1, rfl, rfl, rfl⟩ := hsc d
    rw [doParse_none, h1]
    simp only [doParse]
    obtain ⟨n', d2, h2, h3⟩ := object_open H hst hq (gap_ok (g := g') (k := k) 0x22) n [] d1
      (by simp only [txt_length, List.length_cons]; omega) (by omega)
    rw [h3]
    obtain ⟨n', rfl⟩ : ∃ m, n' = m + 1 := ⟨n' - 1, by omega⟩
    obtain ⟨_, _, d3, h4, rfl, rfl, rfl⟩ := run_scan_string (d := d2) (k := k) H hg' (by omega)
    obtain ⟨s, hs⟩ := h d3
    rw [parseObject, h4]
    simp only [if_true]
    rw [hs]
    exact ⟨_, _, rfl⟩
  · rintro _ _ _ ⟨rfl, _⟩; rfl

theorem parse_tooBig {A : ParseArgs F} (hA : A.Usual) (c : Value F) {p t : List Nat} (hp : ValueDue A.dialect p)
    (ht : TooBig A.sw t) {n : Nat} (hn : 2 * (txt p (txt t k)).length + 2 ≤ n) :
    (parseItems A n none c (txt p (txt t k))).1 = .error .ub := by
  have H := canon_canon hA n
  have ho : Ok (txt t k) := by
    cases ht with
    | plain => exact .cons _ _
    | signed => exact .cons _ _
  have hb : (txt p (txt t k)).length + 1 ≤ (A.canon n).bound := by
    show _ ≤ n
    omega
  simp only [txt_length] at hb
  refine parseItems_stuck c (ho.txt _) hn ?_
  have hf : ∀ g, Gap g → g.length + (txt t k).length + 1 ≤ (A.canon n).bound → ∀ d, Fails (scan (A.canon n)) (txt g (txt t k)) d .ub := by
    intro g hg hgb d
    refine fail_scan_tooBig H ht hg ?_
    simp only [txt_length] at hgb
    omega
  refine stuck_inside H (A.te.sticky A.tw) hp ho (by simp only [txt_length]; omega) ?_ ?_
  · intro g hg hgb
    exact stuck_scan (hf g hg hgb)
  · intro g hg hgb d
    exact Or.inl (hf g hg hgb d)

theorem parse_badString {A : ParseArgs F} (hA : A.Usual) (c : Value F) {p q : List Nat} (hp : ValueDue A.dialect p)
    (hq : StrOpen q) (hk : BadStr k) {n : Nat} (hn : 2 * (txt p (txt (0x22 :: q) k)).length + 2 ≤ n) :
    (parseItems A n none c (txt p (txt (0x22 :: q) k))).1 = .error (.exn .deserialization) := by
  have H := canon_canon hA n
  have hb : (txt p (txt (0x22 :: q) k)).length + 1 ≤ (A.canon n).bound := by
    show _ ≤ n
    omega
  simp only [txt_length, List.length_cons] at hb
  refine parseItems_stuck c (Ok.txt _ (by rw [txt_cons]; exact .cons _ _)) hn ?_
  have hf : ∀ d, Fails (scanString (A.canon n)) (some 0x22 :: txt q k) d (.exn .deserialization) := by
    intro d
    have := fail_scanString (d := d) H hq hk (by omega)
    rwa [txt_cons] at this
  rw [txt_cons]
  refine stuck_inside H (A.te.sticky A.tw) hp (.cons _ _) (by simp only [txt_length, List.length_cons]; omega) ?_ ?_
  · intro g hg hgb
    simp only [txt_length, List.length_cons] at hgb
    exact stuck_string H hg (by simp only [txt_length]; omega) hf
  · intro g hg hgb d
    simp only [txt_length, List.length_cons] at hgb
    refine Or.inr ((run_scan_string (d := d) (k := txt q k) H hg (by simp only [txt_length]; omega)).imp ?_)
    rintro _ _ _ ⟨rfl, _⟩; rfl

theorem parse_badKey {A : ParseArgs F} (hA : A.Usual) (c : Value F) {p m g q : List Nat} {ms : List (List Nat × Value F)}
    (hp : ValueDue A.dialect p) (hm : MembersOpen A.dialect m ms) (hg : Gap g)
    (hq : StrOpen q) (hk : BadStr k) {n : Nat} (hn : 2 * (txt (p ++ 0x7B :: m ++ g ++ 0x22 :: q) k).length + 2 ≤ n) :
    (parseItems A n none c (txt (p ++ 0x7B :: m ++ g ++ 0x22 :: q) k)).1 = .error (.exn .deserialization) := by
  have H := canon_canon hA n
  have he : txt (p ++ 0x7B :: m ++ g ++ 0x22 :: q) k = txt p (some 0x7B :: txt m (txt g (some 0x22 :: txt q k))) := by simp
  rw [he] at hn ⊢
  have hb : (txt p (some 0x7B :: txt m (txt g (some 0x22 :: txt q k)))).length + 1 + 1 ≤ (A.canon n).bound := by
    show _ ≤ n
    omega
  simp only [txt_length, List.length_cons] at hb
  refine parseItems_stuck c (gap_ok _) hn ?_
  have hf : ∀ d, Fails (scanString (A.canon n)) (some 0x22 :: txt q k) d (.exn .deserialization) := by
    intro d
    have := fail_scanString (d := d) H hq hk (by omega)
    rwa [txt_cons] at this
  refine stuck_inside H (A.te.sticky A.tw) hp (.cons _ _) (by simp only [txt_length, List.length_cons]; omega) ?_ ?_
  · intro g' hg' hgb
    simp only [txt_length, List.length_cons] at hgb
    exact (stuck_key H (A.te.sticky A.tw) hg' hm hg (by simp only [txt_length]; omega) hf).1
  · intro g' hg' hgb d
    simp only [txt_length, List.length_cons] at hgb
    exact Or.inr ((stuck_key H (A.te.sticky A.tw) hg' hm hg (by simp only [txt_length]; omega) hf).2 d)

end Configor

namespace Configor
open Lexer Spec

variable {F : Type}

/-- `t` is a part of `l`. -/
theorem val_texts {D : Dialect F} {t : List Nat} {nx : Option Nat} {v : Value F} (h : Val D t nx v) :
    ∀ s, HasText v s → ∃ a k b, t = a ++ k ++ b ∧ StrLit D k s := by
  refine Val.rec (D := D)
    (motive_1 := fun t _ v _ => ∀ s, HasText v s → ∃ a k b, t = a ++ k ++ b ∧ StrLit D k s)
    (motive_2 := fun t xs _ => ∀ x ∈ xs, ∀ s, HasText x s → ∃ a k b, t = a ++ k ++ b ∧ StrLit D k s)
    (motive_3 := fun t ms _ => ∀ k v, (k, v) ∈ ms → (∃ a u b, t = a ++ u ++ b ∧ StrLit D u k) ∧
      ∀ s, HasText v s → ∃ a k b, t = a ++ k ++ b ∧ StrLit D k s)
    ?_ ?_ ?_ ?_ ?_ ?_ ?_ ?_ ?_ ?_ ?_ ?_ ?_ ?_ h
  · intro t nx _ s hs; cases hs
  · intro t nx _ s hs; cases hs
  · intro t nx _ s hs; cases hs
  · intro t nx v hn s hs
    cases hn with
    | @plain c u _ n => cases n <;> simp only [Num.value] at hs <;> cases hs
    | @signed c u _ n => cases n <;> simp only [Num.value] at hs <;> cases hs
  · intro t nx s hs s' h
    cases h
    exact ⟨[], t, [], by simp, hs⟩
  · intro t nx xs _ ih s h
    cases h with
    | elem hx hs =>
      obtain ⟨a, k, b, rfl, h⟩ := ih _ hx s hs
      exact ⟨0x5B :: a, k, b, by simp, h⟩
  · intro t nx ms r _ hf ih s h
    cases h with
    | key hm =>
      obtain ⟨a, k, b, rfl, h⟩ := (ih _ _ (firstWins_mem hf hm)).1
      exact ⟨0x7B :: a, k, b, by simp, h⟩
    | member hm hs =>
      obtain ⟨a, k, b, rfl, h⟩ := (ih _ _ (firstWins_mem hf hm)).2 s hs
      exact ⟨0x7B :: a, k, b, by simp, h⟩
  · intro g _ x hx; cases hx
  · intro g t v g' _ _ _ ih x hx s hs
    simp at hx
    subst hx
    obtain ⟨a, k, b, rfl, h⟩ := ih s hs
    exact ⟨g ++ a, k, b ++ g' ++ [0x5D], by simp, h⟩
  · intro g t v g' u xs _ _ _ _ ih ih' x hx s hs
    rcases List.mem_cons.mp hx with rfl | hx
    · obtain ⟨a, k, b, rfl, h⟩ := ih s hs
      exact ⟨g ++ a, k, b ++ g' ++ 0x2C :: u, by simp, h⟩
    · obtain ⟨a, k, b, rfl, h⟩ := ih' x hx s hs
      exact ⟨g ++ t ++ g' ++ 0x2C :: a, k, b, by simp, h⟩
  · intro g _ k v h; cases h
  · intro g k s g' _ _ _ k v h; cases h
  · intro g k s g1 g2 t v g' _ hk _ _ _ _ ih k' v' hm
    simp at hm
    obtain ⟨rfl, rfl⟩ := hm
    refine ⟨⟨g, k, g1 ++ 0x3A :: g2 ++ t ++ g' ++ [0x7D], by simp, hk⟩, fun s hs => ?_⟩
    obtain ⟨a, u, b, rfl, h⟩ := ih s hs
    exact ⟨g ++ k ++ g1 ++ 0x3A :: g2 ++ a, u, b ++ g' ++ [0x7D], by simp, h⟩
  · intro g k s g1 g2 t v g' u ms _ hk _ _ _ _ _ ih ih' k' v' hm
    rcases List.mem_cons.mp hm with hm | hm
    · simp at hm
      obtain ⟨rfl, rfl⟩ := hm
      refine ⟨⟨g, k, g1 ++ 0x3A :: g2 ++ t ++ g' ++ 0x2C :: u, by simp, hk⟩, fun s hs => ?_⟩
      obtain ⟨a, u', b, rfl, h⟩ := ih s hs
      exact ⟨g ++ k ++ g1 ++ 0x3A :: g2 ++ a, u', b ++ g' ++ 0x2C :: u, by simp, h⟩
    · obtain ⟨⟨a, u', b, rfl, h⟩, h'⟩ := ih' k' v' hm
      refine ⟨⟨g ++ k ++ g1 ++ 0x3A :: g2 ++ t ++ g' ++ 0x2C :: a, u', b, by simp, h⟩, fun s hs => ?_⟩
      obtain ⟨a', u', b', he, h⟩ := h' s hs
      rw [he]
      exact ⟨g ++ k ++ g1 ++ 0x3A :: g2 ++ t ++ g' ++ 0x2C :: a', u', b', by simp, h⟩

/-! ## Storing text -/

/-- A Unicode encoding on a character type that has room for its units, with its units. -/
inductive Target : Enc → Nat → (Nat → List Nat) → Prop where
  | utf8 : Target .utf8 8 Spec.utf8
  | utf16 : Target .utf16 16 Spec.utf16c
  | utf16w : Target .utf16 32 Spec.utf16
  | utf32 : Target .utf32 32 Spec.utf32

theorem Target.ok {e : Enc} {w : Nat} {spec : Nat → List Nat} (h : Target e w spec) {o : OStream} (ho : o.failb = false)
    {cp : Nat} (hc : cp ≤ maxCp) : e.encode w o cp = ⟨o.out ++ spec cp, false⟩ := by
  unfold maxCp at hc
  cases h with
  | utf8 => exact utf8Encode_ok ho hc
  | utf16 => exact utf16Encode_ok16 ho hc
  | utf16w => exact utf16Encode_ok (Or.inr rfl) ho ⟨hc, nofun⟩
  | utf32 => exact utf32Encode_ok ho hc

theorem Target.fail {e : Enc} {w : Nat} {spec : Nat → List Nat} (h : Target e w spec) (o : OStream)
    {cp : Nat} (hc : maxCp < cp) : (e.encode w o cp).failb = true := by
  unfold maxCp at hc
  cases h with
  | utf8 => exact (congrArg OStream.failb (utf8Encode_fail 8 o hc)).trans rfl
  | utf16 => exact (congrArg OStream.failb (utf16Encode_fail 16 o hc)).trans rfl
  | utf16w => exact (congrArg OStream.failb (utf16Encode_fail 32 o hc)).trans rfl
  | utf32 => exact (congrArg OStream.failb (utf32Encode_fail 32 o hc)).trans rfl

theorem Target.store {e : Enc} {w : Nat} {spec : Nat → List Nat} (h : Target e w spec) (cps s : List Nat) :
    storeWith (e.encode w) cps = some s ↔ (∀ c ∈ cps, c ≤ maxCp) ∧ s = cps.flatMap spec := by
  suffices ∀ o : OStream, o.failb = false →
      ((∀ c ∈ cps, c ≤ maxCp) ∧ writeAll (e.encode w) o cps = ⟨o.out ++ cps.flatMap spec, false⟩ ∨
       (¬ ∀ c ∈ cps, c ≤ maxCp) ∧ (writeAll (e.encode w) o cps).failb = true) by
    unfold storeWith
    rcases this (.ofString []) rfl with ⟨h1, h2⟩ | ⟨h1, h2⟩
    · rw [h2]; simp [OStream.ofString, eq_comm]; exact fun _ => h1
    · simp [h2, h1]
  intro o ho
  induction cps generalizing o with
  | nil => left; cases o; simp_all [writeAll]
  | cons c cs ih =>
    by_cases hc : c ≤ maxCp
    · have := ih (e.encode w o c) (by rw [h.ok ho hc])
      rw [h.ok ho hc] at this
      simp only [writeAll, List.foldl_cons, h.ok ho hc] at this ⊢
      rcases this with ⟨h1, h2⟩ | ⟨h1, h2⟩
      · left; rw [h2]
        exact ⟨fun x hx => (List.mem_cons.1 hx).elim (fun he => he ▸ hc) (h1 x), by simp⟩
      · right
        exact ⟨fun h' => h1 fun x hx => h' x (List.mem_cons_of_mem _ hx), h2⟩
    · right
      refine ⟨fun h' => hc (h' c (by simp)), ?_⟩
      simp only [writeAll, List.foldl_cons]
      have hf := h.fail o (cp := c) (by omega)
      cases hb : (writeAll (e.encode w) (e.encode w o c) cs).failb with
      | true => exact hb
      | false => exact absurd (writeAll_sticky (e.sticky w) cs hb) (by rw [hf]; decide)

end Configor
