import Verif.Proofs.Layout
/-! The words of accepted texts. -/
namespace Configor
open Spec Spec.Rfc

variable {F : Type}

theorem tval_words {D : Dialect F} {ts : List (List Nat)} {v : Value F} (h : TVal D ts v) :
    ∀ t ∈ ts, Word t → ∃ v', ∀ nx, After nx → Val D t nx v' := by
  have nopunct : ∀ {c : Nat}, IsPunct c → ¬ Word [c] := fun hc hw => (hw.chars _ (by simp)).2.2.2.1 hc
  have nostr : ∀ {k s : List Nat}, StrLit D k s → ¬ Word k := by
    rintro k s ⟨u, cps, rfl, _⟩ hw
    exact (hw.chars _ (by simp)).2.2.1 rfl
  refine TVal.rec (D := D)
    (motive_1 := fun ts v _ => ∀ t ∈ ts, Word t → ∃ v', ∀ nx, After nx → Val D t nx v')
    (motive_2 := fun ts xs _ => ∀ t ∈ ts, Word t → ∃ v', ∀ nx, After nx → Val D t nx v')
    (motive_3 := fun ts ms _ => ∀ t ∈ ts, Word t → ∃ v', ∀ nx, After nx → Val D t nx v')
    ?_ ?_ ?_ ?_ ?_ ?_ ?_ ?_ ?_ ?_ ?_ h
  · intro t v _ hv u hu _
    simp at hu
    exact ⟨v, hu ▸ hv⟩
  · intro t s hs u hu hw
    simp at hu
    exact absurd (hu ▸ hw) (nostr hs)
  · intro ts xs _ ih u hu hw
    rcases List.mem_cons.mp hu with rfl | hu
    · exact absurd hw (nopunct (by simp [IsPunct]))
    · exact ih u hu hw
  · intro ts ms r _ _ ih u hu hw
    rcases List.mem_cons.mp hu with rfl | hu
    · exact absurd hw (nopunct (by simp [IsPunct]))
    · exact ih u hu hw
  · intro u hu hw
    simp at hu
    exact absurd (hu ▸ hw) (nopunct (by simp [IsPunct]))
  · intro ts v _ ih u hu hw
    rcases List.mem_append.mp hu with hu | hu
    · exact ih u hu hw
    · simp at hu
      exact absurd (hu ▸ hw) (nopunct (by simp [IsPunct]))
  · intro ts v us xs _ _ ih ih' u hu hw
    rcases List.mem_append.mp hu with hu | hu
    · exact ih u hu hw
    · rcases List.mem_cons.mp hu with rfl | hu
      · exact absurd hw (nopunct (by simp [IsPunct]))
      · exact ih' u hu hw
  · intro u hu hw
    simp at hu
    exact absurd (hu ▸ hw) (nopunct (by simp [IsPunct]))
  · intro k s hk u hu hw
    simp at hu
    rcases hu with rfl | rfl
    · exact absurd hw (nostr hk)
    · exact absurd hw (nopunct (by simp [IsPunct]))
  · intro k s ts v hk _ ih u hu hw
    simp at hu
    rcases hu with rfl | rfl | hu | rfl
    · exact absurd hw (nostr hk)
    · exact absurd hw (nopunct (by simp [IsPunct]))
    · exact ih u hu hw
    · exact absurd hw (nopunct (by simp [IsPunct]))
  · intro k s ts v us ms hk _ _ ih ih' u hu hw
    simp at hu
    rcases hu with rfl | rfl | hu | rfl | hu
    · exact absurd hw (nostr hk)
    · exact absurd hw (nopunct (by simp [IsPunct]))
    · exact ih u hu hw
    · exact absurd hw (nopunct (by simp [IsPunct]))
    · exact ih' u hu hw

/-- Signs are followed by digits. -/
def SignsOk (t : List Nat) : Prop :=
  ∀ a sg b, t = a ++ sg :: b → sg = 0x2B ∨ sg = 0x2D → ∃ d b', b = d :: b' ∧ Digit d

theorem SignsOk.right {a b : List Nat} (h : SignsOk (a ++ b)) : SignsOk b := by
  intro a' sg b' he hs
  exact h (a ++ a') sg b' (by rw [he, List.append_assoc]) hs

theorem digits_lt {w : Nat} {ds t : List Nat} (hd : ∀ d ∈ ds, IsDig w d) (ht : ∀ c ∈ t, c < 2 ^ w) (hs : ∀ c ∈ ds, c ∈ t) :
    ∀ d ∈ ds, Digit d := fun d h => (isDig_lt (ht d (hs d h))).1 (hd d h)

theorem expo_exact {w : Nat} {t : List Nat} {nx : Option Nat} {b : Bool} {e : Nat} (h : Expo w t nx b e)
    (hlt : ∀ c ∈ t, c < 2 ^ w) (hs : SignsOk t) :
    ∃ x s ds, t = x :: Option.toList s ++ ds ∧ (x = 0x65 ∨ x = 0x45) ∧ (∀ sg, s = some sg → sg = 0x2B ∨ sg = 0x2D) ∧
      ds ≠ [] ∧ ∀ d ∈ ds, Digit d := by
  cases h with
  | @plain x c ds _ hx hc h0 hds _ =>
    refine ⟨x, none, c :: ds, rfl, hx, by simp, by simp, ?_⟩
    refine digits_lt (w := w) ?_ hlt (by simp +contextual)
    intro d hd
    rcases List.mem_cons.mp hd with rfl | hd
    · exact hc
    · exact hds d hd
  | @signed x sg c ds _ hx hsg hds _ =>
    refine ⟨x, some sg, c :: ds, rfl, hx, by simp; exact hsg, by simp, ?_⟩
    obtain ⟨d, b', hb, hd⟩ := hs [x] sg (c :: ds) rfl hsg
    simp at hb
    obtain ⟨rfl, rfl⟩ := hb
    intro y hy
    rcases List.mem_cons.mp hy with rfl | hy
    · exact hd
    · exact (isDig_lt (hlt y (by simp [hy]))).1 (hds y hy)
  | @bare x sg hx hsg =>
    obtain ⟨d, b', hb, hd⟩ := hs [x] sg [] rfl hsg
    cases hb

/-- The text after the integer part is a fraction and an exponent. -/
theorem floatTail_exact {w : Nat} {fo : FloatOps F} {i : Nat} {t : List Nat} {nx : Option Nat} {f : F} (h : FloatTail w fo i t nx f)
    (hlt : ∀ c ∈ t, c < 2 ^ w) (hs : SignsOk t) :
    ∃ (fr : Option (List Nat)) (ex : Option (Nat × Option Nat × List Nat)), t = fracText fr ++ expText ex ∧
      (∀ ds, fr = some ds → ds ≠ [] ∧ ∀ d ∈ ds, Digit d) ∧
      (∀ e s ds, ex = some (e, s, ds) → (e = 0x65 ∨ e = 0x45) ∧ (∀ sg, s = some sg → sg = 0x2B ∨ sg = 0x2D) ∧
        ds ≠ [] ∧ ∀ d ∈ ds, Digit d) := by
  cases h with
  | @frac d ds _ h _ _ _ =>
    refine ⟨some (d :: ds), none, by simp [fracText, expText], ?_, by simp⟩
    intro ds' hds
    simp at hds
    subst hds
    exact ⟨by simp, digits_lt h hlt (by simp +contextual)⟩
  | @fracExp d ds x _ _ _ h hx =>
    obtain ⟨e, s, ds', h1, h2, h3, h4, h5⟩ := expo_exact hx (fun c hc => hlt c (by simp [hc])) hs.right
    refine ⟨some (d :: ds), some (e, s, ds'), by simp [fracText, expText, h1], ?_, ?_⟩
    · intro ds'' hds
      simp at hds
      subst hds
      refine ⟨by simp, digits_lt h hlt ?_⟩
      intro c hc
      simp at hc
      simp
      rcases hc with rfl | hc
      · exact Or.inr (Or.inl rfl)
      · exact Or.inr (Or.inr (Or.inl hc))
    · intro e' s' ds'' he
      simp at he
      obtain ⟨rfl, rfl, rfl⟩ := he
      exact ⟨h2, h3, h4, h5⟩
  | exp hx =>
    obtain ⟨e, s, ds', h1, h2, h3, h4, h5⟩ := expo_exact hx hlt hs
    refine ⟨none, some (e, s, ds'), by simp [fracText, expText, h1], by simp, ?_⟩
    intro e' s' ds'' he
    simp at he
    obtain ⟨rfl, rfl, rfl⟩ := he
    exact ⟨h2, h3, h4, h5⟩

theorem lit_text (n : Lit) : n.text = (if n.minus then [0x2D] else []) ++ (n.int ++ (fracText n.frac ++ expText n.exp)) := by
  unfold Lit.text fracText expText
  rcases n with ⟨m, i, _ | f, _ | ⟨e, s, ds⟩⟩ <;> simp

theorem numBody_exact {D : Dialect F} {b : Bool} {t : List Nat} {nx : Option Nat} {num : Num F} (h : NumBody D b t nx num)
    (hb : b = true → ∃ d u, t = d :: u ∧ Digit d) (hlt : ∀ c ∈ t, c < 2 ^ D.w) (hs : SignsOk t) (m : Bool) :
    ∃ n : Lit, n.Valid ∧ n.minus = m ∧ t = n.int ++ (fracText n.frac ++ expText n.exp) := by
  have first : ∀ {c u}, t = c :: u → FirstDig D b c → 0x31 ≤ c ∧ c ≤ 0x39 := by
    intro c u he hc
    have hd : Digit c := by
      rcases hc.2 with h | h
      · exact (isDig_lt (hlt c (by rw [he]; simp))).1 h
      · obtain ⟨d, u', hd, hdd⟩ := hb h.1
        rw [he] at hd
        simp at hd
        exact hd.1 ▸ hdd
    have := hc.1
    unfold Digit at hd
    omega
  cases h with
  | zero _ => exact ⟨⟨m, [0x30], none, none⟩, ⟨Or.inl rfl, by simp, by simp⟩, rfl, by simp [fracText, expText]⟩
  | @zeroFrac u _ _ hf =>
    obtain ⟨fr, ex, h1, h2, h3⟩ := floatTail_exact hf (fun c hc => hlt c (List.mem_cons_of_mem _ hc)) (SignsOk.right (a := [0x30]) hs)
    exact ⟨⟨m, [0x30], fr, ex⟩, ⟨Or.inl rfl, h2, h3⟩, rfl, by rw [h1]; rfl⟩
  | @int c ds _ hc hds _ _ _ =>
    have := first rfl hc
    refine ⟨⟨m, c :: ds, none, none⟩, ⟨Or.inr ⟨c, ds, rfl, this.1, this.2, ?_⟩, by simp, by simp⟩, rfl, by simp [fracText, expText]⟩
    exact digits_lt hds hlt (by simp +contextual)
  | @flt c ds u _ f hc hds _ hf =>
    have := first (u := ds ++ u) rfl hc
    obtain ⟨fr, ex, h1, h2, h3⟩ := floatTail_exact hf (fun c hc => hlt c (List.mem_append_right _ hc)) hs.right
    refine ⟨⟨m, c :: ds, fr, ex⟩, ⟨Or.inr ⟨c, ds, rfl, this.1, this.2, ?_⟩, h2, h3⟩, rfl, by rw [h1]⟩
    exact digits_lt hds hlt (by simp +contextual)
  | bareSign h _ =>
    obtain ⟨d, u, hd, _⟩ := hb h
    cases hd

/-- A number whose characters fit the source type and whose signs are followed by digits is a
number of the RFC, possibly with a plus sign. -/
theorem number_exact {D : Dialect F} {t : List Nat} {nx : Option Nat} {v : Value F} (h : Number D t nx v)
    (hlt : ∀ c ∈ t, c < 2 ^ D.w) (hs : SignsOk t) :
    ∃ n : Lit, n.Valid ∧ (t = n.text ∨ n.minus = false ∧ t = 0x2B :: n.text) := by
  cases h with
  | @plain c u _ _ h1 h2 h =>
    obtain ⟨n, hn, hm, he⟩ := numBody_exact h (by simp) hlt hs false
    exact ⟨n, hn, Or.inl (by rw [he, lit_text, hm]; rfl)⟩
  | @signed sg u _ _ hsg h =>
    have hd : ∃ d u', u = d :: u' ∧ Digit d := hs [] sg u rfl hsg
    obtain ⟨n, hn, hm, he⟩ := numBody_exact h (fun _ => hd) (fun c hc => hlt c (by simp [hc])) (SignsOk.right (a := [sg]) hs) (sg == 0x2D)
    refine ⟨n, hn, ?_⟩
    rw [lit_text, hm]
    rcases hsg with rfl | rfl
    · exact Or.inr ⟨rfl, by rw [he]; rfl⟩
    · exact Or.inl (by rw [he]; rfl)

theorem keyword_exact {w : Nat} {k t : List Nat} (h : Keyword w k t) (hlt : ∀ c ∈ t, c < 2 ^ w) : t = k := by
  rw [← h.2]
  clear h
  induction t with
  | nil => rfl
  | cons c t ih =>
    rw [List.map_cons, Nat.mod_eq_of_lt (hlt c (by simp)), ← ih fun c hc => hlt c (by simp [hc])]

theorem word_val {D : Dialect F} {t : List Nat} {nx : Option Nat} {v : Value F} (hw : Word t) (h : Val D t nx v) :
    Number D t nx v ∨ Keyword D.w kTrue t ∨ Keyword D.w kFalse t ∨ Keyword D.w kNull t := by
  cases h with
  | vtrue h => exact Or.inr (Or.inl h)
  | vfalse h => exact Or.inr (Or.inr (Or.inl h))
  | vnull h => exact Or.inr (Or.inr (Or.inr h))
  | num h => exact Or.inl h
  | str h =>
    obtain ⟨u, cps, rfl, _⟩ := h
    exact absurd rfl (hw.chars _ (by simp)).2.2.1
  | arr h => exact absurd (by simp [IsPunct]) (hw.chars 0x5B (by simp)).2.2.2.1
  | obj h _ => exact absurd (by simp [IsPunct]) (hw.chars 0x7B (by simp)).2.2.2.1

theorem after_none : After none := fun c hc => by cases hc

theorem layout_mem {toks : List (List Nat)} {l : List Nat} (h : Layout toks l) {t : List Nat} (ht : t ∈ toks) : ∀ x ∈ t, x ∈ l := by
  induction h with
  | nil _ => cases ht
  | cons _ _ _ _ ih =>
    intro x hx
    rcases List.mem_cons.mp ht with rfl | ht
    · simp [hx]
    · have := ih ht x hx
      simp [this]

theorem layout_tok {toks : List (List Nat)} {l : List Nat} (h : Layout toks l) {t : List Nat} (ht : t ∈ toks) : Tok t := by
  induction h with
  | nil _ => cases ht
  | cons _ h _ _ ih =>
    rcases List.mem_cons.mp ht with rfl | ht
    · exact h
    · exact ih ht

theorem layout_numberLike {toks : List (List Nat)} {l : List Nat} (h : Layout toks l) {c : Nat} {u : List Nat} (ht : c :: u ∈ toks)
    (hc : Digit c ∨ c = 0x2B ∨ c = 0x2D) : Word (c :: u) := by
  unfold Digit at hc
  have ht := layout_tok h ht
  generalize he : c :: u = t at ht
  cases ht with
  | punct h => simp at he; unfold IsPunct at h; omega
  | str _ => simp at he; omega
  | word h => exact h

theorem plain_body {b : List Nat} (h : ∀ a r, b = a ++ 0x2A :: r → ∃ d r', r = d :: r' ∧ d ≠ 0x2A ∧ d ≠ 0x2F) :
    BlockBody (b ++ [0x2A, 0x2F]) := by
  suffices ∀ n, ∀ b : List Nat, b.length ≤ n → (∀ a r, b = a ++ 0x2A :: r → ∃ d r', r = d :: r' ∧ d ≠ 0x2A ∧ d ≠ 0x2F) →
      BlockBody (b ++ [0x2A, 0x2F]) from this _ b (Nat.le_refl _) h
  intro n
  induction n with
  | zero =>
    intro b hb _
    cases b with
    | nil => exact .close
    | cons c b => simp at hb
  | succ n ih =>
    intro b hb h
    cases b with
    | nil => exact .close
    | cons c b =>
      simp at hb
      by_cases hc : c = 0x2A
      · subst hc
        obtain ⟨d, r', rfl, hd, hd'⟩ := h [] b rfl
        simp at hb
        refine .star hd' (ih r' (by omega) ?_)
        intro a r he
        exact h (0x2A :: d :: a) r (by rw [he]; rfl)
      · refine .other hc (ih b hb ?_)
        intro a r he
        exact h (c :: a) r (by rw [he]; rfl)

theorem map_some_prefix {t : List Nat} : ∀ {t' : List Nat} {a : List (Option Nat)}, t.map some ++ a = t'.map some → t <+: t' := by
  induction t with
  | nil => intro t' a _; exact List.nil_prefix
  | cons c t ih =>
    intro t' a h
    cases t' with
    | nil => simp at h
    | cons d t' =>
      simp at h
      rw [h.1]
      exact List.cons_prefix_cons.mpr ⟨rfl, ih h.2⟩

theorem document_comment {D : Dialect F} (hw : 8 ≤ D.w) {t : List Nat} (ht : BlockBody t) (l : List Nat) (v : Value F) :
    Document D ((0x2F :: 0x2A :: t ++ l).map some) v ↔ Document D (l.map some) v := by
  constructor
  · intro h
    obtain ⟨g, u, e, more, he, hg, hv, hf⟩ := h
    have hn := val_noGap hw hv []
    have hne := val_ne_nil hv
    cases hg with
    | nil =>
      cases u with
      | nil => exact absurd rfl hne
      | cons x u =>
        simp at he
        exact absurd he.1.symm (hn x (by simp)).2
    | blank hc _ => simp at he; exact absurd (he.1 ▸ hc) slash_not_blank
    | line _ _ _ => simp at he
    | @block t' g' ht' hg' =>
      have he' : t.map some ++ l.map some = t'.map some ++ ((g' ++ u ++ e).map some ++ more) := by
        simp at he
        simpa using he
      rcases List.append_eq_append_iff.mp he' with ⟨a, h1, h2⟩ | ⟨a, h1, h2⟩
      · have hpre : t <+: t' := map_some_prefix h1.symm
        obtain ⟨x, rfl⟩ := hpre
        have := (blockBody_unique ht (x := x) (x' := []) ht' (by simp)).2
        subst this
        simp at h1
        subst h1
        exact ⟨g', u, e, more, by simpa using h2, hg', hv, hf⟩
      · have hpre : t' <+: t := map_some_prefix h1.symm
        obtain ⟨x, rfl⟩ := hpre
        have := (blockBody_unique ht' (x := x) (x' := []) ht (by simp)).2
        subst this
        simp at h1
        subst h1
        exact ⟨g', u, e, more, by simpa using h2.symm, hg', hv, hf⟩
  · rintro ⟨g, u, e, more, he, hg, hv, hf⟩
    exact ⟨0x2F :: 0x2A :: t ++ g, u, e, more, by simp [he], .block ht hg, hv, hf⟩

end Configor
