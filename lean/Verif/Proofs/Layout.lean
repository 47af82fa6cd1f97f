import Verif.Proofs.Rfc
import Verif.Spec.Layout
/-! The grammar in terms of tokens. -/
namespace Configor
open Spec Spec.Rfc

variable {F : Type}

/-- The text starts neither with a blank nor with a comment. -/
def NoGap (r : List Nat) : Prop := ∀ c, r.head? = some c → ¬ IsBlank c ∧ c ≠ 0x2F

theorem NoGap.cons {c : Nat} {r : List Nat} (h : ¬ IsBlank c ∧ c ≠ 0x2F) : NoGap (c :: r) := by
  intro d hd
  simp at hd
  subst hd; exact h

theorem blockBody_unique {t : List Nat} (h : BlockBody t) :
    ∀ {t' x x' : List Nat}, BlockBody t' → t ++ x = t' ++ x' → t = t' ∧ x = x' := by
  induction h with
  | close =>
    intro t' x x' h' he
    cases h' with
    | close => exact ⟨rfl, List.append_cancel_left he⟩
    | other hc _ => simp at he; omega
    | star hc _ => simp at he; omega
  | other hc _ ih =>
    intro t' x x' h' he
    cases h' with
    | close => simp at he; omega
    | other hc' h' =>
      simp at he
      obtain ⟨h1, h2⟩ := ih h' he.2
      exact ⟨by rw [he.1, h1], h2⟩
    | star hc' h' => simp at he; omega
  | star hc _ ih =>
    intro t' x x' h' he
    cases h' with
    | close => simp at he; omega
    | other hc' h' => simp at he; omega
    | star hc' h' =>
      simp at he
      obtain ⟨h1, h2⟩ := ih h' he.2
      exact ⟨by rw [he.1, h1], h2⟩

theorem line_unique {t : List Nat} (h : Line t) {nl : Nat} (hn : nl = 0x0A ∨ nl = 0x0D) :
    ∀ {t' : List Nat} {nl' : Nat} {x x' : List Nat}, Line t' → nl' = 0x0A ∨ nl' = 0x0D → t ++ nl :: x = t' ++ nl' :: x' →
      t = t' ∧ nl = nl' ∧ x = x' := by
  induction t with
  | nil =>
    intro t' nl' x x' h' hn' he
    cases t' with
    | nil => simp at he; exact ⟨rfl, he⟩
    | cons c t' =>
      have := h' c (by simp)
      simp at he; omega
  | cons d t ih =>
    intro t' nl' x x' h' hn' he
    cases t' with
    | nil =>
      have := h d (by simp)
      simp at he; omega
    | cons c t' =>
      simp at he
      obtain ⟨h1, h2⟩ := ih (fun c hc => h c (by simp [hc])) (fun c hc => h' c (by simp [hc])) hn' he.2
      exact ⟨by rw [he.1, h1], h2⟩

theorem slash_not_blank : ¬ IsBlank 0x2F := by unfold IsBlank; omega

theorem gap_unique {g : List Nat} (h : Gap g) :
    ∀ {g' r r' : List Nat}, Gap g' → g ++ r = g' ++ r' → NoGap r → NoGap r' → g = g' ∧ r = r' := by
  induction h with
  | nil =>
    intro g' r r' h' he hr hr'
    cases h' with
    | nil => exact ⟨rfl, he⟩
    | blank hc _ => rw [List.nil_append] at he; subst he; exact absurd hc (hr _ rfl).1
    | line _ _ _ => rw [List.nil_append] at he; subst he; exact absurd rfl (hr _ rfl).2
    | block _ _ => rw [List.nil_append] at he; subst he; exact absurd rfl (hr _ rfl).2
  | blank hc _ ih =>
    intro g' r r' h' he hr hr'
    cases h' with
    | nil => rw [List.nil_append] at he; subst he; exact absurd hc (hr' _ rfl).1
    | blank hc' h' =>
      simp at he
      obtain ⟨h1, h2⟩ := ih h' he.2 hr hr'
      exact ⟨by rw [he.1, h1], h2⟩
    | line _ _ _ => simp at he; exact absurd (he.1 ▸ hc) slash_not_blank
    | block _ _ => simp at he; exact absurd (he.1 ▸ hc) slash_not_blank
  | line ht hn _ ih =>
    intro g' r r' h' he hr hr'
    cases h' with
    | nil => rw [List.nil_append] at he; subst he; exact absurd rfl (hr' _ rfl).2
    | blank hc' h' => simp at he; exact absurd (he.1 ▸ hc') slash_not_blank
    | line ht' hn' h' =>
      simp only [List.cons_append, List.append_assoc, List.cons.injEq, true_and] at he
      obtain ⟨h1, h2, h3⟩ := line_unique ht hn ht' hn' he
      obtain ⟨h4, h5⟩ := ih h' h3 hr hr'
      exact ⟨by rw [h1, h2, h4], h5⟩
    | block _ _ => simp at he
  | block ht _ ih =>
    intro g' r r' h' he hr hr'
    cases h' with
    | nil => rw [List.nil_append] at he; subst he; exact absurd rfl (hr' _ rfl).2
    | blank hc' h' => simp at he; exact absurd (he.1 ▸ hc') slash_not_blank
    | line ht' hn' h' => simp at he
    | block ht' h' =>
      simp only [List.cons_append, List.append_assoc, List.cons.injEq, true_and] at he
      obtain ⟨h1, h3⟩ := blockBody_unique ht ht' he
      obtain ⟨h4, h5⟩ := ih h' h3 hr hr'
      exact ⟨by rw [h1, h4], h5⟩

theorem gap_append {g g' : List Nat} (h : Gap g) (h' : Gap g') : Gap (g ++ g') := by
  induction h with
  | nil => exact h'
  | blank hc _ ih => exact .blank hc ih
  | line ht hn _ ih =>
    have := Gap.line ht hn ih
    simpa using this
  | block ht _ ih =>
    have := Gap.block ht ih
    simpa using this

/-- A gap followed by an unfinished comment is not a gap followed by something else. -/
theorem gap_openLine {g : List Nat} (h : Gap g) {t : List Nat} (ht : Line t) :
    ∀ {g' r' : List Nat}, Gap g' → g' ++ r' = g ++ 0x2F :: 0x2F :: t → NoGap r' → False := by
  induction h with
  | nil =>
    intro g' r' h' he hr'
    cases h' with
    | nil => rw [List.nil_append] at he; subst he; exact absurd rfl (hr' _ rfl).2
    | blank hc _ => simp at he; exact absurd (he.1 ▸ hc) slash_not_blank
    | line ht' hn' h' =>
      simp only [List.cons_append, List.append_assoc, List.cons.injEq, true_and, List.nil_append] at he
      have := ht _ (he ▸ List.mem_append_right _ (List.mem_cons_self ..))
      omega
    | block _ _ => simp at he
  | blank hc _ ih =>
    intro g' r' h' he hr'
    cases h' with
    | nil => rw [List.nil_append] at he; subst he; exact absurd hc (hr' _ rfl).1
    | blank hc' h' => simp at he; exact ih h' he.2 hr'
    | line _ _ _ => simp at he; exact absurd (he.1 ▸ hc) slash_not_blank
    | block _ _ => simp at he; exact absurd (he.1 ▸ hc) slash_not_blank
  | line ht1 hn _ ih =>
    intro g' r' h' he hr'
    cases h' with
    | nil => rw [List.nil_append] at he; subst he; exact absurd rfl (hr' _ rfl).2
    | blank hc' h' => simp at he; exact absurd (he.1 ▸ hc') slash_not_blank
    | line ht' hn' h' =>
      simp only [List.cons_append, List.append_assoc, List.cons.injEq, true_and] at he
      obtain ⟨h1, h2, h3⟩ := line_unique ht' hn' ht1 hn he
      exact ih h' h3 hr'
    | block _ _ => simp at he
  | block ht1 _ ih =>
    intro g' r' h' he hr'
    cases h' with
    | nil => rw [List.nil_append] at he; subst he; exact absurd rfl (hr' _ rfl).2
    | blank hc' h' => simp at he; exact absurd (he.1 ▸ hc') slash_not_blank
    | line ht' hn' h' => simp at he
    | block ht' h' =>
      simp only [List.cons_append, List.append_assoc, List.cons.injEq, true_and] at he
      obtain ⟨h1, h3⟩ := blockBody_unique ht' ht1 he
      exact ih h' h3 hr'

theorem trail_gap {g r : List Nat} (hg : Gap g) (hr : NoGap r) (h : Trail (g ++ r)) : r = [] := by
  rcases h with h | ⟨g', t, he, hg', ht⟩
  · have := gap_unique hg (r := r) (r' := []) h (by simp) hr (fun c hc => by cases hc)
    exact this.2
  · exact (gap_openLine hg' ht hg he hr).elim

theorem wordChar_noGap {c : Nat} (h : WordChar c) : ¬ IsBlank c ∧ c ≠ 0x2F := ⟨h.1, h.2.1⟩

theorem punct_noGap {c : Nat} (h : IsPunct c) : ¬ IsBlank c ∧ c ≠ 0x2F := by
  unfold IsPunct at h; unfold IsBlank; omega

theorem tok_ne {t : List Nat} (h : Tok t) : t ≠ [] := by
  cases h with
  | punct => simp
  | str => simp
  | word h => exact h.ne

theorem tok_noGap {t : List Nat} (h : Tok t) (r : List Nat) : NoGap (t ++ r) := by
  cases h with
  | punct h => exact .cons (punct_noGap h)
  | str => exact .cons (by unfold IsBlank; omega)
  | word h =>
    have hne := h.ne
    cases t with
    | nil => exact absurd rfl hne
    | cons c t => exact .cons (wordChar_noGap (h.chars c (by simp)))

theorem layout_gap {g r : List Nat} {toks : List (List Nat)} (hg : Gap g) (hr : NoGap r) (h : Layout toks (g ++ r)) :
    Layout toks r := by
  generalize hl : g ++ r = l at h
  cases h with
  | nil h =>
    subst hl
    have := trail_gap hg hr h
    subst this
    exact .nil (Or.inl .nil)
  | cons hg' ht h hw =>
    rw [List.append_assoc] at hl
    obtain ⟨_, h2⟩ := gap_unique hg hg' hl hr (tok_noGap ht _)
    subst h2
    exact .cons .nil ht h hw

/-- The first token of a text that starts with one. -/
theorem layout_first {c : Nat} {l : List Nat} {toks : List (List Nat)} (hc : ¬ IsBlank c ∧ c ≠ 0x2F) (h : Layout toks (c :: l)) :
    ∃ t toks' l', toks = t :: toks' ∧ c :: l = t ++ l' ∧ Tok t ∧ Layout toks' l' ∧ (Word t → NoWord l') := by
  generalize hl0 : c :: l = l0 at h
  have hl : c :: l = l0 := hl0
  clear hl0
  cases h with
  | nil h =>
    subst hl
    have := trail_gap .nil (NoGap.cons hc) h
    cases this
  | @cons g t toks l' hg ht h hw =>
    rw [List.append_assoc] at hl
    obtain ⟨h1, h2⟩ := gap_unique (r := c :: l) .nil hg hl (NoGap.cons hc) (tok_noGap ht _)
    subst h1
    exact ⟨t, toks, l', rfl, rfl, ht, h, hw⟩

theorem layout_punct {c : Nat} {l : List Nat} {toks : List (List Nat)} (hc : IsPunct c) (h : Layout toks (c :: l)) :
    ∃ toks', toks = [c] :: toks' ∧ Layout toks' l := by
  obtain ⟨t, toks', l', rfl, he, ht, h, _⟩ := layout_first (punct_noGap hc) h
  cases ht with
  | punct _ => simp at he; obtain ⟨rfl, rfl⟩ := he; exact ⟨_, rfl, h⟩
  | str _ => simp at he; unfold IsPunct at hc; omega
  | word hw =>
    have hne := hw.ne
    cases t with
    | nil => exact absurd rfl hne
    | cons d t =>
      simp at he
      exact absurd (he.1 ▸ hc) (hw.chars d (by simp)).2.2.2.1

theorem hex4_shape {h : List Nat} {u : Nat} (hx : Hex4 h u) : ∃ a b c d, h = [a, b, c, d] := by
  cases hx with
  | mk => exact ⟨_, _, _, _, rfl⟩

theorem simpleEscape_u : simpleEscape 0x75 = none := by decide

theorem hex4_unique {h h' : List Nat} {u u' : Nat} (hx : Hex4 h u) (hx' : Hex4 h' u') {x x' : List Nat} (he : h ++ x = h' ++ x') :
    h = h' ∧ u = u' ∧ x = x' := by
  cases hx with
  | mk h1 h2 h3 h4 =>
    cases hx' with
    | mk h1' h2' h3' h4' =>
      simp at he
      obtain ⟨rfl, rfl, rfl, rfl, rfl⟩ := he
      rw [h1] at h1'; rw [h2] at h2'; rw [h3] at h3'; rw [h4] at h4'
      simp at h1' h2' h3' h4'
      subst h1' h2' h3' h4'
      exact ⟨rfl, rfl, rfl⟩

theorem strChars_unique {u cps : List Nat} (h : StrChars u cps) :
    ∀ {u' cps' x x' : List Nat}, StrChars u' cps' → u ++ x = u' ++ x' → u = u' ∧ cps = cps' ∧ x = x' := by
  induction h with
  | close =>
    intro u' cps' x x' h' he
    cases h' with
    | close => simp at he; exact ⟨rfl, rfl, he⟩
    | raw h1 h2 h3 _ => simp at he; omega
    | esc _ _ => simp at he
    | uni _ _ _ => simp at he
    | pair _ _ _ _ _ => simp at he
  | raw h1 h2 h3 _ ih =>
    intro u' cps' x x' h' he
    cases h' with
    | close => simp at he; omega
    | raw _ _ _ h' =>
      simp at he
      obtain ⟨h4, h5, h6⟩ := ih h' he.2
      exact ⟨by rw [he.1, h4], by rw [he.1, h5], h6⟩
    | esc _ _ => simp at he; omega
    | uni _ _ _ => simp at he; omega
    | pair _ _ _ _ _ => simp at he; omega
  | esc h1 _ ih =>
    intro u' cps' x x' h' he
    cases h' with
    | close => simp at he
    | raw _ _ _ h' => simp at he; omega
    | esc h1' h' =>
      simp at he
      obtain ⟨h4, h5, h6⟩ := ih h' he.2
      rw [he.1] at h1
      rw [h1] at h1'
      simp at h1'
      exact ⟨by rw [he.1, h4], by rw [h1', h5], h6⟩
    | uni _ _ _ => simp at he; rw [he.1, simpleEscape_u] at h1; cases h1
    | pair _ _ _ _ _ => simp at he; rw [he.1, simpleEscape_u] at h1; cases h1
  | uni h1 h2 _ ih =>
    intro u' cps' x x' h' he
    cases h' with
    | close => simp at he
    | raw _ _ _ h' => simp at he; omega
    | esc h1' h' => simp at he; rw [← he.1, simpleEscape_u] at h1'; cases h1'
    | uni h1' h2' h' =>
      simp only [List.cons_append, List.append_assoc, List.cons.injEq, true_and] at he
      obtain ⟨h3, h4, h5⟩ := hex4_unique h1 h1' he
      obtain ⟨h6, h7, h8⟩ := ih h' h5
      exact ⟨by rw [h3, h6], by rw [h4, h7], h8⟩
    | pair h1' h2' _ _ _ =>
      simp only [List.cons_append, List.append_assoc, List.cons.injEq, true_and] at he
      obtain ⟨h3, h4, h5⟩ := hex4_unique h1 h1' he
      exact absurd (h4 ▸ h2') h2
  | pair h1 h2 h3 h4 _ ih =>
    intro u' cps' x x' h' he
    cases h' with
    | close => simp at he
    | raw _ _ _ h' => simp at he; omega
    | esc h1' h' => simp at he; rw [← he.1, simpleEscape_u] at h1'; cases h1'
    | uni h1' h2' h' =>
      simp only [List.cons_append, List.append_assoc, List.cons.injEq, true_and] at he
      obtain ⟨h5, h6, h7⟩ := hex4_unique h1 h1' he
      exact absurd (h6 ▸ h2) h2'
    | pair h1' h2' h3' h4' h' =>
      simp only [List.cons_append, List.append_assoc, List.cons.injEq, true_and] at he
      obtain ⟨h5, h6, h7⟩ := hex4_unique h1 h1' he
      simp only [List.cons.injEq, true_and] at h7
      obtain ⟨h8, h9, h10⟩ := hex4_unique h3 h3' h7
      obtain ⟨h11, h12, h13⟩ := ih h' h10
      exact ⟨by rw [h5, h8, h11], by rw [h6, h9, h12], h13⟩

theorem layout_str {D : Dialect F} {t s l : List Nat} {toks : List (List Nat)} (hs : StrLit D t s) (h : Layout toks (t ++ l)) :
    ∃ toks', toks = t :: toks' ∧ Layout toks' l := by
  obtain ⟨u, cps, rfl, hu, _⟩ := hs
  obtain ⟨t, toks', l', rfl, he, ht, h, _⟩ := layout_first (c := 0x22) (by unfold IsBlank; omega) h
  cases ht with
  | punct hc => simp at he; unfold IsPunct at hc; omega
  | str hu' =>
    simp at he
    obtain ⟨h1, _, h2⟩ := strChars_unique hu hu' he
    subst h1 h2
    exact ⟨_, rfl, h⟩
  | word hw =>
    have hne := hw.ne
    cases t with
    | nil => exact absurd rfl hne
    | cons d t =>
      simp at he
      exact absurd he.1.symm (hw.chars d (by simp)).2.2.1

/-- Every character is a word character or stands behind a sign. -/
def Wordy (t : List Nat) : Prop := ∀ a c b, t = a ++ c :: b → WordChar c ∨ a.getLast? = some 0x2B ∨ a.getLast? = some 0x2D

theorem Wordy.of {t : List Nat} (h : ∀ c ∈ t, WordChar c) : Wordy t := by
  intro a c b he
  exact Or.inl (h c (by rw [he]; simp))

theorem Wordy.cons {t : List Nat} {c : Nat} (hc : WordChar c) (h : Wordy t) (h' : ∀ d u, t = d :: u → WordChar d) : Wordy (c :: t) := by
  intro a d b he
  cases a with
  | nil => simp at he; exact Or.inl (he.1 ▸ hc)
  | cons x a =>
    simp at he
    cases a with
    | nil => exact Or.inl (h' d b (by simpa using he.2))
    | cons y a =>
      rcases h _ d b he.2 with h | h
      · exact Or.inl h
      · right; simpa using h

theorem Wordy.sign {t : List Nat} {c : Nat} (hc : c = 0x2B ∨ c = 0x2D) (h : Wordy t) : Wordy (c :: t) := by
  intro a d b he
  cases a with
  | nil =>
    simp at he
    left; rw [← he.1]
    unfold WordChar IsBlank IsPunct
    omega
  | cons x a =>
    simp at he
    cases a with
    | nil =>
      right
      simp
      omega
    | cons y a =>
      rcases h _ d b he.2 with h | h
      · exact Or.inl h
      · right; simpa using h

theorem Wordy.append {a b : List Nat} (ha : ∀ c ∈ a, WordChar c) (hb : Wordy b) (h' : ∀ d u, b = d :: u → WordChar d) : Wordy (a ++ b) := by
  induction a with
  | nil => exact hb
  | cons c a ih =>
    refine .cons (ha c (by simp)) (ih fun c hc => ha c (by simp [hc])) ?_
    intro d u he
    cases a with
    | nil => exact h' d u he
    | cons x a => simp at he; exact he.1 ▸ ha x (by simp)

theorem isDig_word {w c : Nat} (hw : 8 ≤ w) (h : IsDig w c) : WordChar c := by
  have hs : c < 256 → 0x30 ≤ c ∧ c ≤ 0x39 := by
    intro hc
    exact (isDig_small hw hc).1 h
  unfold WordChar IsBlank IsPunct
  omega

/-- The first character may be anything, the others are word characters. -/
theorem Wordy.any {c : Nat} {ds : List Nat} (sg : Nat) (hs : sg = 0x2B ∨ sg = 0x2D) (h : ∀ d ∈ ds, WordChar d) : Wordy (sg :: c :: ds) := by
  intro a d b he
  have hsg : WordChar sg := by unfold WordChar IsBlank IsPunct; omega
  rcases a with _ | ⟨x, _ | ⟨y, a⟩⟩
  · simp at he; exact Or.inl (he.1 ▸ hsg)
  · simp at he; right; simp; omega
  · simp at he; exact Or.inl (h d (by rw [he.2.2]; simp))

theorem expo_wordy {w : Nat} (hw : 8 ≤ w) {t : List Nat} {nx : Option Nat} {b : Bool} {e : Nat} (h : Expo w t nx b e) :
    Wordy t ∧ ∀ d u, t = d :: u → WordChar d := by
  cases h with
  | @plain e c ds _ he hc _ hds _ =>
    have hce : WordChar e := by unfold WordChar IsBlank IsPunct; omega
    refine ⟨.of ?_, fun d u hd => by simp at hd; exact hd.1 ▸ hce⟩
    intro x hx
    simp at hx
    rcases hx with rfl | rfl | hx
    · exact hce
    · exact isDig_word hw hc
    · exact isDig_word hw (hds x hx)
  | @signed e sg c ds _ he hsg hds _ =>
    have hce : WordChar e := by unfold WordChar IsBlank IsPunct; omega
    have hcs : WordChar sg := by unfold WordChar IsBlank IsPunct; omega
    exact ⟨.cons hce (.any sg hsg fun d hd => isDig_word hw (hds d hd)) (fun d u hd => by simp at hd; exact hd.1 ▸ hcs),
      fun d u hd => by simp at hd; exact hd.1 ▸ hce⟩
  | @bare e sg he hsg =>
    have hce : WordChar e := by unfold WordChar IsBlank IsPunct; omega
    have hcs : WordChar sg := by unfold WordChar IsBlank IsPunct; omega
    refine ⟨.of ?_, fun d u hd => by simp at hd; exact hd.1 ▸ hce⟩
    intro x hx
    simp at hx
    rcases hx with rfl | rfl
    · exact hce
    · exact hcs

theorem dot_word : WordChar 0x2E := by unfold WordChar IsBlank IsPunct; omega

theorem floatTail_wordy {w : Nat} (hw : 8 ≤ w) {fo : FloatOps F} {i : Nat} {t : List Nat} {nx : Option Nat} {f : F} (h : FloatTail w fo i t nx f) :
    Wordy t ∧ ∀ d u, t = d :: u → WordChar d := by
  cases h with
  | @frac d ds _ h _ _ _ =>
    refine ⟨.of ?_, fun d u hd => by simp at hd; exact hd.1 ▸ dot_word⟩
    intro x hx
    rcases List.mem_cons.mp hx with rfl | hx
    · exact dot_word
    · exact isDig_word hw (h x hx)
  | @fracExp d ds x _ _ _ h hx =>
    refine ⟨.append ?_ (expo_wordy hw hx).1 (expo_wordy hw hx).2, fun d u hd => by simp at hd; exact hd.1 ▸ dot_word⟩
    intro x hx
    rcases List.mem_cons.mp hx with rfl | hx
    · exact dot_word
    · exact isDig_word hw (h x hx)
  | exp hx => exact expo_wordy hw hx

/-- A number after its sign: only its first character may be no word character. -/
theorem numBody_wordy {D : Dialect F} (hw : 8 ≤ D.w) {sg : Nat} (hs : sg = 0x2B ∨ sg = 0x2D) {b : Bool} {t : List Nat} {nx : Option Nat} {n : Num F}
    (h : NumBody D b t nx n) : Wordy (sg :: t) ∧ (b = false → Wordy t) := by
  have h0 : WordChar 0x30 := by unfold WordChar IsBlank IsPunct; omega
  have hcs : WordChar sg := by unfold WordChar IsBlank IsPunct; omega
  cases h with
  | zero _ =>
    have : Wordy [0x30] := .of (by intro x hx; simp at hx; exact hx ▸ h0)
    exact ⟨.sign hs this, fun _ => this⟩
  | zeroFrac hf =>
    have : Wordy (0x30 :: 0x2E :: _) := .cons h0 (floatTail_wordy hw hf).1 (floatTail_wordy hw hf).2
    exact ⟨.sign hs this, fun _ => this⟩
  | @int c ds _ hc hds _ _ _ =>
    refine ⟨.any sg hs fun d hd => isDig_word hw (hds d hd), ?_⟩
    rintro rfl
    refine .of ?_
    intro x hx
    rcases List.mem_cons.mp hx with rfl | hx
    · rcases hc.2 with h | h
      · exact isDig_word hw h
      · cases h.1
    · exact isDig_word hw (hds x hx)
  | @flt c ds u _ f hc hds _ hf =>
    have hft := floatTail_wordy hw hf
    constructor
    · have h1 : Wordy (ds ++ u) := .append (fun d hd => isDig_word hw (hds d hd)) hft.1 hft.2
      intro a d b he
      rcases a with _ | ⟨x, _ | ⟨y, a⟩⟩
      · simp at he; exact Or.inl (he.1 ▸ hcs)
      · simp at he; right; simp; omega
      · simp at he
        rcases h1 a d b he.2.2 with h | h
        · exact Or.inl h
        · cases a with
          | nil => simp at h
          | cons z a => right; simpa using h
    · rintro rfl
      refine .append ?_ hft.1 hft.2
      intro x hx
      rcases List.mem_cons.mp hx with rfl | hx
      · rcases hc.2 with h | h
        · exact isDig_word hw h
        · cases h.1
      · exact isDig_word hw (hds x hx)
  | bareSign _ _ =>
    refine ⟨.of ?_, fun _ => .of (by simp)⟩
    intro x hx
    simp at hx
    exact hx ▸ hcs

theorem number_wordy {D : Dialect F} (hw : 8 ≤ D.w) {t : List Nat} {nx : Option Nat} {v : Value F} (h : Number D t nx v) :
    Wordy t ∧ ∃ c u, t = c :: u ∧ WordChar c := by
  cases h with
  | @plain c u _ _ h1 h2 h =>
    exact ⟨(numBody_wordy hw (Or.inl rfl) h).2 rfl, c, u, rfl, by unfold WordChar IsBlank IsPunct; omega⟩
  | @signed sg u _ _ hs h =>
    exact ⟨(numBody_wordy hw hs h).1, sg, u, rfl, by unfold WordChar IsBlank IsPunct; omega⟩

theorem keyword_wordy {w : Nat} (hw : 8 ≤ w) {k t : List Nat} (hk : k = kTrue ∨ k = kFalse ∨ k = kNull) (h : Keyword w k t) :
    Wordy t ∧ ∃ c u, t = c :: u ∧ WordChar c := by
  have hall : ∀ c ∈ t, WordChar c := by
    intro c hc
    have : c % 2 ^ w ∈ k := h.2 ▸ List.mem_map_of_mem hc
    have hs : c < 256 → c ∈ k := fun hc => small_mod hw hc ▸ this
    have hk' : c ∈ k → 0x61 ≤ c ∧ c ≤ 0x7A := by
      rcases hk with rfl | rfl | rfl <;> (simp [kTrue, kFalse, kNull]; omega)
    have : c < 256 → 0x61 ≤ c ∧ c ≤ 0x7A := fun hc => hk' (hs hc)
    unfold WordChar IsBlank IsPunct
    omega
  refine ⟨.of hall, ?_⟩
  cases t with
  | nil =>
    have := h.2
    rcases hk with rfl | rfl | rfl <;> simp [kTrue, kFalse, kNull] at this
  | cons c u => exact ⟨c, u, rfl, hall c (by simp)⟩

/-- A wordy text that is followed by no word character is one word of the layout. -/
theorem layout_word {t l : List Nat} {toks : List (List Nat)} (ht : Wordy t) (hc : ∃ c u, t = c :: u ∧ WordChar c) (hl : NoWord l)
    (h : Layout toks (t ++ l)) : ∃ toks', toks = t :: toks' ∧ Layout toks' l ∧ Word t := by
  obtain ⟨c, u, rfl, hc⟩ := hc
  obtain ⟨w, toks', l', rfl, he, hw, h, hn⟩ := layout_first (wordChar_noGap hc) h
  have hword : Word w := by
    cases hw with
    | punct hp => simp at he; exact absurd (he.1 ▸ hp) hc.2.2.2.1
    | str => simp at he; exact absurd he.1 hc.2.2.1
    | word h => exact h
  have hn := hn hword
  replace he : (c :: u) ++ l = w ++ l' := he
  suffices c :: u = w ∧ l = l' by
    obtain ⟨rfl, rfl⟩ := this
    exact ⟨_, rfl, h, hword⟩
  rcases List.append_eq_append_iff.mp he with ⟨a, h1, h2⟩ | ⟨a, h1, h2⟩
  · cases a with
    | nil => simp at h1 h2; exact ⟨h1.symm, h2⟩
    | cons x a =>
      have : WordChar x := hword.chars x (by rw [h1]; simp)
      exact absurd this (hl x (by rw [h2]; rfl))
  · cases a with
    | nil => simp at h1 h2; exact ⟨h1, h2.symm⟩
    | cons x a =>
      have hx : ¬ WordChar x := hn x (by rw [h2]; rfl)
      rcases ht w x a h1 with h | h | h
      · exact absurd h hx
      · exact absurd h hword.last.1
      · exact absurd h hword.last.2

/-! ## The grammar over tokens -/

mutual
/-- A value as a list of tokens. -/
inductive TVal (D : Dialect F) : List (List Nat) → Value F → Prop where
  | word {t v} : Word t → (∀ nx, After nx → Val D t nx v) → TVal D [t] v
  | str {t s} : StrLit D t s → TVal D [t] (.str s)
  | arr {ts xs} : TElems D ts xs → TVal D ([0x5B] :: ts) (.arr xs)
  | obj {ts ms r} : TMembers D ts ms → FirstWins ms r → TVal D ([0x7B] :: ts) (.obj r)
/-- The rest of an array as a list of tokens. -/
inductive TElems (D : Dialect F) : List (List Nat) → List (Value F) → Prop where
  | close : TElems D [[0x5D]] []
  | last {ts v} : TVal D ts v → TElems D (ts ++ [[0x5D]]) [v]
  | more {ts v us xs} : TVal D ts v → TElems D us xs → TElems D (ts ++ [0x2C] :: us) (v :: xs)
/-- The rest of an object as a list of tokens. -/
inductive TMembers (D : Dialect F) : List (List Nat) → List (List Nat × Value F) → Prop where
  | close : TMembers D [[0x7D]] []
  | keyOnly {k s} : StrLit D k s → TMembers D [k, [0x7D]] []
  | last {k s ts v} : StrLit D k s → TVal D ts v → TMembers D (k :: [0x3A] :: ts ++ [[0x7D]]) [(s, v)]
  | more {k s ts v us ms} : StrLit D k s → TVal D ts v → TMembers D us ms →
      TMembers D (k :: [0x3A] :: ts ++ [0x2C] :: us) ((s, v) :: ms)
end

theorem expo_follow {w : Nat} (hw : 8 ≤ w) {t : List Nat} {nx nx' : Option Nat} {b : Bool} {e : Nat} (h : Expo w t nx b e)
    (hn : After nx') (hl : t.getLast? ≠ some 0x2B ∧ t.getLast? ≠ some 0x2D) : Expo w t nx' b e := by
  cases h with
  | plain he hc h0 hds _ => exact .plain he hc h0 hds (hn.noDig hw)
  | signed he hs hds _ => exact .signed he hs hds (hn.noDig hw)
  | bare he hs =>
    simp at hl
    omega

theorem last_append {a b : List Nat} (hb : b ≠ []) : (a ++ b).getLast? = b.getLast? := by
  rw [List.getLast?_append]
  cases h : b.getLast? with
  | none => simp at h; exact absurd h hb
  | some x => simp

theorem expo_ne {w : Nat} {t : List Nat} {nx : Option Nat} {b : Bool} {e : Nat} (h : Expo w t nx b e) : t ≠ [] := by
  cases h <;> simp

theorem floatTail_ne {w : Nat} {fo : FloatOps F} {i : Nat} {t : List Nat} {nx : Option Nat} {f : F} (h : FloatTail w fo i t nx f) : t ≠ [] := by
  cases h with
  | frac => simp
  | fracExp => simp
  | exp h => exact expo_ne h

theorem floatTail_follow {w : Nat} (hw : 8 ≤ w) {fo : FloatOps F} {i : Nat} {t : List Nat} {nx nx' : Option Nat} {f : F} (h : FloatTail w fo i t nx f)
    (hn : After nx') (hl : t.getLast? ≠ some 0x2B ∧ t.getLast? ≠ some 0x2D) : FloatTail w fo i t nx' f := by
  cases h with
  | frac h _ _ _ => exact .frac h (hn.noDig hw) (hn.ne (by simp)) (hn.ne (by simp))
  | fracExp h hx =>
    rw [last_append (expo_ne hx)] at hl
    exact .fracExp h (expo_follow hw hx hn hl)
  | exp hx => exact .exp (expo_follow hw hx hn hl)

theorem number_follow {D : Dialect F} (hw : 8 ≤ D.w) {t : List Nat} {nx nx' : Option Nat} {v : Value F} (h : Number D t nx v)
    (hn : After nx') (hl : t.getLast? ≠ some 0x2B ∧ t.getLast? ≠ some 0x2D) : Number D t nx' v := by
  have body : ∀ {b : Bool} {t : List Nat} {n : Num F}, NumBody D b t nx n → t ≠ [] → 
      t.getLast? ≠ some 0x2B ∧ t.getLast? ≠ some 0x2D → NumBody D b t nx' n := by
    intro b t n h hne hl
    cases h with
    | zero _ => exact .zero hn.noFloat
    | @zeroFrac u _ _ hf =>
      have : (0x30 :: 0x2E :: u).getLast? = (0x2E :: u).getLast? := last_append (a := [0x30]) (by simp)
      rw [this] at hl
      exact .zeroFrac (floatTail_follow hw hf hn hl)
    | int hc hds hm _ _ => exact .int hc hds hm (hn.noDig hw) hn.noFloat
    | flt hc hds hm hf =>
      rw [last_append (floatTail_ne hf)] at hl
      exact .flt hc hds hm (floatTail_follow hw hf hn hl)
    | bareSign => exact absurd rfl hne
  cases h with
  | plain h1 h2 h => exact .plain h1 h2 (body h (by simp) hl)
  | @signed sg u _ _ hs h =>
    by_cases hu : u = []
    · subst hu
      simp at hl; omega
    · have : (sg :: u).getLast? = u.getLast? := last_append (a := [sg]) hu
      rw [this] at hl
      exact .signed hs (body h hu hl)

theorem gap_head {g r : List Nat} (hg : Gap g) {c : Nat} (h : (g ++ r).head? = some c) : IsBlank c ∨ c = 0x2F ∨ r.head? = some c := by
  cases hg with
  | nil => exact Or.inr (Or.inr h)
  | blank hc _ => simp at h; exact Or.inl (h ▸ hc)
  | line => simp at h; exact Or.inr (Or.inl h.symm)
  | block => simp at h; exact Or.inr (Or.inl h.symm)

theorem blank_noWord {c : Nat} (h : IsBlank c) : ¬ WordChar c := fun hw => hw.1 h

theorem gap_noWord {g r : List Nat} (hg : Gap g) (hr : NoWord r) : NoWord (g ++ r) := by
  intro c hc hw
  rcases gap_head hg hc with h | h | h
  · exact hw.1 h
  · exact hw.2.1 h
  · exact hr c h hw

theorem punct_noWord {c : Nat} (r : List Nat) (h : IsPunct c) : NoWord (c :: r) := by
  intro d hd hw
  simp at hd
  subst hd
  exact hw.2.2.2.1 h

theorem str_noGap {D : Dialect F} {k s : List Nat} (h : StrLit D k s) (r : List Nat) : NoGap (k ++ r) := by
  obtain ⟨u, cps, rfl, _⟩ := h
  exact .cons (by unfold IsBlank; omega)

theorem val_noGap {D : Dialect F} (hw : 8 ≤ D.w) {t : List Nat} {nx : Option Nat} {v : Value F} (h : Val D t nx v) (r : List Nat) : NoGap (t ++ r) := by
  have hword : (Wordy t ∧ ∃ c u, t = c :: u ∧ WordChar c) → NoGap (t ++ r) := by
    rintro ⟨_, c, u, rfl, hc⟩
    exact .cons (wordChar_noGap hc)
  cases h with
  | vtrue h => exact hword (keyword_wordy hw (Or.inl rfl) h)
  | vfalse h => exact hword (keyword_wordy hw (Or.inr (Or.inl rfl)) h)
  | vnull h => exact hword (keyword_wordy hw (Or.inr (Or.inr rfl)) h)
  | num h => exact hword (number_wordy hw h)
  | str h => exact str_noGap h r
  | arr h => exact .cons (by unfold IsBlank; omega)
  | obj h => exact .cons (by unfold IsBlank; omega)

theorem val_toks {D : Dialect F} (hw : 8 ≤ D.w) {t : List Nat} {nx : Option Nat} {v : Value F} (h : Val D t nx v) :
    ∀ toks l, Layout toks (t ++ l) → NoWord l → ∃ ts toks', toks = ts ++ toks' ∧ TVal D ts v ∧ Layout toks' l := by
  have kw : ∀ {k t : List Nat} {v : Value F}, k = kTrue ∨ k = kFalse ∨ k = kNull → Keyword D.w k t → (∀ nx, Val D t nx v) →
      ∀ toks l, Layout toks (t ++ l) → NoWord l → ∃ ts toks', toks = ts ++ toks' ∧ TVal D ts v ∧ Layout toks' l := by
    intro k t v hk h hv toks l hl hn
    obtain ⟨h1, h2⟩ := keyword_wordy hw hk h
    obtain ⟨toks', rfl, h3, h4⟩ := layout_word h1 h2 hn hl
    exact ⟨[t], toks', rfl, .word h4 fun nx _ => hv nx, h3⟩
  have str_tok : ∀ {k s : List Nat}, StrLit D k s → ∀ r, NoGap (k ++ r) := str_noGap
  have val_tok : ∀ {t : List Nat} {nx : Option Nat} {v : Value F}, Val D t nx v → ∀ r, NoGap (t ++ r) := val_noGap hw
  refine Val.rec (D := D)
    (motive_1 := fun t nx v _ => ∀ toks l, Layout toks (t ++ l) → NoWord l →
      ∃ ts toks', toks = ts ++ toks' ∧ TVal D ts v ∧ Layout toks' l)
    (motive_2 := fun t xs _ => ∀ toks l, Layout toks (t ++ l) →
      ∃ ts toks', toks = ts ++ toks' ∧ TElems D ts xs ∧ Layout toks' l)
    (motive_3 := fun t ms _ => ∀ toks l, Layout toks (t ++ l) →
      ∃ ts toks', toks = ts ++ toks' ∧ TMembers D ts ms ∧ Layout toks' l)
    ?_ ?_ ?_ ?_ ?_ ?_ ?_ ?_ ?_ ?_ ?_ ?_ ?_ ?_ h
  · intro t nx h; exact kw (Or.inl rfl) h fun _ => .vtrue h
  · intro t nx h; exact kw (Or.inr (Or.inl rfl)) h fun _ => .vfalse h
  · intro t nx h; exact kw (Or.inr (Or.inr rfl)) h fun _ => .vnull h
  · intro t nx v h toks l hl hn
    obtain ⟨h1, h2⟩ := number_wordy hw h
    obtain ⟨toks', rfl, h3, h4⟩ := layout_word h1 h2 hn hl
    exact ⟨[t], toks', rfl, .word h4 fun nx hnx => .num (number_follow hw h hnx h4.last), h3⟩
  · intro t nx s h toks l hl hn
    obtain ⟨toks', rfl, h3⟩ := layout_str h hl
    exact ⟨[t], toks', rfl, .str h, h3⟩
  · intro t nx xs _ ih toks l hl hn
    obtain ⟨toks', rfl, h⟩ := layout_punct (by simp [IsPunct]) hl
    obtain ⟨ts, toks'', rfl, h1, h2⟩ := ih toks' l h
    exact ⟨[0x5B] :: ts, toks'', rfl, .arr h1, h2⟩
  · intro t nx ms r _ hr ih toks l hl hn
    obtain ⟨toks', rfl, h⟩ := layout_punct (by simp [IsPunct]) hl
    obtain ⟨ts, toks'', rfl, h1, h2⟩ := ih toks' l h
    exact ⟨[0x7B] :: ts, toks'', rfl, .obj h1 hr, h2⟩
  · intro g hg toks l hl
    rw [List.append_assoc] at hl
    have hl := layout_gap hg (.cons (by unfold IsBlank; omega)) hl
    obtain ⟨toks', rfl, h⟩ := layout_punct (by simp [IsPunct]) hl
    exact ⟨[[0x5D]], toks', rfl, .close, h⟩
  · intro g t v g' hg hv hg' ih toks l hl
    simp only [List.append_assoc] at hl
    have hl := layout_gap hg (val_tok hv _) hl
    obtain ⟨ts, toks', rfl, h1, h2⟩ := ih toks _ hl (gap_noWord hg' (punct_noWord _ (by simp [IsPunct])))
    have h2 := layout_gap hg' (.cons (by unfold IsBlank; omega)) h2
    obtain ⟨toks'', rfl, h⟩ := layout_punct (by simp [IsPunct]) h2
    exact ⟨ts ++ [[0x5D]], toks'', by simp, .last h1, h⟩
  · intro g t v g' u xs hg hv hg' _ ih ih' toks l hl
    simp only [List.append_assoc, List.cons_append] at hl
    have hl := layout_gap hg (val_tok hv _) hl
    obtain ⟨ts, toks', rfl, h1, h2⟩ := ih toks _ hl (gap_noWord hg' (punct_noWord _ (by simp [IsPunct])))
    have h2 := layout_gap hg' (.cons (by unfold IsBlank; omega)) h2
    obtain ⟨toks'', rfl, h⟩ := layout_punct (by simp [IsPunct]) h2
    obtain ⟨us, toks3, rfl, h3, h4⟩ := ih' _ _ h
    exact ⟨ts ++ [0x2C] :: us, toks3, by simp, .more h1 h3, h4⟩
  · intro g hg toks l hl
    rw [List.append_assoc] at hl
    have hl := layout_gap hg (.cons (by unfold IsBlank; omega)) hl
    obtain ⟨toks', rfl, h⟩ := layout_punct (by simp [IsPunct]) hl
    exact ⟨[[0x7D]], toks', rfl, .close, h⟩
  · intro g k s g' hg hk hg' toks l hl
    simp only [List.append_assoc] at hl
    have hl := layout_gap hg (str_tok hk _) hl
    obtain ⟨toks', rfl, h2⟩ := layout_str hk hl
    have h2 := layout_gap hg' (.cons (by unfold IsBlank; omega)) h2
    obtain ⟨toks'', rfl, h⟩ := layout_punct (by simp [IsPunct]) h2
    exact ⟨[k, [0x7D]], toks'', by simp, .keyOnly hk, h⟩
  · intro g k s g1 g2 t v g' hg hk hg1 hg2 hv hg' ih toks l hl
    simp only [List.append_assoc, List.cons_append] at hl
    have hl := layout_gap hg (str_tok hk _) hl
    obtain ⟨toks1, rfl, hl1⟩ := layout_str hk hl
    have hl1 := layout_gap hg1 (NoGap.cons (c := 0x3A) (by unfold IsBlank; omega)) hl1
    obtain ⟨toks2, rfl, hl2⟩ := layout_punct (by simp [IsPunct]) hl1
    have hl3 := layout_gap hg2 (val_tok hv _) hl2
    obtain ⟨ts, toks', rfl, h1, h2⟩ := ih _ _ hl3 (gap_noWord hg' (punct_noWord _ (by simp [IsPunct])))
    have h2 := layout_gap hg' (.cons (by unfold IsBlank; omega)) h2
    obtain ⟨toks'', rfl, h⟩ := layout_punct (by simp [IsPunct]) h2
    exact ⟨k :: [0x3A] :: ts ++ [[0x7D]], toks'', by simp, .last hk h1, h⟩
  · intro g k s g1 g2 t v g' u ms hg hk hg1 hg2 hv hg' _ ih ih' toks l hl
    simp only [List.append_assoc, List.cons_append] at hl
    have hl := layout_gap hg (str_tok hk _) hl
    obtain ⟨toks1, rfl, hl1⟩ := layout_str hk hl
    have hl1 := layout_gap hg1 (NoGap.cons (c := 0x3A) (by unfold IsBlank; omega)) hl1
    obtain ⟨toks2, rfl, hl2⟩ := layout_punct (by simp [IsPunct]) hl1
    have hl3 := layout_gap hg2 (val_tok hv _) hl2
    obtain ⟨ts, toks', rfl, h1, h2⟩ := ih _ _ hl3 (gap_noWord hg' (punct_noWord _ (by simp [IsPunct])))
    have h2 := layout_gap hg' (.cons (by unfold IsBlank; omega)) h2
    obtain ⟨toks'', rfl, h⟩ := layout_punct (by simp [IsPunct]) h2
    obtain ⟨us, toks3, rfl, h3, h4⟩ := ih' _ _ h
    exact ⟨k :: [0x3A] :: ts ++ [0x2C] :: us, toks3, by simp, .more hk h1 h3, h4⟩

theorem layout_cons {t : List Nat} {toks : List (List Nat)} {l : List Nat} (h : Layout (t :: toks) l) :
    ∃ g r, l = g ++ t ++ r ∧ Gap g ∧ Layout toks r := by
  cases h with
  | cons hg _ h _ => exact ⟨_, _, rfl, hg, h⟩

theorem after_gap {g : List Nat} (hg : Gap g) {c : Nat} (hc : c = 0x2C ∨ c = 0x5D ∨ c = 0x7D) (r : List Nat) :
    After (g ++ c :: r).head? := by
  intro d hd
  rcases gap_head hg hd with h | h | h
  · exact Or.inl h
  · exact Or.inr (Or.inl h)
  · simp at h; omega

theorem toks_val {D : Dialect F} {ts : List (List Nat)} {v : Value F} (h : TVal D ts v) :
    ∀ toks l, Layout (ts ++ toks) l → ∃ g t r, l = g ++ t ++ r ∧ Gap g ∧ (∀ nx, After nx → Val D t nx v) ∧ Layout toks r := by
  refine TVal.rec (D := D)
    (motive_1 := fun ts v _ => ∀ toks l, Layout (ts ++ toks) l →
      ∃ g t r, l = g ++ t ++ r ∧ Gap g ∧ (∀ nx, After nx → Val D t nx v) ∧ Layout toks r)
    (motive_2 := fun ts xs _ => ∀ toks l, Layout (ts ++ toks) l → ∃ t r, l = t ++ r ∧ Elems D t xs ∧ Layout toks r)
    (motive_3 := fun ts ms _ => ∀ toks l, Layout (ts ++ toks) l → ∃ t r, l = t ++ r ∧ Members D t ms ∧ Layout toks r)
    ?_ ?_ ?_ ?_ ?_ ?_ ?_ ?_ ?_ ?_ ?_ h
  · intro t v _ hv toks l hl
    obtain ⟨g, r, rfl, hg, hr⟩ := layout_cons hl
    exact ⟨g, t, r, rfl, hg, hv, hr⟩
  · intro t s hs toks l hl
    obtain ⟨g, r, rfl, hg, hr⟩ := layout_cons hl
    exact ⟨g, t, r, rfl, hg, fun _ _ => .str hs, hr⟩
  · intro ts xs _ ih toks l hl
    obtain ⟨g, r, rfl, hg, hr⟩ := layout_cons hl
    obtain ⟨t, r', rfl, h1, h2⟩ := ih _ _ hr
    exact ⟨g, 0x5B :: t, r', by simp, hg, fun _ _ => .arr h1, h2⟩
  · intro ts ms r _ hf ih toks l hl
    obtain ⟨g, r, rfl, hg, hr⟩ := layout_cons hl
    obtain ⟨t, r', rfl, h1, h2⟩ := ih _ _ hr
    exact ⟨g, 0x7B :: t, r', by simp, hg, fun _ _ => .obj h1 hf, h2⟩
  · intro toks l hl
    obtain ⟨g, r, rfl, hg, hr⟩ := layout_cons hl
    exact ⟨g ++ [0x5D], r, rfl, .close hg, hr⟩
  · intro ts v _ ih toks l hl
    rw [List.append_assoc] at hl
    obtain ⟨g, t, r, rfl, hg, hv, hr⟩ := ih _ _ hl
    obtain ⟨g', r, rfl, hg', hr⟩ := layout_cons hr
    exact ⟨g ++ t ++ g' ++ [0x5D], r, by simp, .last hg (hv _ (after_gap hg' (by simp) _)) hg', hr⟩
  · intro ts v us xs _ _ ih ih' toks l hl
    rw [List.append_assoc] at hl
    obtain ⟨g, t, r, rfl, hg, hv, hr⟩ := ih _ _ hl
    obtain ⟨g', r, rfl, hg', hr⟩ := layout_cons hr
    obtain ⟨u, r', rfl, h1, h2⟩ := ih' _ _ hr
    exact ⟨g ++ t ++ g' ++ 0x2C :: u, r', by simp, .more hg (hv _ (after_gap hg' (by simp) _)) hg' h1, h2⟩
  · intro toks l hl
    obtain ⟨g, r, rfl, hg, hr⟩ := layout_cons hl
    exact ⟨g ++ [0x7D], r, rfl, .close hg, hr⟩
  · intro k s hk toks l hl
    obtain ⟨g, r, rfl, hg, hr⟩ := layout_cons hl
    obtain ⟨g', r, rfl, hg', hr⟩ := layout_cons hr
    exact ⟨g ++ k ++ g' ++ [0x7D], r, by simp, .keyOnly hg hk hg', hr⟩
  · intro k s ts v hk _ ih toks l hl
    simp only [List.append_assoc, List.cons_append] at hl
    obtain ⟨g, r, rfl, hg, hr⟩ := layout_cons hl
    obtain ⟨g1, r, rfl, hg1, hr⟩ := layout_cons hr
    obtain ⟨g2, t, r, rfl, hg2, hv, hr⟩ := ih _ _ hr
    obtain ⟨g', r, rfl, hg', hr⟩ := layout_cons hr
    exact ⟨g ++ k ++ g1 ++ 0x3A :: g2 ++ t ++ g' ++ [0x7D], r, by simp,
      .last hg hk hg1 hg2 (hv _ (after_gap hg' (by simp) _)) hg', hr⟩
  · intro k s ts v us ms hk _ _ ih ih' toks l hl
    simp only [List.append_assoc, List.cons_append] at hl
    obtain ⟨g, r, rfl, hg, hr⟩ := layout_cons hl
    obtain ⟨g1, r, rfl, hg1, hr⟩ := layout_cons hr
    obtain ⟨g2, t, r, rfl, hg2, hv, hr⟩ := ih _ _ hr
    obtain ⟨g', r, rfl, hg', hr⟩ := layout_cons hr
    obtain ⟨u, r', rfl, h1, h2⟩ := ih' _ _ hr
    exact ⟨g ++ k ++ g1 ++ 0x3A :: g2 ++ t ++ g' ++ 0x2C :: u, r', by simp,
      .more hg hk hg1 hg2 (hv _ (after_gap hg' (by simp) _)) hg' h1, h2⟩

theorem trail_noWord {e : List Nat} (h : Trail e) : NoWord e := by
  rcases h with h | ⟨g, t, rfl, h, _⟩
  · have := gap_noWord (r := []) h (fun c hc => by cases hc)
    simpa using this
  · refine gap_noWord h ?_
    intro c hc hw
    simp at hc
    exact hw.2.1 hc.symm

theorem trail_after {e : List Nat} (h : Trail e) : After e.head? := by
  rcases h with h | ⟨g, t, rfl, h, _⟩
  · intro c hc
    rw [← List.append_nil e] at hc
    rcases gap_head h hc with h | h | h
    · exact Or.inl h
    · exact Or.inr (Or.inl h)
    · cases h
  · intro c hc
    rcases gap_head h hc with h | h | h
    · exact Or.inl h
    · exact Or.inr (Or.inl h)
    · simp at h; omega

theorem trail_layout {toks : List (List Nat)} {e : List Nat} (h : Trail e) (hl : Layout toks e) : toks = [] := by
  cases hl with
  | nil _ => rfl
  | @cons g t toks l hg ht hl hw =>
    rw [List.append_assoc] at h
    have := trail_gap hg (tok_noGap ht _) h
    simp at this
    exact absurd this.1 (tok_ne ht)

theorem document_some {D : Dialect F} {l : List Nat} {v : Value F} (h : Document D (l.map some) v) :
    ∃ g t e, l = g ++ t ++ e ∧ Gap g ∧ Val D t e.head? v ∧ (Trail e ∨ ∃ g' m, e = g' ++ 0 :: m ∧ Gap g') := by
  obtain ⟨g, t, e, more, he, hg, hv, hf⟩ := h
  have hm : ∃ m : List Nat, more = m.map some := by
    refine ⟨l.drop (g ++ t ++ e).length, ?_⟩
    rw [List.map_drop, he]
    have : (g ++ t ++ e).length = ((g ++ t ++ e).map some).length := by rw [List.length_map]
    rw [this, List.drop_left]
  obtain ⟨m, rfl⟩ := hm
  rw [← List.map_append] at he
  have he : l = g ++ t ++ e ++ m := (List.map_inj_right (by simp)).mp he
  refine ⟨g, t, e ++ m, by simp [he], hg, ?_, ?_⟩
  · rw [← List.map_append, List.head?_map] at hv
    cases h : (e ++ m).head? with
    | none => rw [h] at hv; exact hv
    | some c => rw [h] at hv; exact hv
  · generalize hmm : m.map some = mm at hf
    cases hf with
    | eof hg => simp at hmm; subst hmm; rw [List.append_nil]; exact Or.inl (Or.inl hg)
    | eofInLine hg ht => simp at hmm; subst hmm; rw [List.append_nil]; exact Or.inl (Or.inr ⟨_, _, rfl, hg, ht⟩)
    | nul hg =>
      cases m with
      | nil => cases hmm
      | cons c m => simp at hmm; rw [hmm.1]; exact Or.inr ⟨_, m, rfl, hg⟩

theorem document_toks {D : Dialect F} (hw : 8 ≤ D.w) {l : List Nat} {toks : List (List Nat)} {v : Value F} (hl : Layout toks l) :
    Document D (l.map some) v ↔ TVal D toks v := by
  constructor
  · intro h
    obtain ⟨g, t, e, rfl, hg, hv, he⟩ := document_some h
    have hnt : NoGap (t ++ e) := val_noGap hw hv e
    rw [List.append_assoc] at hl
    have hl := layout_gap hg hnt hl
    have hnw : NoWord e := by
      rcases he with he | ⟨g', m, rfl, hg'⟩
      · exact trail_noWord he
      · refine gap_noWord hg' ?_
        intro c hc hwc
        simp at hc
        exact hwc.2.2.2.2 hc.symm
    obtain ⟨ts, toks', rfl, h1, h2⟩ := val_toks hw hv toks e hl hnw
    rcases he with he | ⟨g', m, rfl, hg'⟩
    · rw [trail_layout he h2, List.append_nil]; exact h1
    · have h2 := layout_gap hg' (.cons (by unfold IsBlank; omega)) h2
      obtain ⟨t', _, l', _, hte, ht', _⟩ := layout_first (by unfold IsBlank; omega) h2
      cases ht' with
      | punct hc => simp at hte; unfold IsPunct at hc; omega
      | str _ => simp at hte
      | word hw =>
        have hne := hw.ne
        cases t' with
        | nil => exact absurd rfl hne
        | cons d t' =>
          simp at hte
          exact absurd hte.1.symm (hw.chars d (by simp)).2.2.2.2
  · intro h
    obtain ⟨g, t, e, rfl, hg, hv, he⟩ := toks_val h [] l (by rwa [List.append_nil])
    cases he with
    | nil he =>
      have hval := hv _ (trail_after he)
      refine ⟨g, t, e, [], by simp, hg, ?_, ?_⟩
      · cases e with
        | nil => exact hval
        | cons c e => exact hval
      · rcases he with he | ⟨g', t', rfl, hg', ht'⟩
        · exact .eof he
        · exact .eofInLine hg' ht'

end Configor
