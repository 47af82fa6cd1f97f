import Verif.Proofs.LeftoverParse
import Verif.Proofs.Layout
import Verif.Proofs.Portable
import Verif.Proofs.Sources
/-! Texts of which the end is missing. -/
namespace Configor
open Spec Lexer

variable {F : Type}

/-! ## Units -/

theorem utf8Sum_append (n cp : Nat) (a b : List Int) {x : Nat} {r : List Int} (h : utf8Sum n cp a = some (x, r)) :
    utf8Sum n cp (a ++ b) = some (x, r ++ b) := by
  induction n generalizing cp a with
  | zero =>
    cases a with
    | nil => simp [utf8Sum] at h
    | cons u a => simp [utf8Sum] at h ⊢; exact ⟨h.1, by rw [h.2]⟩
  | succ n ih =>
    cases a with
    | nil => simp [utf8Sum] at h
    | cons u a => simp only [utf8Sum, List.cons_append] at h ⊢; exact ih _ _ h

theorem Enc.step_append (e : Enc) (w : Nat) {a r : List Int} {cp : Nat} (b : List Int) (h : e.step w a = some (some cp, r)) :
    e.step w (a ++ b) = some (some cp, r ++ b) := by
  cases a with
  | nil => rw [Enc.step_nil] at h; cases h
  | cons u a =>
    cases e with
    | ignore => simp [Enc.step, ignoreStep] at h ⊢; exact ⟨h.1, by rw [h.2]⟩
    | utf8 =>
      simp only [Enc.step, utf8Step, List.cons_append] at h ⊢
      cases hs : utf8Sum (utf8ExtraTable.getD (castU 8 u) 0) 0 (u :: a) with
      | none => rw [hs] at h; simp at h
      | some q =>
        obtain ⟨x, r'⟩ := q
        have := utf8Sum_append _ _ _ b hs
        rw [List.cons_append] at this
        rw [hs] at h
        rw [this]
        simp only at h ⊢
        split at h
        · simp at h
        · rename_i hx
          rw [if_neg hx]
          simp at h ⊢
          exact ⟨h.1, by rw [h.2]⟩
    | utf16 =>
      simp only [Enc.step, utf16Step, List.cons_append] at h ⊢
      split at h
      · rename_i hl
        rw [if_pos hl]
        cases a with
        | nil => simp at h
        | cons t ts =>
          simp only [List.cons_append] at h ⊢
          split at h
          · rename_i ht
            rw [if_pos ht]
            simp at h ⊢; exact ⟨h.1, by rw [h.2]⟩
          · simp at h
      · rename_i hl
        rw [if_neg hl]
        simp at h ⊢; exact ⟨h.1, by rw [h.2]⟩
    | utf32 =>
      simp only [Enc.step, utf32Step, List.cons_append] at h ⊢
      split at h
      · simp at h
      · rename_i hl
        rw [if_neg hl]
        simp at h ⊢; exact ⟨h.1, by rw [h.2]⟩

theorem items_ne_nil (e : Enc) (w : Nat) {l : List Int} (h : l ≠ []) : items (e.step w) l ≠ [] := by
  cases l with
  | nil => exact absurd rfl h
  | cons u us =>
    cases hst : e.step w (u :: us) with
    | none => exact absurd hst (e.step_cons w u us)
    | some q =>
      obtain ⟨o, r⟩ := q
      cases o with
      | none => rw [items_bad (e.step_nil w) hst]; simp
      | some c => rw [items_cons (e.shrinks w) (e.step_nil w) hst]; simp

/-- What is read of the beginning of some units: the same code points, then possibly a malformed one. -/
theorem items_append (e : Enc) (w : Nat) (a b : List Int) :
    ∃ (p : List Nat) (x more : List (Option Nat)), items (e.step w) a = p.map some ++ x ∧ (x = [] ∨ x = [none]) ∧ items (e.step w) (a ++ b) = p.map some ++ more ∧
      (b ≠ [] → more ≠ []) := by
  generalize hn : a.length = n
  induction n using Nat.strongRecOn generalizing a with
  | ind n ih =>
    subst hn
    cases a with
    | nil => exact ⟨[], [], _, by rw [items_nil (e.step_nil w)]; rfl, .inl rfl, rfl, fun h => items_ne_nil e w h⟩
    | cons u us =>
      cases hst : e.step w (u :: us) with
      | none => exact absurd hst (e.step_cons w u us)
      | some q =>
        obtain ⟨o, r⟩ := q
        cases o with
        | none =>
          exact ⟨[], [none], _, by rw [items_bad (e.step_nil w) hst]; rfl, .inr rfl, rfl, fun _ => items_ne_nil e w (l := u :: us ++ b) (by simp)⟩
        | some c =>
          obtain ⟨p, x, more, h1, h2, h3, h4⟩ := ih r.length (e.shrinks w _ _ _ hst) r rfl
          refine ⟨c :: p, x, more, ?_, h2, ?_, h4⟩
          · rw [items_cons (e.shrinks w) (e.step_nil w) hst, h1]; rfl
          · rw [items_cons (e.shrinks w) (e.step_nil w) (e.step_append w b hst), h3]; rfl

theorem unitsOf_prefix {p str : List Nat} (w : Nat) (h : p <+: str) : ∃ b, unitsOf w str = unitsOf w p ++ b := by
  obtain ⟨q, rfl⟩ := h
  unfold unitsOf
  rw [List.map_append, List.takeWhile_append]
  split
  · rename_i h
    exact ⟨_, by rw [(List.takeWhile_sublist _).eq_of_length h]⟩
  · exact ⟨[], by simp⟩

theorem itemsOf_prefix (e : Enc) (w : Nat) {p str : List Nat} (h : p <+: str) :
    ∃ (q : List Nat) (x more : List (Option Nat)), itemsOf e w p = q.map some ++ x ∧ (x = [] ∨ x = [none]) ∧ itemsOf e w str = q.map some ++ more ∧
      (NoEof w str → p ≠ str → more ≠ []) := by
  obtain ⟨b, hb⟩ := unitsOf_prefix w h
  obtain ⟨q, x, more, h1, h2, h3, h4⟩ := items_append e w (unitsOf w p) b
  refine ⟨q, x, more, h1, h2, by rw [itemsOf, hb]; exact h3, fun hn hne => h4 ?_⟩
  rintro rfl
  obtain ⟨r, rfl⟩ := h
  have hp : NoEof w p := fun u hu => hn u (by simp [hu])
  rw [List.append_nil, unitsOf_ints hn, unitsOf_ints hp] at hb
  have := congrArg List.length hb
  simp [ints] at this
  exact hne (by simp [this])

/-! ## Values -/

/-- The value is a number. -/
def IsNumber : Value F → Prop
  | .int _ => True
  | .flt _ => True
  | _ => False

theorem number_isNumber {D : Dialect F} {t : List Nat} {nx : Option Nat} {v : Value F} (h : Number D t nx v) :
    IsNumber v ∧ ∃ c r, t = c :: r ∧ (c = 0x2B ∨ c = 0x2D ∨ 0x30 ≤ c ∧ c ≤ 0x39) := by
  have : ∀ (b : Bool) (n : Num F), IsNumber (n.value D.fo b) := by
    intro b n
    cases n <;> exact trivial
  cases h with
  | plain h1 h2 => exact ⟨this _ _, _, _, rfl, .inr (.inr ⟨h1, h2⟩)⟩
  | signed h1 => exact ⟨this _ _, _, _, rfl, h1.elim .inl fun h => .inr (.inl h)⟩

/-- Whether a text denotes a number shows in its first character. -/
theorem val_number {D : Dialect F} {t : List Nat} {nx : Option Nat} {v : Value F} (h : Val D t nx v) :
    ∃ c r, t = c :: r ∧ (IsNumber v ↔ c = 0x2B ∨ c = 0x2D ∨ 0x30 ≤ c ∧ c ≤ 0x39) := by
  have kw : ∀ {k t : List Nat} {x : Nat}, k.head? = some x → Keyword D.w k t → ∃ r, t = x :: r := by
    intro k t x hk h
    have := h.1
    rw [hk] at this
    cases t with
    | nil => simp at this
    | cons c r => simp at this; exact ⟨r, by rw [this]⟩
  cases h with
  | vtrue h => obtain ⟨r, rfl⟩ := kw rfl h; exact ⟨_, _, rfl, by simp [IsNumber]⟩
  | vfalse h => obtain ⟨r, rfl⟩ := kw rfl h; exact ⟨_, _, rfl, by simp [IsNumber]⟩
  | vnull h => obtain ⟨r, rfl⟩ := kw rfl h; exact ⟨_, _, rfl, by simp [IsNumber]⟩
  | num h =>
    obtain ⟨h1, c, r, rfl, h2⟩ := number_isNumber h
    exact ⟨c, r, rfl, fun _ => h2, fun _ => h1⟩
  | str h => obtain ⟨u, _, rfl, _⟩ := h; exact ⟨_, _, rfl, by simp [IsNumber]⟩
  | arr h => exact ⟨_, _, rfl, by simp [IsNumber]⟩
  | obj h => exact ⟨_, _, rfl, by simp [IsNumber]⟩

/-- What follows matters for numbers only. -/
theorem val_next {D : Dialect F} {t : List Nat} {nx : Option Nat} {v : Value F} (h : Val D t nx v) (hn : ¬ IsNumber v) (nx' : Option Nat) :
    Val D t nx' v := by
  cases h with
  | vtrue h => exact .vtrue h
  | vfalse h => exact .vfalse h
  | vnull h => exact .vnull h
  | num h => exact absurd (number_isNumber h).1 hn
  | str h => exact .str h
  | arr h => exact .arr h
  | obj h h' => exact .obj h h'

/-- A complete value at the beginning of an input is determined by the input. -/
theorem complete_unique {A : ParseArgs F} (hA : A.Usual) {l k k' : List (Option Nat)} {v v' : Value F} (h : Complete A.dialect l v k)
    (h' : Complete A.dialect l v' k') : v = v' ∧ k = k' := by
  have H := canon_canon hA (2 * l.length + 1)
  have hst : Sticky (A.canon (2 * l.length + 1)).enc := A.te.sticky A.tw
  have d := data0 A
  obtain ⟨a, l1, d1, h1, _, h3⟩ := complete_parse (C := A.canon (2 * l.length + 1)) (n := 2 * l.length + 1) H hst h
    (show l.length + 1 ≤ 2 * l.length + 1 by omega) (by omega) d
  obtain ⟨a', l1', d1', h1', _, h3'⟩ := complete_parse (C := A.canon (2 * l.length + 1)) (n := 2 * l.length + 1) H hst h'
    (show l.length + 1 ≤ 2 * l.length + 1 by omega) (by omega) d
  rw [h1] at h1'
  obtain ⟨d2, h4⟩ := h3 .null
  obtain ⟨d2', h4'⟩ := h3' .null
  injection h1' with e1 e2
  injection e1 with e1
  rw [e1, e2, h4'] at h4
  injection h4 with _ e3
  injection e3 with e3 e4
  refine ⟨e4.symm, ?_⟩
  have e5 : k'.tail = k.tail ∧ k'.isEmpty = k.isEmpty := by
    have := congrArg Lex.is e3
    simp only [At, CpS.mk.injEq] at this
    exact ⟨this.1, this.2.1⟩
  have e6 : k'.length = k.length := by
    have := congrArg List.length e5.1
    have h2 := e5.2
    cases k <;> cases k' <;> simp at this h2 ⊢
    exact this
  obtain ⟨_, _, _, hl, _⟩ := h
  obtain ⟨_, _, _, hl', _⟩ := h'
  rw [hl] at hl'
  exact (List.append_inj' hl' e6.symm).2

/-- Two values that stand at the beginning of the same text are the same, unless both are numbers. -/
theorem value_unique {A : ParseArgs F} (hA : A.Usual) {l : List (Option Nat)} {g t g' t' : List Nat} {nx nx' : Option Nat} {v v' : Value F}
    (hg : Gap g) (ht : Val A.dialect t nx v) (hl : (g ++ t).map some <+: l) (hg' : Gap g') (ht' : Val A.dialect t' nx' v')
    (hl' : (g' ++ t').map some <+: l) (hn : ¬ IsNumber v ∨ ¬ IsNumber v') : v = v' ∧ g ++ t = g' ++ t' := by
  have core : ∀ {g t g' t' z : List Nat} {nx nx' : Option Nat} {v v' : Value F}, Gap g → Val A.dialect t nx v → Gap g' →
      Val A.dialect t' nx' v' → g ++ t = g' ++ t' ++ z → ¬ IsNumber v ∨ ¬ IsNumber v' → v = v' ∧ z = [] := by
    intro g t g' t' z nx nx' v v' hg ht hg' ht' he hn
    have hw : 8 ≤ A.dialect.w := hA.1
    have hu := gap_unique hg (g' := g') (r := t) (r' := t' ++ z) hg' (by rw [he, List.append_assoc])
      (by simpa using val_noGap hw ht []) (val_noGap hw ht' z)
    obtain ⟨c, r, h1, h2⟩ := val_number ht
    obtain ⟨c', r', h1', h2'⟩ := val_number ht'
    have hc : c = c' := by
      have := hu.2
      rw [h1, h1', List.cons_append] at this
      exact (List.cons.inj this).1
    have hiff : IsNumber v ↔ IsNumber v' := by rw [h2, h2', hc]
    have hn1 : ¬ IsNumber v := hn.elim id fun h => fun h' => h (hiff.1 h')
    have hn2 : ¬ IsNumber v' := fun h => hn1 (hiff.2 h)
    have c1 : Complete A.dialect ((g ++ t).map some) v [] := ⟨g, t, hg, by simp, by simp [Spec.Readable], val_next ht hn1 _⟩
    have c2 : Complete A.dialect ((g ++ t).map some) v' (z.map some) :=
      ⟨g', t', hg', by rw [he]; simp, by cases z <;> simp [Spec.Readable], val_next ht' hn2 _⟩
    have := complete_unique hA c1 c2
    exact ⟨this.1, by simpa using this.2.symm⟩
  have cut : ∀ {a b : List Nat}, a.map some <+: b.map some → ∃ z, b = a ++ z := by
    intro a b h
    obtain ⟨r, hr⟩ := h
    obtain ⟨a', z, rfl, ha, -⟩ := List.map_eq_append_iff.1 hr.symm
    have : a' = a := by
      have := congrArg (List.filterMap id) ha
      simpa [List.filterMap_map] using this
    exact ⟨z, by rw [this]⟩
  rcases List.prefix_or_prefix_of_prefix hl hl' with h | h
  · obtain ⟨z, hz⟩ := cut h
    obtain ⟨h1, rfl⟩ := core hg' ht' hg ht hz hn.symm
    exact ⟨h1.symm, by simpa using hz.symm⟩
  · obtain ⟨z, hz⟩ := cut h
    obtain ⟨h1, rfl⟩ := core hg ht hg' ht' hz hn
    exact ⟨h1, by simpa using hz⟩

/-- The value of a document read from the beginning of some text lies in that beginning. -/
theorem document_within {D : Dialect F} {q : List Nat} {x : List (Option Nat)} (hx : x = [] ∨ x = [none]) {v : Value F}
    (h : Document D (q.map some ++ x) v) : ∃ g t nx, Gap g ∧ Val D t nx v ∧ (g ++ t).map some <+: q.map some := by
  obtain ⟨g, t, e, m, hl, hg, ht, _⟩ := h
  refine ⟨g, t, _, hg, ht, ?_⟩
  have h0 : ((g ++ t).map some) <+: (q.map some ++ x) := ⟨e.map some ++ m, by rw [hl]; simp⟩
  rcases hx with rfl | rfl
  · simpa using h0
  · rcases List.prefix_concat_iff.1 h0 with h | h
    · exfalso
      have : none ∈ (g ++ t).map some := by rw [h]; simp
      simp at this
    · exact h

theorem document_starts {D : Dialect F} {l : List (Option Nat)} {v : Value F} (h : Document D l v) :
    ∃ g t nx, Gap g ∧ Val D t nx v ∧ (g ++ t).map some <+: l := by
  obtain ⟨g, t, e, m, rfl, hg, ht, _⟩ := h
  exact ⟨g, t, _, hg, ht, e.map some ++ m, by simp⟩

/-- A text without its end denotes what the whole text denotes, unless it is a number. -/
theorem parse_prefix {A : ParseArgs F} (hA : A.Usual) {p str : List Nat} (hp : p <+: str) {v v' : Value F}
    (h : Document A.dialect (itemsOf A.se A.sw str) v) (h' : Document A.dialect (itemsOf A.se A.sw p) v')
    (hn : ¬ IsNumber v ∨ ¬ IsNumber v') : v = v' := by
  obtain ⟨q, x, more, h1, h2, h3, _⟩ := itemsOf_prefix A.se A.sw hp
  rw [h1] at h'
  rw [h3] at h
  obtain ⟨g, t, nx, hg, ht, hl⟩ := document_starts h
  obtain ⟨g', t', nx', hg', ht', hl'⟩ := document_within h2 h'
  exact (value_unique hA hg ht hl hg' ht' (hl'.trans (List.prefix_append _ _)) hn).1

/-- A text that is nothing but a value cannot lose its end. -/
theorem parse_cut {A : ParseArgs F} (hA : A.Usual) {p str l : List Nat} (hp : p <+: str) (hne : p ≠ str) (heof : NoEof A.sw str)
    (hl : itemsOf A.se A.sw str = l.map some) {nx : Option Nat} {v v' : Value F} (hv : Val A.dialect l nx v) (hn : ¬ IsNumber v) :
    ¬ Document A.dialect (itemsOf A.se A.sw p) v' := by
  intro h'
  obtain ⟨q, x, more, h1, h2, h3, h4⟩ := itemsOf_prefix A.se A.sw hp
  rw [h1] at h'
  obtain ⟨g', t', nx', hg', ht', hl'⟩ := document_within h2 h'
  have := (value_unique hA (g := []) .nil hv (l := l.map some) (by simp) hg' ht'
    (by rw [← hl, h3]; exact hl'.trans (List.prefix_append _ _)) (.inl hn)).2
  rw [← this] at hl'
  have e1 := hl'.length_le
  have e2 := congrArg List.length (hl.symm.trans h3)
  have := List.length_pos_iff.mpr (h4 heof hne)
  simp at e1 e2
  omega

end Configor
