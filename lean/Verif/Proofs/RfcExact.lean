import Verif.Proofs.Rfc
import Verif.Proofs.Truncate
/-!
# Which texts of RFC 8259 are refused
-/
set_option autoImplicit false
namespace Configor
open Spec Spec.Rfc
variable {F : Type}

/-- The numbers that are not refused. -/
structure LitTaken (n : Lit) : Prop where
  int : decimal n.int ≤ intMax
  exp : ∀ e s ds, n.exp = some (e, s, ds) → (s = none → ds.head? ≠ some 0x30) ∧ (n.frac = none → n.int ≠ [0x30])

/-- At the beginning of a text, with nothing of a number behind it, it is not a value. -/
def Rejects (D : Dialect F) (t : List Nat) : Prop :=
  ∀ t' z rest v', After rest.head? → Val D t' z.head? v' → t' ++ z = t ++ rest → False

/-- Digits end where they end. -/
theorem digits_unique {w : Nat} : ∀ {a b x y : List Nat}, (∀ d ∈ a, IsDig w d) → (∀ d ∈ b, IsDig w d) → NoDig w x.head? → NoDig w y.head? →
    a ++ x = b ++ y → a = b ∧ x = y := by
  intro a
  induction a with
  | nil =>
    intro b x y _ hb hx _ he
    cases b with
    | nil => exact ⟨rfl, he⟩
    | cons c b =>
      simp at he
      exact absurd (hb c (by simp)) (hx c (by rw [he]; rfl))
  | cons c a ih =>
    intro b x y ha hb hx hy he
    cases b with
    | nil =>
      simp at he
      exact absurd (ha c (by simp)) (hy c (by rw [← he]; rfl))
    | cons d b =>
      simp only [List.cons_append, List.cons.injEq] at he
      obtain ⟨h1, h2⟩ := ih (fun d h => ha d (by simp [h])) (fun d h => hb d (by simp [h])) hx hy he.2
      exact ⟨by rw [he.1, h1], h2⟩

theorem expo_some {w : Nat} (hw : 8 ≤ w) {e : Nat} {s : Option Nat} {ds : List Nat} {nx : Option Nat} (hn : After nx)
    (he : e = 0x65 ∨ e = 0x45) (hs : ∀ sg, s = some sg → sg = 0x2B ∨ sg = 0x2D) (hne : ds ≠ [])
    (hds : ∀ d ∈ ds, Digit d) (h0 : s = none → ds.head? ≠ some 0x30) :
    ∃ b k, Expo w (e :: s.toList ++ ds) nx b k := by
  cases ds with
  | nil => exact absurd rfl hne
  | cons c ds =>
    have hdd : ∀ d ∈ ds, IsDig w d := fun d hd => isDig_of hw (hds d (by simp [hd]))
    cases s with
    | none => exact ⟨_, _, .plain he (isDig_of hw (hds c (by simp))) (by simpa using h0 rfl) hdd (hn.noDig hw)⟩
    | some sg => exact ⟨_, _, .signed he (hs sg rfl) hdd (hn.noDig hw)⟩

theorem floatTail_some (fo : FloatOps F) {w : Nat} (hw : 8 ≤ w) {n : Lit} (hv : n.Valid) (hr : LitTaken n) {nx : Option Nat}
    (hn : After nx) (h : n.frac ≠ none ∨ n.exp ≠ none) (i : Nat) :
    ∃ f, FloatTail w fo i (fracText n.frac ++ expText n.exp) nx f := by
  have hf := hv.frac
  have hx := hv.exp
  have hrx := hr.exp
  revert h hf hx hrx
  generalize n.frac = f
  generalize n.exp = x
  intro h hf hx hrx
  cases f with
  | none =>
    rcases x with _ | ⟨e, s, ds⟩
    · simp at h
    · obtain ⟨h1, h2, h3, h4⟩ := hx e s ds rfl
      obtain ⟨b, k, hk⟩ := expo_some hw hn h1 h2 h3 h4 (hrx e s ds rfl).1
      exact ⟨_, .exp hk⟩
  | some fs =>
    obtain ⟨h1, h2⟩ := hf fs rfl
    cases fs with
    | nil => exact absurd rfl h1
    | cons d fs =>
      have hdd : ∀ c ∈ d :: fs, IsDig w c := fun c hc => isDig_of hw (h2 c hc)
      rcases x with _ | ⟨e, s, ds⟩
      · simp only [fracText, expText, List.append_nil]
        exact ⟨_, .frac hdd (hn.noDig hw) (hn.ne (by simp)) (hn.ne (by simp))⟩
      · obtain ⟨h1, h2, h3, h4⟩ := hx e s ds rfl
        obtain ⟨b, k, hk⟩ := expo_some hw hn h1 h2 h3 h4 (hrx e s ds rfl).1
        exact ⟨_, .fracExp hdd hk⟩

theorem int_digits {n : Lit} (hv : n.Valid) : ∀ d ∈ n.int, Digit d := by
  rcases hv.int with h | ⟨c, ds, h, h1, h2, h3⟩
  · rw [h]; intro d hd; simp at hd; subst hd; exact ⟨by decide, by decide⟩
  · rw [h]
    intro d hd
    rcases List.mem_cons.1 hd with rfl | hd
    · exact ⟨by omega, h2⟩
    · exact h3 d hd

theorem numBody_some {D : Dialect F} (hw : 8 ≤ D.w) {n : Lit} (hv : n.Valid) (hr : LitTaken n) {nx : Option Nat} (hn : After nx)
    (signed : Bool) : ∃ m, NumBody D signed (n.int ++ (fracText n.frac ++ expText n.exp)) nx m := by
  by_cases h : n.frac ≠ none ∨ n.exp ≠ none
  · obtain ⟨f, ht⟩ := floatTail_some D.fo hw hv hr hn h (decimal n.int)
    rcases hv.int with hi | ⟨c, ds, hi, h1, h2, h3⟩
    · rw [hi] at ht ⊢
      cases hf : n.frac with
      | none =>
        cases hx : n.exp with
        | none => simp [hf, hx] at h
        | some x =>
          obtain ⟨e, s, ds⟩ := x
          exact absurd hi ((hr.exp e s ds hx).2 hf)
      | some fs =>
        rw [hf] at ht
        exact ⟨_, .zeroFrac (u := fs ++ expText n.exp) ht⟩
    · have hdig := int_digits hv
      have hmax := hr.int
      rw [hi] at hdig hmax ht ⊢
      rw [← intVal_decimal hdig] at hmax ht
      exact ⟨_, .flt ⟨by omega, Or.inl (isDig_of hw (hdig c (by simp)))⟩ (fun d hd => isDig_of hw (h3 d hd)) hmax ht⟩
  · have hf : n.frac = none := by
      cases hq : n.frac with
      | none => rfl
      | some _ => exact absurd (Or.inl (by simp [hq])) h
    have hx : n.exp = none := by
      cases hq : n.exp with
      | none => rfl
      | some _ => exact absurd (Or.inr (by simp [hq])) h
    rw [hf, hx]
    rcases hv.int with hi | ⟨c, ds, hi, h1, h2, h3⟩
    · rw [hi]; exact ⟨_, .zero hn.noFloat⟩
    · have hdig := int_digits hv
      have hmax := hr.int
      rw [hi] at hdig hmax ⊢
      rw [← intVal_decimal hdig] at hmax
      simp only [fracText, expText, List.append_nil]
      exact ⟨_, .int ⟨by omega, Or.inl (isDig_of hw (hdig c (by simp)))⟩ (fun d hd => isDig_of hw (h3 d hd)) hmax (hn.noDig hw) hn.noFloat⟩

theorem int_first {n : Lit} (hv : n.Valid) : ∃ c ds, n.int = c :: ds ∧ Digit c ∧ (c = 0x30 → ds = []) := by
  rcases hv.int with h | ⟨c, ds, h, h1, h2, _⟩
  · exact ⟨0x30, [], h, ⟨by decide, by decide⟩, fun _ => rfl⟩
  · exact ⟨c, ds, h, ⟨by omega, h2⟩, fun h => by omega⟩

theorem number_some {D : Dialect F} (hw : 8 ≤ D.w) {n : Lit} (hv : n.Valid) (hr : LitTaken n) {nx : Option Nat} (hn : After nx) :
    ∃ v, Number D n.text nx v := by
  rw [lit_text]
  cases hm : n.minus with
  | false =>
    obtain ⟨m, hb⟩ := numBody_some hw hv hr hn false
    obtain ⟨c, ds, hi, h1, _⟩ := int_first hv
    rw [hi] at hb ⊢
    exact ⟨_, .plain h1.1 h1.2 hb⟩
  | true =>
    obtain ⟨m, hb⟩ := numBody_some hw hv hr hn true
    exact ⟨_, .signed (Or.inr rfl) hb⟩

/-- Behind the digits of an integer part there is none. -/
theorem tail_noDig {w : Nat} (hw : 8 ≤ w) {n : Lit} (hv : n.Valid) {rest : List Nat} (hr : After rest.head?) :
    NoDig w (fracText n.frac ++ expText n.exp ++ rest).head? := by
  intro c hc
  cases hf : n.frac with
  | some fs =>
    rw [hf] at hc
    simp [fracText] at hc
    rw [isDig_small hw (by omega)]; unfold Digit; omega
  | none =>
    cases hx : n.exp with
    | none =>
      rw [hf, hx] at hc
      exact hr.noDig hw c (by simpa [fracText, expText] using hc)
    | some x =>
      obtain ⟨e, s, ds⟩ := x
      have := (hv.exp e s ds hx).1
      rw [hf, hx] at hc
      simp [fracText, expText] at hc
      rw [isDig_small hw (by omega)]; unfold Digit; omega

/-- Behind the digits of a fraction there is none. -/
theorem exp_noDig {w : Nat} (hw : 8 ≤ w) {n : Lit} (hv : n.Valid) {rest : List Nat} (hr : After rest.head?) :
    NoDig w (expText n.exp ++ rest).head? := by
  intro c hc
  cases hx : n.exp with
  | none =>
    rw [hx] at hc
    exact hr.noDig hw c (by simpa [expText] using hc)
  | some x =>
    obtain ⟨e, s, ds⟩ := x
    have := (hv.exp e s ds hx).1
    rw [hx] at hc
    simp [expText] at hc
    rw [isDig_small hw (by omega)]; unfold Digit; omega

/-- What follows the integer part of a number that was read. -/
theorem expo_first {w : Nat} {t z : List Nat} {b : Bool} {k : Nat} {nx : Option Nat} (_ : nx = z.head?) (h : Expo w t nx b k) {e : Nat} {s : Option Nat} {ds rest : List Nat}
    (hd : ∀ d ∈ ds, Digit d) (hne : ds ≠ []) (he : t ++ z = e :: s.toList ++ ds ++ rest) : s = none → ds.head? ≠ some 0x30 := by
  intro hs h0
  subst hs
  cases ds with
  | nil => exact hne rfl
  | cons d ds =>
    simp at h0
    subst h0
    simp at he
    cases h with
    | plain _ _ h3 _ _ => simp at he; exact h3 he.2.1
    | signed _ h2 _ _ => simp at he; omega
    | bare _ h2 => simp at he; omega

theorem floatTail_exp {w : Nat} (hw : 8 ≤ w) {fo : FloatOps F} {n : Lit} (hv : n.Valid) {i : Nat} {t z rest : List Nat} {f : F} (hr : After rest.head?)
    {nx : Option Nat} (hnx : nx = z.head?) (h : FloatTail w fo i t nx f) (he : t ++ z = fracText n.frac ++ expText n.exp ++ rest) :
    ∀ e s ds, n.exp = some (e, s, ds) → s = none → ds.head? ≠ some 0x30 := by
  intro e s ds hx
  obtain ⟨h1, _, h3, h4⟩ := hv.exp e s ds hx
  have hnd := exp_noDig hw hv hr
  cases hf : n.frac with
  | none =>
    rw [hf, hx] at he
    cases h with
    | frac => simp [fracText, expText] at he; omega
    | fracExp => simp [fracText, expText] at he; omega
    | exp hexp => exact expo_first hnx hexp h4 h3 (by simpa [fracText, expText] using he)
  | some fs =>
    have hfd : ∀ c ∈ fs, IsDig w c := fun c hc => isDig_of hw ((hv.frac fs hf).2 c hc)
    rw [hf] at he
    cases h with
    | @frac d ds' _ hds hno h5 h6 =>
      simp only [fracText, List.cons_append, List.cons.injEq, true_and, List.append_assoc] at he
      obtain ⟨_, h7⟩ := digits_unique (a := d :: ds') (b := fs) (x := z) (y := expText n.exp ++ rest) hds hfd (hnx ▸ hno) hnd he
      rw [hnx, h7, hx] at h5 h6
      simp [expText] at h5 h6
      omega
    | @fracExp d ds' x _ _ _ hds hexp =>
      have hxd : NoDig w (x ++ z).head? := by
        intro c hc
        have : c = 0x65 ∨ c = 0x45 := by
          cases hexp with
          | plain h _ _ _ _ => simp at hc; omega
          | signed h _ _ _ => simp at hc; omega
          | bare h _ => simp at hc; omega
        rw [isDig_small hw (by omega)]; unfold Digit; omega
      have he' : (d :: ds') ++ (x ++ z) = fs ++ (expText n.exp ++ rest) := by
        simpa [fracText] using he
      obtain ⟨_, h7⟩ := digits_unique hds hfd hxd hnd he'
      rw [hx] at h7
      exact expo_first hnx hexp h4 h3 (by simpa [expText] using h7)
    | exp hexp =>
      exfalso
      cases hexp with
      | plain h _ _ _ _ => simp [fracText] at he; omega
      | signed h _ _ _ => simp [fracText] at he; omega
      | bare h _ => simp [fracText] at he; omega

theorem floatTail_start {w : Nat} {fo : FloatOps F} {i : Nat} {t : List Nat} {nx : Option Nat} {f : F}
    (h : FloatTail w fo i t nx f) : ∃ c u, t = c :: u ∧ (c = 0x2E ∨ c = 0x65 ∨ c = 0x45) := by
  cases h with
  | frac => exact ⟨_, _, rfl, Or.inl rfl⟩
  | fracExp => exact ⟨_, _, rfl, Or.inl rfl⟩
  | exp h =>
    cases h with
    | plain h _ _ _ _ => exact ⟨_, _, rfl, Or.inr h⟩
    | signed h _ _ _ => exact ⟨_, _, rfl, Or.inr h⟩
    | bare h _ => exact ⟨_, _, rfl, Or.inr h⟩

/-- A number that was read is one of those. -/
theorem numBody_taken {D : Dialect F} (hw : 8 ≤ D.w) {n : Lit} (hv : n.Valid) {signed : Bool} {t z rest : List Nat} {m : Num F}
    (hr : After rest.head?) {nx : Option Nat} (hnx : nx = z.head?) (h : NumBody D signed t nx m) (he : t ++ z = n.int ++ (fracText n.frac ++ expText n.exp) ++ rest) : LitTaken n := by
  have hnd := tail_noDig hw hv hr
  obtain ⟨c0, ds0, hi, hc0, hz⟩ := int_first hv
  have hdig := int_digits hv
  have key : ∀ {c ds x}, FirstDig D signed c → (∀ d ∈ ds, IsDig D.w d) → NoDig D.w (x : List Nat).head? →
      (c :: ds) ++ x = n.int ++ (fracText n.frac ++ expText n.exp ++ rest) →
      c :: ds = n.int ∧ c ≠ 0x30 ∧ x = fracText n.frac ++ expText n.exp ++ rest := by
    intro c ds x h1 h2 h3 h4
    have hc : IsDig D.w c := by
      rw [hi] at h4
      simp at h4
      exact h4.1 ▸ isDig_of hw hc0
    obtain ⟨h5, h6⟩ := digits_unique (w := D.w) (a := c :: ds) (b := n.int)
      (by intro d hd; rcases List.mem_cons.1 hd with rfl | hd; exact hc; exact h2 d hd) (fun d hd => isDig_of hw (hdig d hd)) h3 hnd h4
    exact ⟨h5, h1.1, h6⟩
  have he' : t ++ z = n.int ++ (fracText n.frac ++ expText n.exp ++ rest) := by rw [he, List.append_assoc]
  cases h with
  | zero hnf =>
    rw [hi] at he'
    simp only [List.cons_append, List.nil_append, List.cons.injEq] at he'
    obtain ⟨h0, he'⟩ := he'
    have := hz h0.symm
    subst this
    simp only [List.nil_append] at he'
    refine ⟨by rw [hi, ← h0]; decide, ?_⟩
    intro e s ds hx
    exfalso
    have h1 := (hv.exp e s ds hx).1
    rw [hnx, he', hx] at hnf
    obtain ⟨a, b, c⟩ := hnf
    cases hf : n.frac with
    | none => rw [hf] at b c; simp [fracText, expText] at b c; omega
    | some fs => rw [hf] at a; simp [fracText] at a
  | @zeroFrac u _ _ hft =>
    rw [hi] at he'
    simp only [List.cons_append, List.cons.injEq] at he'
    obtain ⟨h0, he'⟩ := he'
    have := hz h0.symm
    subst this
    simp only [List.nil_append] at he'
    refine ⟨by rw [hi, ← h0]; decide, ?_⟩
    intro e s ds hx
    refine ⟨floatTail_exp hw hv hr hnx hft (by simpa using he') e s ds hx, ?_⟩
    intro hf
    have h1 := (hv.exp e s ds hx).1
    rw [hf, hx] at he'
    simp [fracText, expText] at he'
    omega
  | @int c ds _ h1 h2 h3 h4 h5 =>
    obtain ⟨h6, h7, h8⟩ := key h1 h2 (hnx ▸ h4) he'
    refine ⟨by rw [← intVal_decimal hdig, ← h6]; exact h3, ?_⟩
    intro e s ds hx
    exfalso
    have h1 := (hv.exp e s ds hx).1
    rw [hnx, h8, hx] at h5
    obtain ⟨a, b, c⟩ := h5
    cases hf : n.frac with
    | none => rw [hf] at b c; simp [fracText, expText] at b c; omega
    | some fs => rw [hf] at a; simp [fracText] at a
  | @flt c ds u _ _ h1 h2 h3 h4 =>
    obtain ⟨c', u', hu, hc'⟩ := floatTail_start h4
    have hno : NoDig D.w (u ++ z).head? := by
      intro d hd
      rw [hu] at hd
      simp at hd
      rw [isDig_small hw (by omega)]; unfold Digit; omega
    obtain ⟨h6, h7, h8⟩ := key h1 h2 hno (by rw [← he', List.append_assoc])
    refine ⟨by rw [← intVal_decimal hdig, ← h6]; exact h3, ?_⟩
    intro e s ds hx
    refine ⟨floatTail_exp hw hv hr hnx h4 h8 e s ds hx, ?_⟩
    intro _ hi'
    rw [← h6] at hi'
    simp at hi'
    exact h7 hi'.1
  | bareSign _ _ =>
    exfalso
    cases z with
    | nil => rw [hi] at he'; simp at he'
    | cons x z => simp_all

theorem number_rejects {D : Dialect F} (hw : 8 ≤ D.w) {n : Lit} (hv : n.Valid) (hr : ¬ LitTaken n) : Rejects D n.text := by
  intro t' z rest v' ha hval he
  apply hr
  obtain ⟨c0, ds0, hi, hc0, _⟩ := int_first hv
  rw [lit_text] at he
  unfold Digit at hc0
  have hnum : Number D t' z.head? v' := by
    have hne := val_ne_nil hval
    have hfirst : ∀ c u, t' = c :: u → c = 0x2D ∨ (0x30 ≤ c ∧ c ≤ 0x39) := by
      intro c u h
      rw [h, hi] at he
      cases hm : n.minus <;> simp [hm] at he
      · exact Or.inr (by omega)
      · exact Or.inl he.1
    have hk : ∀ k c u, k = c :: u → (c = 0x74 ∨ c = 0x66 ∨ c = 0x6E) → ¬ Keyword D.w k t' := by
      intro k c u hk hc h
      cases t' with
      | nil => exact hne rfl
      | cons d t' =>
        have := hfirst d t' rfl
        have h1 := h.1
        rw [hk] at h1
        simp at h1
        omega
    cases hval with
    | vtrue h => exact absurd h (hk _ _ _ rfl (by simp))
    | vfalse h => exact absurd h (hk _ _ _ rfl (by simp))
    | vnull h => exact absurd h (hk _ _ _ rfl (by simp))
    | num h => exact h
    | str h => obtain ⟨u, _, hu, _⟩ := h; exact absurd (hfirst _ _ hu) (by omega)
    | arr _ => exact absurd (hfirst _ _ rfl) (by omega)
    | obj _ _ => exact absurd (hfirst _ _ rfl) (by omega)
  cases hm : n.minus with
  | false =>
    cases hnum with
    | plain _ _ hb => exact numBody_taken hw hv ha rfl hb (by simpa [hm] using he)
    | signed hs _ =>
      rw [hi, hm] at he
      simp at he
      omega
  | true =>
    cases hnum with
    | plain h1 _ _ => rw [hm] at he; simp at he; omega
    | signed hs hb =>
      rw [hm] at he
      simp only [ite_true, List.cons_append, List.nil_append, List.cons.injEq] at he
      exact numBody_taken hw hv ha rfl hb he.2

/-- Where a value ends is determined. -/
theorem val_align {A : ParseArgs F} (hA : A.Usual) {t t' z z' : List Nat} {v v' : Value F} (h : Val A.dialect t z.head? v)
    (h' : Val A.dialect t' z'.head? v') (he : t ++ z = t' ++ z') : z = z' := by
  have hj : ∀ z : List Nat, (z.map some).head?.join = z.head? := by intro z; cases z <;> rfl
  have hr : ∀ z : List Nat, Spec.Readable (z.map some) := by intro z; cases z <;> simp [Spec.Readable]
  have h1 : Complete A.dialect ((t ++ z).map some) v (z.map some) := ⟨[], t, .nil, by simp, hr z, by rw [hj]; exact h⟩
  have h2 : Complete A.dialect ((t ++ z).map some) v' (z'.map some) := ⟨[], t', .nil, by rw [he]; simp, hr z', by rw [hj]; exact h'⟩
  have := congrArg (List.filterMap id) (complete_unique hA h1 h2).2
  simpa [List.filterMap_map] using this

theorem strLit_align {D : Dialect F} {k k' s s' x x' : List Nat} (h : StrLit D k s) (h' : StrLit D k' s') (he : k ++ x = k' ++ x') : x = x' := by
  obtain ⟨u, _, rfl, hu, _⟩ := h
  obtain ⟨u', _, rfl, hu', _⟩ := h'
  simp at he
  exact (strChars_unique hu hu' he).2.2

/-- How a value of the RFC starts. -/
theorem json_first {P : Params F} {t : List Nat} {v : Value F} (h : Json P t v) :
    ∃ c u, t = c :: u ∧ ¬ IsBlank c ∧ c ≠ 0x2F ∧ c ≠ 0x5D ∧ c ≠ 0x7D := by
  unfold IsBlank
  cases h with
  | jtrue => exact ⟨_, _, rfl, by omega, by omega, by omega, by omega⟩
  | jfalse => exact ⟨_, _, rfl, by omega, by omega, by omega, by omega⟩
  | jnull => exact ⟨_, _, rfl, by omega, by omega, by omega, by omega⟩
  | num hv _ =>
    obtain ⟨c, ds, hi, hc, _⟩ := int_first hv
    unfold Digit at hc
    rw [lit_text, hi]
    split
    · exact ⟨_, _, rfl, by omega, by omega, by omega, by omega⟩
    · exact ⟨_, _, rfl, by omega, by omega, by omega, by omega⟩
  | str h =>
    obtain ⟨u, _, rfl, _⟩ := h
    exact ⟨_, _, rfl, by omega, by omega, by omega, by omega⟩
  | emptyArr => exact ⟨_, _, rfl, by omega, by omega, by omega, by omega⟩
  | arr => exact ⟨_, _, rfl, by omega, by omega, by omega, by omega⟩
  | emptyObj => exact ⟨_, _, rfl, by omega, by omega, by omega, by omega⟩
  | obj => exact ⟨_, _, rfl, by omega, by omega, by omega, by omega⟩

theorem json_noGap {P : Params F} {t : List Nat} {v : Value F} (h : Json P t v) (r : List Nat) : NoGap (t ++ r) := by
  obtain ⟨c, u, rfl, h1, h2, _⟩ := json_first h
  exact .cons ⟨h1, h2⟩

theorem val_bracket {D : Dialect F} {u : List Nat} {nx : Option Nat} {v : Value F} (h : Val D (0x5B :: u) nx v) : ∃ xs, Elems D u xs := by
  generalize he : 0x5B :: u = t at h
  cases h with
  | vtrue h => subst he; exact absurd h.1 (by simp [kTrue])
  | vfalse h => subst he; exact absurd h.1 (by simp [kFalse])
  | vnull h => subst he; exact absurd h.1 (by simp [kNull])
  | num h =>
    cases h with
    | plain h1 _ _ => simp at he; omega
    | signed h1 _ => simp at he; omega
  | str h => obtain ⟨_, _, rfl, _⟩ := h; simp at he
  | arr h => simp at he; subst he; exact ⟨_, h⟩
  | obj _ _ => simp at he

theorem val_brace {D : Dialect F} {u : List Nat} {nx : Option Nat} {v : Value F} (h : Val D (0x7B :: u) nx v) : ∃ ms, Members D u ms := by
  generalize he : 0x7B :: u = t at h
  cases h with
  | vtrue h => subst he; exact absurd h.1 (by simp [kTrue])
  | vfalse h => subst he; exact absurd h.1 (by simp [kFalse])
  | vnull h => subst he; exact absurd h.1 (by simp [kNull])
  | num h =>
    cases h with
    | plain h1 _ _ => simp at he; omega
    | signed h1 _ => simp at he; omega
  | str h => obtain ⟨_, _, rfl, _⟩ := h; simp at he
  | arr _ => simp at he
  | obj h _ => simp at he; subst he; exact ⟨_, h⟩

/-- What the code finds at an element: a value, then either the end or a comma and more. -/
def Found (D : Dialect F) (stop : Nat) (More : List Nat → Prop) (z l : List Nat) : Prop :=
  ∃ t v g r, Gap g ∧ Val D t (g ++ r).head? v ∧ t ++ (g ++ r) = l ∧ (r = stop :: z ∨ ∃ w, r = 0x2C :: (w ++ z) ∧ More w)

theorem head_append {g : List Nat} {x : Nat} (z : List Nat) : (g ++ x :: z).head? = (g ++ [x]).head? := by cases g <;> rfl

theorem punct_ne {x : Nat} (hx : x = 0x2C ∨ x = 0x5D ∨ x = 0x7D ∨ x = 0x3A) (r : List Nat) : NoGap (x :: r) :=
  .cons (by unfold IsBlank; omega)

theorem elems_found {D : Dialect F} (hw : 8 ≤ D.w) {P : Params F} {w g t r z : List Nat} {xs : List (Value F)} {v : Value F} (hg : Gap g) (ht : Json P t v)
    (h : Elems D w xs) (he : w ++ z = g ++ (t ++ r)) : Found D 0x5D (fun w => ∃ xs, Elems D w xs) z (t ++ r) := by
  have hj := json_noGap ht r
  cases h with
  | @close g0 h0 =>
    exfalso
    obtain ⟨c, u, rfl, _, _, h3, _⟩ := json_first ht
    have := (gap_unique h0 (r := 0x5D :: z) hg (by simpa using he) (punct_ne (by simp) z) hj).2
    simp at this
    exact h3 this.1.symm
  | @last g0 t0 v0 g0' h0 hv h0' =>
    have he' : g0 ++ (t0 ++ (g0' ++ 0x5D :: z)) = g ++ (t ++ r) := by rw [← he]; simp
    have := (gap_unique h0 hg he' (val_noGap hw hv _) hj).2
    exact ⟨t0, v0, g0', 0x5D :: z, h0', by rw [head_append]; exact hv, this, Or.inl rfl⟩
  | @more g0 t0 v0 g0' u xs h0 hv h0' hm =>
    have he' : g0 ++ (t0 ++ (g0' ++ 0x2C :: (u ++ z))) = g ++ (t ++ r) := by rw [← he]; simp
    have := (gap_unique h0 hg he' (val_noGap hw hv _) hj).2
    exact ⟨t0, v0, g0', 0x2C :: (u ++ z), h0', by rw [head_append]; exact hv, this, Or.inr ⟨u, rfl, _, hm⟩⟩

theorem strLit_noGap {D : Dialect F} {k s : List Nat} (h : StrLit D k s) (r : List Nat) : NoGap (k ++ r) := by
  obtain ⟨u, _, rfl, _⟩ := h
  exact .cons (by unfold IsBlank; omega)

theorem members_found {D : Dialect F} (hw : 8 ≤ D.w) {P : Params F} {w g k s g1 g2 t r z : List Nat} {ms : List (List Nat × Value F)} {v : Value F}
    (hg : Gap g) (hk : StrLit D k s) (hg1 : Gap g1) (hg2 : Gap g2) (ht : Json P t v) (h : Members D w ms)
    (he : w ++ z = g ++ (k ++ (g1 ++ 0x3A :: (g2 ++ (t ++ r))))) : Found D 0x7D (fun w => ∃ ms, Members D w ms) z (t ++ r) := by
  have hj := json_noGap ht r
  have step : ∀ {k0 s0 g0 x0 g1' r0 : List Nat} {y : Nat}, Gap g0 → StrLit D k0 s0 → Gap g1' → (y = 0x2C ∨ y = 0x5D ∨ y = 0x7D ∨ y = 0x3A) →
      g0 ++ (k0 ++ (g1' ++ y :: r0)) = g ++ (k ++ (g1 ++ 0x3A :: (g2 ++ (t ++ r)))) → y = 0x3A ∧ r0 = g2 ++ (t ++ r) := by
    intro k0 s0 g0 x0 g1' r0 y h0 hk0 h1 hy he
    have e1 := (gap_unique h0 hg he (strLit_noGap hk0 _) (strLit_noGap hk _)).2
    have e2 := strLit_align hk0 hk e1
    have e3 := (gap_unique h1 hg1 e2 (punct_ne hy _) (punct_ne (by simp) _)).2
    simpa using e3
  cases h with
  | @close g0 h0 =>
    exfalso
    have := (gap_unique h0 (r := 0x7D :: z) hg (by simpa using he) (punct_ne (by simp) z) (strLit_noGap hk _)).2
    obtain ⟨u, _, rfl, _⟩ := hk
    simp at this
  | @keyOnly g0 k0 s0 g0' h0 hk0 h0' =>
    exfalso
    have := (step (x0 := []) (y := 0x7D) (r0 := z) h0 hk0 h0' (by simp) (by rw [← he]; simp)).1
    omega
  | @last g0 k0 s0 g1' g2' t0 v0 g0' h0 hk0 h1 h2 hv h0' =>
    have e := (step (x0 := []) (y := 0x3A) (r0 := g2' ++ (t0 ++ (g0' ++ 0x7D :: z))) h0 hk0 h1 (by simp) (by rw [← he]; simp)).2
    have := (gap_unique h2 hg2 e (val_noGap hw hv _) hj).2
    exact ⟨t0, v0, g0', 0x7D :: z, h0', by rw [head_append]; exact hv, this, Or.inl rfl⟩
  | @more g0 k0 s0 g1' g2' t0 v0 g0' u ms h0 hk0 h1 h2 hv h0' hm =>
    have e := (step (x0 := []) (y := 0x3A) (r0 := g2' ++ (t0 ++ (g0' ++ 0x2C :: (u ++ z)))) h0 hk0 h1 (by simp) (by rw [← he]; simp)).2
    have := (gap_unique h2 hg2 e (val_noGap hw hv _) hj).2
    exact ⟨t0, v0, g0', 0x2C :: (u ++ z), h0', by rw [head_append]; exact hv, this, Or.inr ⟨u, rfl, _, hm⟩⟩

/-- A value that is refused is not found. -/
theorem Rejects.found {D : Dialect F} {t r z : List Nat} {stop : Nat} {More : List Nat → Prop} (h : Rejects D t) (hr : After r.head?)
    (hf : Found D stop More z (t ++ r)) : False := by
  obtain ⟨t', v, g, r', _, hv, he, _⟩ := hf
  exact h t' _ r v hr hv he

/-- Behind a value that is read the code goes on where the RFC goes on. -/
theorem Found.next {A : ParseArgs F} (hA : A.Usual) {t g u z : List Nat} {v : Value F} {stop : Nat} {More : List Nat → Prop} (hs : stop = 0x5D ∨ stop = 0x7D)
    (hg : Gap g) (ht : Val A.dialect t (g ++ [0x2C]).head? v) (hf : Found A.dialect stop More z (t ++ (g ++ 0x2C :: u))) :
    ∃ w, More w ∧ w ++ z = u := by
  obtain ⟨t', v', g', r, hg', hv, he, hr⟩ := hf
  have hz := val_align hA hv (by rw [head_append]; exact ht) he
  rcases hr with rfl | ⟨w, rfl, hm⟩
  · have := (gap_unique hg' hg hz (punct_ne (by omega) _) (punct_ne (by simp) _)).2
    simp at this
    omega
  · have := (gap_unique hg' hg hz (punct_ne (by simp) _) (punct_ne (by simp) _)).2
    simp at this
    exact ⟨w, hm, this⟩

/-- A value of the RFC is read or refused, by its numbers. -/
theorem json_exact {A : ParseArgs F} (hA : A.Usual) {ok : Lit → Prop} {t : List Nat} {v : Value F}
    (h : Json (⟨A.fo, A.dialect.store, ok⟩ : Params F) t v) :
    (Json (⟨A.fo, A.dialect.store, LitTaken⟩ : Params F) t v ∧ ∀ nx, After nx → ∃ v', Val A.dialect t nx v') ∨ (Rejects A.dialect t ∧ ∃ n, ok n ∧ ¬ LitTaken n) := by
  have hw : 8 ≤ A.dialect.w := hA.1
  have hkw : ∀ k : List Nat, (∀ c ∈ k, c < 256) → Keyword A.dialect.w k k := by
    intro k hk
    refine ⟨rfl, ?_⟩
    have : ∀ k : List Nat, (∀ c ∈ k, c < 256) → k.map (· % 2 ^ A.dialect.w) = k := by
      intro k
      induction k with
      | nil => intro _; rfl
      | cons c k ih =>
        intro h
        rw [List.map_cons, small_mod hw (h c (by simp)), ih fun c hc => h c (by simp [hc])]
    exact this k hk
  refine Json.rec (P := (⟨A.fo, A.dialect.store, ok⟩ : Params F))
    (motive_1 := fun t v _ => (Json (⟨A.fo, A.dialect.store, LitTaken⟩ : Params F) t v ∧ ∀ nx, After nx → ∃ v', Val A.dialect t nx v') ∨ (Rejects A.dialect t ∧ ∃ n, ok n ∧ ¬ LitTaken n))
    (motive_2 := fun t xs _ => (Elements (⟨A.fo, A.dialect.store, LitTaken⟩ : Params F) t xs ∧ ∃ ys, Elems A.dialect (t ++ [0x5D]) ys) ∨
      ((∀ w ys z rest, Elems A.dialect w ys → w ++ z = t ++ 0x5D :: rest → False) ∧ ∃ n, ok n ∧ ¬ LitTaken n))
    (motive_3 := fun t ms _ => (Pairs (⟨A.fo, A.dialect.store, LitTaken⟩ : Params F) t ms ∧ ∃ ns, Members A.dialect (t ++ [0x7D]) ns) ∨
      ((∀ w ns z rest, Members A.dialect w ns → w ++ z = t ++ 0x7D :: rest → False) ∧ ∃ n, ok n ∧ ¬ LitTaken n))
    ?_ ?_ ?_ ?_ ?_ ?_ ?_ ?_ ?_ ?_ ?_ ?_ ?_ h
  · exact Or.inl ⟨.jtrue, fun nx _ => ⟨_, .vtrue (hkw kTrue (by decide))⟩⟩
  · exact Or.inl ⟨.jfalse, fun nx _ => ⟨_, .vfalse (hkw kFalse (by decide))⟩⟩
  · exact Or.inl ⟨.jnull, fun nx _ => ⟨_, .vnull (hkw kNull (by decide))⟩⟩
  · intro n hv hok
    by_cases hr : LitTaken n
    · refine Or.inl ⟨.num (P := (⟨A.fo, A.dialect.store, LitTaken⟩ : Params F)) hv hr, fun nx hn => ?_⟩
      obtain ⟨v, hv⟩ := number_some (D := A.dialect) hw hv hr hn
      exact ⟨v, .num hv⟩
    · exact Or.inr ⟨number_rejects hw hv hr, n, hok, hr⟩
  · intro t s hs
    exact Or.inl ⟨.str (P := (⟨A.fo, A.dialect.store, LitTaken⟩ : Params F)) hs, fun nx _ => ⟨_, .str (str_lit hs)⟩⟩
  · intro g hg
    exact Or.inl ⟨.emptyArr hg, fun nx _ => ⟨_, .arr (.close (ws_gap hg))⟩⟩
  · intro t xs _ ih
    rcases ih with ⟨h1, ys, h2⟩ | ⟨h, hE⟩
    · exact Or.inl ⟨.arr h1, fun nx _ => ⟨_, .arr h2⟩⟩
    · refine Or.inr ⟨fun t' z rest v' _ hv he => ?_, hE⟩
      cases t' with
      | nil => exact val_ne_nil hv rfl
      | cons c u =>
        simp only [List.cons_append, List.cons.injEq, List.append_assoc, List.nil_append] at he
        obtain ⟨rfl, he⟩ := he
        obtain ⟨ys, hy⟩ := val_bracket hv
        exact h u ys z rest hy he
  · intro g hg
    exact Or.inl ⟨.emptyObj hg, fun nx _ => ⟨_, .obj (.close (ws_gap hg)) ⟨.nil, fun _ => rfl⟩⟩⟩
  · intro t ms r _ hnd hfw ih
    rcases ih with ⟨h1, ns, h2⟩ | ⟨h, hE⟩
    · exact Or.inl ⟨.obj h1 hnd hfw, fun nx _ => ⟨_, .obj h2 (addAll_firstWins ns)⟩⟩
    · refine Or.inr ⟨fun t' z rest v' _ hv he => ?_, hE⟩
      cases t' with
      | nil => exact val_ne_nil hv rfl
      | cons c u =>
        simp only [List.cons_append, List.cons.injEq, List.append_assoc, List.nil_append] at he
        obtain ⟨rfl, he⟩ := he
        obtain ⟨ns, hy⟩ := val_brace hv
        exact h u ns z rest hy he
  · intro g t v g' hg hj hg' ih
    rcases ih with ⟨h1, h2⟩ | ⟨h, hE⟩
    · obtain ⟨v', hv'⟩ := h2 _ (after_ws hg' (x := 0x5D) (by simp) [])
      exact Or.inl ⟨.one hg h1 hg', _, .last (ws_gap hg) hv' (ws_gap hg')⟩
    · refine Or.inr ⟨fun w ys z rest hy he => ?_, hE⟩
      exact h.found (after_ws hg' (x := 0x5D) (by simp) rest) (elems_found hw (ws_gap hg) hj (r := g' ++ 0x5D :: rest) hy (by rw [he]; simp))
  · intro g t v g' u xs hg hj hg' _ ih ih'
    rcases ih with ⟨h1, h2⟩ | ⟨h, hE⟩
    · obtain ⟨v', hv'⟩ := h2 _ (after_ws hg' (x := 0x2C) (by simp) [])
      rcases ih' with ⟨h3, ys, h4⟩ | ⟨h, hE⟩
      · refine Or.inl ⟨.more hg h1 hg' h3, v' :: ys, ?_⟩
        have := Elems.more (ws_gap hg) hv' (ws_gap hg') h4
        simpa using this
      · refine Or.inr ⟨fun w ys z rest hy he => ?_, hE⟩
        obtain ⟨w', ⟨ys', hw'⟩, he'⟩ := Found.next hA (by simp) (ws_gap hg') hv'
          (elems_found hw (ws_gap hg) hj (r := g' ++ 0x2C :: (u ++ 0x5D :: rest)) hy (by rw [he]; simp))
        exact h w' ys' z rest hw' he'
    · refine Or.inr ⟨fun w ys z rest hy he => ?_, hE⟩
      exact h.found (after_ws hg' (x := 0x2C) (by simp) (u ++ 0x5D :: rest))
        (elems_found hw (ws_gap hg) hj (r := g' ++ 0x2C :: (u ++ 0x5D :: rest)) hy (by rw [he]; simp))
  · intro g k s g1 g2 t v g' hg hk hg1 hg2 hj hg' ih
    have hkl : StrLit A.dialect k s := str_lit hk
    rcases ih with ⟨h1, h2⟩ | ⟨h, hE⟩
    · obtain ⟨v', hv'⟩ := h2 _ (after_ws hg' (x := 0x7D) (by simp) [])
      exact Or.inl ⟨.one hg hk hg1 hg2 h1 hg', _, .last (ws_gap hg) hkl (ws_gap hg1) (ws_gap hg2) hv' (ws_gap hg')⟩
    · refine Or.inr ⟨fun w ns z rest hy he => ?_, hE⟩
      exact h.found (after_ws hg' (x := 0x7D) (by simp) rest)
        (members_found hw (ws_gap hg) hkl (ws_gap hg1) (ws_gap hg2) hj (r := g' ++ 0x7D :: rest) hy (by rw [he]; simp))
  · intro g k s g1 g2 t v g' u ms hg hk hg1 hg2 hj hg' _ ih ih'
    have hkl : StrLit A.dialect k s := str_lit hk
    rcases ih with ⟨h1, h2⟩ | ⟨h, hE⟩
    · obtain ⟨v', hv'⟩ := h2 _ (after_ws hg' (x := 0x2C) (by simp) [])
      rcases ih' with ⟨h3, ns, h4⟩ | ⟨h, hE⟩
      · refine Or.inl ⟨.more hg hk hg1 hg2 h1 hg' h3, (s, v') :: ns, ?_⟩
        have := Members.more (ws_gap hg) hkl (ws_gap hg1) (ws_gap hg2) hv' (ws_gap hg') h4
        simpa using this
      · refine Or.inr ⟨fun w ns z rest hy he => ?_, hE⟩
        obtain ⟨w', ⟨ns', hw'⟩, he'⟩ := Found.next hA (by simp) (ws_gap hg') hv'
          (members_found hw (ws_gap hg) hkl (ws_gap hg1) (ws_gap hg2) hj (r := g' ++ 0x2C :: (u ++ 0x7D :: rest)) hy (by rw [he]; simp))
        exact h w' ns' z rest hw' he'
    · refine Or.inr ⟨fun w ns z rest hy he => ?_, hE⟩
      exact h.found (after_ws hg' (x := 0x2C) (by simp) (u ++ 0x7D :: rest))
        (members_found hw (ws_gap hg) hkl (ws_gap hg1) (ws_gap hg2) hj (r := g' ++ 0x2C :: (u ++ 0x7D :: rest)) hy (by rw [he]; simp))

/-- A text of the RFC is read if and only if its numbers are of that form. -/
theorem text_exact {A : ParseArgs F} (hA : A.Usual) {ok : Lit → Prop} {l : List Nat} {v : Value F}
    (h : Text (⟨A.fo, A.dialect.store, ok⟩ : Params F) l v) :
    (∃ v', Document A.dialect (l.map some) v') ↔ Text (⟨A.fo, A.dialect.store, LitTaken⟩ : Params F) l v := by
  have hw : 8 ≤ A.dialect.w := hA.1
  have hws : ∀ {g : List Nat}, Ws g → After g.head? := by
    intro g hg c hc
    cases g with
    | nil => cases hc
    | cons d g => simp at hc; exact Or.inl (hc ▸ hg d (by simp))
  have hhead : ∀ g : List Nat, (g.map some ++ ([] : List (Option Nat))).head?.join = g.head? := by intro g; cases g <;> rfl
  constructor
  · rintro ⟨v', g0, t0, e, more, he, hg0, hv0, _⟩
    obtain ⟨g, t, g', rfl, hg, ht, hg'⟩ := h
    refine ⟨g, t, g', rfl, hg, ?_, hg'⟩
    rcases json_exact hA ht with h | ⟨h, _⟩
    · exact h.1
    · exfalso
      have hm : ∃ m : List Nat, more = m.map some := by
        obtain ⟨_, b, _, _, hb⟩ := List.map_eq_append_iff.1 he
        exact ⟨b, hb.symm⟩
      obtain ⟨m, rfl⟩ := hm
      have hh : ((e.map some ++ m.map some).head?.join : Option Nat) = (e ++ m).head? := by
        cases e with
        | nil => cases m <;> rfl
        | cons _ _ => rfl
      rw [hh] at hv0
      have he' : g ++ (t ++ g') = g0 ++ (t0 ++ (e ++ m)) := by
        have := congrArg (List.filterMap id) he
        simpa [List.filterMap_map] using this
      have := (gap_unique (ws_gap hg) hg0 he' (json_noGap ht _) (val_noGap hw hv0 _)).2
      exact h t0 (e ++ m) g' v' (hws hg') hv0 this.symm
  · rintro ⟨g, t, g', rfl, hg, ht, hg'⟩
    rcases json_exact hA ht with ⟨_, h⟩ | ⟨_, n, h1, h2⟩
    · obtain ⟨v', hv'⟩ := h _ (hws hg')
      exact ⟨v', g, t, g', [], by simp, ws_gap hg, by rw [hhead]; exact hv', .eof (ws_gap hg')⟩
    · exact absurd h1 h2

end Configor
