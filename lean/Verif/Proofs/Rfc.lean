import Verif.Proofs.Document
import Verif.Spec.Rfc8259
/-! The RFC 8259 grammar is contained in the grammar of the code. -/
namespace Configor
open Spec Spec.Rfc

variable {F : Type}

theorem small_mod {w c : Nat} (hw : 8 ≤ w) (hc : c < 256) : c % 2 ^ w = c := by
  apply Nat.mod_eq_of_lt
  have : 2 ^ 8 ≤ 2 ^ w := Nat.pow_le_pow_right (by decide) hw
  simp only [Nat.reducePow] at this; omega

theorem isDig_of {w c : Nat} (hw : 8 ≤ w) (hc : Digit c) : IsDig w c := by
  unfold Digit at hc
  unfold IsDig
  rw [small_mod hw (by omega)]; exact hc

theorem isDig_small {w c : Nat} (hw : 8 ≤ w) (hc : c < 256) : IsDig w c ↔ Digit c := by
  unfold IsDig Digit
  rw [small_mod hw hc]

theorem isDig_lt {w c : Nat} (hc : c < 2 ^ w) : IsDig w c ↔ Digit c := by
  unfold IsDig Digit
  rw [Nat.mod_eq_of_lt hc]

theorem dv_digit {c : Nat} (hc : Digit c) : dv c = c - 0x30 := by
  unfold Digit at hc
  unfold dv
  omega

theorem intVal_decimal {ds : List Nat} (h : ∀ c ∈ ds, Digit c) : intVal ds = decimal ds := by
  unfold intVal decimal
  suffices ∀ a, ds.foldl (fun v c => v * 10 + dv c) a = ds.foldl (fun v c => v * 10 + (c - 0x30)) a from this 0
  induction ds with
  | nil => intro a; rw [List.foldl_nil, List.foldl_nil]
  | cons c ds ih =>
    intro a
    rw [List.foldl_cons, List.foldl_cons, dv_digit (h c (by simp))]
    exact ih (fun c hc => h c (by simp [hc])) _

theorem decimal_ge (ds : List Nat) : ∀ a, a ≤ ds.foldl (fun v c => v * 10 + (c - 0x30)) a := by
  induction ds with
  | nil => intro a; exact Nat.le_refl _
  | cons c ds ih =>
    intro a
    rw [List.foldl_cons]
    exact Nat.le_trans (by omega) (ih _)

theorem expVal_decimal {ds : List Nat} (h : ∀ c ∈ ds, Digit c) (hlt : decimal ds < 4294967296) :
    expVal ds = decimal ds := by
  unfold expVal decimal at *
  suffices ∀ a, ds.foldl (fun v c => v * 10 + (c - 0x30)) a < 4294967296 →
      ds.foldl (fun v c => (v * 10 + dv c) % 4294967296) a = ds.foldl (fun v c => v * 10 + (c - 0x30)) a from this 0 hlt
  clear hlt
  induction ds with
  | nil => intro a _; rw [List.foldl_nil, List.foldl_nil]
  | cons c ds ih =>
    intro a hlt
    rw [List.foldl_cons] at hlt
    have := decimal_ge ds (a * 10 + (c - 0x30))
    rw [List.foldl_cons, List.foldl_cons, dv_digit (h c (by simp)), Nat.mod_eq_of_lt (by omega)]
    exact ih (fun c hc => h c (by simp [hc])) _ hlt

/-- What can follow a value. -/
def After (nx : Option Nat) : Prop :=
  ∀ c, nx = some c → IsBlank c ∨ c = 0x2F ∨ c = 0x2C ∨ c = 0x5D ∨ c = 0x7D

theorem After.noDig {nx : Option Nat} (h : After nx) {w : Nat} (hw : 8 ≤ w) : NoDig w nx := by
  intro c hc
  have := h c hc
  unfold IsBlank at this
  rw [isDig_small hw (by omega)]
  unfold Digit
  omega

theorem After.ne {nx : Option Nat} (h : After nx) {x : Nat} (hx : x = 0x2E ∨ x = 0x65 ∨ x = 0x45) : nx ≠ some x := by
  intro hc
  have := h x hc
  unfold IsBlank at this
  omega

theorem After.noFloat {nx : Option Nat} (h : After nx) : NoFloat nx :=
  ⟨h.ne (by simp), h.ne (by simp), h.ne (by simp)⟩

/-- The numbers the code can read: the integer part fits 64 bits, the exponent fits 32 bits;
an exponent without sign does not start with `0`, and an exponent does not directly follow
the integer part `0`. -/
structure Readable (n : Lit) : Prop where
  int : decimal n.int ≤ intMax
  exp : ∀ e s ds, n.exp = some (e, s, ds) → decimal ds < 4294967296 ∧ (s = none → ds.head? ≠ some 0x30) ∧
    (n.frac = none → n.int ≠ [0x30])

theorem expo_of {w : Nat} (hw : 8 ≤ w) {e : Nat} {s : Option Nat} {ds : List Nat} {nx : Option Nat} (hn : After nx)
    (he : e = 0x65 ∨ e = 0x45) (hs : ∀ sg, s = some sg → sg = 0x2B ∨ sg = 0x2D) (hne : ds ≠ [])
    (hds : ∀ d ∈ ds, Digit d) (hlt : decimal ds < 4294967296) (h0 : s = none → ds.head? ≠ some 0x30) :
    Expo w (e :: s.toList ++ ds) nx (s == some 0x2D) (decimal ds) := by
  rw [← expVal_decimal hds hlt]
  cases ds with
  | nil => exact absurd rfl hne
  | cons c ds =>
    have hdd : ∀ d ∈ ds, IsDig w d := fun d hd => isDig_of hw (hds d (by simp [hd]))
    cases s with
    | none => exact .plain he (isDig_of hw (hds c (by simp))) (by simpa using h0 rfl) hdd (hn.noDig hw)
    | some sg =>
      have := Expo.signed (w := w) (c := c) he (hs sg rfl) hdd (hn.noDig hw)
      simpa using this

/-- The value of the part of a float after its integer part. -/
def tailVal (fo : FloatOps F) (i : Nat) (f : Option (List Nat)) (e : Option (Nat × Option Nat × List Nat)) : F :=
  let m := match f with | none => fo.ofInt i | some ds => fracVal fo i ds
  match e with
  | none => m
  | some (_, s, ds) => fo.mul m (scale fo (s == some 0x2D) (decimal ds))

/-- The text of a fraction. -/
def fracText (f : Option (List Nat)) : List Nat := match f with | none => [] | some ds => 0x2E :: ds
/-- The text of an exponent. -/
def expText (e : Option (Nat × Option Nat × List Nat)) : List Nat :=
  match e with | none => [] | some (e, s, ds) => e :: s.toList ++ ds

theorem floatTail_of (fo : FloatOps F) {w : Nat} (hw : 8 ≤ w) {n : Lit} (hv : n.Valid) (hr : Readable n) {nx : Option Nat}
    (hn : After nx) (h : n.frac ≠ none ∨ n.exp ≠ none) (i : Nat) :
    FloatTail w fo i (fracText n.frac ++ expText n.exp) nx (tailVal fo i n.frac n.exp) := by
  have hf := hv.frac
  have hx := hv.exp
  have hrx := hr.exp
  revert h hf hx hrx
  generalize n.frac = f
  generalize n.exp = x
  intro h hf hx hrx
  cases f with
  | none =>
    rcases x with _ | ⟨e, s, ds⟩
    · simp at h
    · obtain ⟨h1, h2, h3, h4⟩ := hx e s ds rfl
      obtain ⟨h5, h6, _⟩ := hrx e s ds rfl
      exact .exp (expo_of hw hn h1 h2 h3 h4 h5 h6)
  | some fs =>
    obtain ⟨h1, h2⟩ := hf fs rfl
    cases fs with
    | nil => exact absurd rfl h1
    | cons d fs =>
      have hdd : ∀ c ∈ d :: fs, IsDig w c := fun c hc => isDig_of hw (h2 c hc)
      rcases x with _ | ⟨e, s, ds⟩
      · simp only [fracText, expText, List.append_nil, tailVal]
        exact .frac hdd (hn.noDig hw) (hn.ne (by simp)) (hn.ne (by simp))
      · obtain ⟨h1, h2, h3, h4⟩ := hx e s ds rfl
        obtain ⟨h5, h6, _⟩ := hrx e s ds rfl
        exact .fracExp hdd (expo_of hw hn h1 h2 h3 h4 h5 h6)

/-- The value of a number without its sign. -/
def litNum (fo : FloatOps F) (n : Lit) : Num F :=
  match n.frac, n.exp with
  | none, none => .int (decimal n.int)
  | f, e => .flt (tailVal fo (decimal n.int) f e)

theorem lit_value (fo : FloatOps F) (n : Lit) : n.value fo = (litNum fo n).value fo n.minus := by
  unfold Lit.value litNum
  rcases n with ⟨m, i, _ | f, _ | ⟨e, s, ds⟩⟩ <;> rfl

theorem numBody_of {D : Dialect F} (hw : 8 ≤ D.w) {n : Lit} (hv : n.Valid) (hr : Readable n) {nx : Option Nat} (hn : After nx)
    (signed : Bool) : NumBody D signed (n.int ++ (fracText n.frac ++ expText n.exp)) nx (litNum D.fo n) := by
  have hno : ∀ (hf : n.frac = none) (hx : n.exp = none), fracText n.frac ++ expText n.exp = [] ∧
      litNum D.fo n = .int (decimal n.int) := by
    intro hf hx
    unfold litNum fracText expText
    rw [hf, hx]
    exact ⟨rfl, rfl⟩
  have hfl : n.frac ≠ none ∨ n.exp ≠ none → litNum D.fo n = .flt (tailVal D.fo (decimal n.int) n.frac n.exp) := by
    intro h
    unfold litNum
    revert h
    generalize n.frac = f
    generalize n.exp = x
    intro h
    cases f <;> cases x <;> first | rfl | simp at h
  rcases hv.int with hi | ⟨c, ds, hi, h1, h2, h3⟩
  · by_cases hf : n.frac = none
    · by_cases hx : n.exp = none
      · rw [(hno hf hx).1, (hno hf hx).2, hi]
        exact .zero hn.noFloat
      · obtain ⟨⟨e, s, ds⟩, hx⟩ := Option.ne_none_iff_exists'.mp hx
        exact absurd hi ((hr.exp e s ds hx).2.2 hf)
    · obtain ⟨fs, hfs⟩ := Option.ne_none_iff_exists'.mp hf
      have ht := floatTail_of D.fo hw hv hr hn (Or.inl hf) (decimal n.int)
      rw [hfl (Or.inl hf), hi]
      rw [hi] at ht
      rw [hfs] at ht ⊢
      exact .zeroFrac ht
  · have hdig : ∀ x ∈ c :: ds, Digit x := by
      intro x hx
      rcases List.mem_cons.mp hx with rfl | hx
      · exact ⟨by omega, h2⟩
      · exact h3 x hx
    have hiv : intVal (c :: ds) = decimal (c :: ds) := intVal_decimal hdig
    have hfd : FirstDig D signed c := ⟨by omega, Or.inl (isDig_of hw (hdig c (by simp)))⟩
    have hds : ∀ d ∈ ds, IsDig D.w d := fun d hd => isDig_of hw (h3 d hd)
    have hmax := hr.int
    rw [hi, ← hiv] at hmax
    by_cases h : n.frac ≠ none ∨ n.exp ≠ none
    · have ht := floatTail_of D.fo hw hv hr hn h (decimal n.int)
      rw [hfl h, hi]
      rw [hi, ← hiv] at ht
      rw [← hiv]
      exact .flt hfd hds hmax ht
    · have hf : n.frac = none := by
        cases hq : n.frac with
        | none => rfl
        | some _ => exact absurd (Or.inl (by simp [hq])) h
      have hx : n.exp = none := by
        cases hq : n.exp with
        | none => rfl
        | some _ => exact absurd (Or.inr (by simp [hq])) h
      rw [(hno hf hx).1, (hno hf hx).2, hi, ← hiv, List.append_nil]
      exact .int hfd hds hmax (hn.noDig hw) hn.noFloat

theorem number_of {D : Dialect F} (hw : 8 ≤ D.w) {n : Lit} (hv : n.Valid) (hr : Readable n) {nx : Option Nat} (hn : After nx) :
    Number D n.text nx (n.value D.fo) := by
  have ht : n.text = (if n.minus then [0x2D] else []) ++ (n.int ++ (fracText n.frac ++ expText n.exp)) := by
    unfold Lit.text fracText expText
    rcases n with ⟨m, i, _ | f, _ | ⟨e, s, ds⟩⟩ <;> simp
  rw [ht, lit_value]
  cases hm : n.minus with
  | false =>
    have := numBody_of hw hv hr hn false
    obtain ⟨c, ds, hi, h1, h2⟩ : ∃ c ds, n.int = c :: ds ∧ 0x30 ≤ c ∧ c ≤ 0x39 := by
      rcases hv.int with h | ⟨c, ds, h, h1, h2, _⟩
      · exact ⟨0x30, [], h, by decide, by decide⟩
      · exact ⟨c, ds, h, by omega, h2⟩
    rw [hi] at this ⊢
    exact .plain h1 h2 this
  | true => exact .signed (Or.inr rfl) (numBody_of hw hv hr hn true)

theorem chars_str {u cps : List Nat} (h : Chars u cps) : StrChars (u ++ [0x22]) cps := by
  induction h with
  | nil => exact .close
  | raw h1 h2 h3 _ ih => exact .raw h1 h2 h3 ih
  | esc h1 _ ih => exact .esc h1 ih
  | uni h1 h2 _ ih => rw [List.append_assoc]; exact .uni h1 (by omega) ih
  | pair h1 h2 h3 h4 _ ih =>
    rw [List.append_assoc, List.append_assoc]
    exact .pair h1 h2 h3 h4 ih

theorem ws_gap {g : List Nat} (h : Ws g) : Gap g := by
  induction g with
  | nil => exact .nil
  | cons c g ih => exact .blank (h c (by simp)) (ih fun c hc => h c (by simp [hc]))

theorem after_ws {g : List Nat} (h : Ws g) {x : Nat} (hx : x = 0x2C ∨ x = 0x5D ∨ x = 0x7D) (r : List Nat) :
    After (g ++ x :: r).head? := by
  intro c hc
  cases g with
  | nil => simp at hc; omega
  | cons d g =>
    simp at hc
    exact Or.inl (hc ▸ h d (by simp))

/-- What a call can read. -/
def rfcParams (D : Dialect F) : Params F := ⟨D.fo, D.store, Readable⟩

theorem str_lit {D : Dialect F} {t s : List Nat} (h : Str D.store t s) : StrLit D t s := by
  obtain ⟨u, cps, rfl, h1, h2⟩ := h
  exact ⟨u ++ [0x22], cps, rfl, chars_str h1, h2⟩

theorem json_val {D : Dialect F} (hw : 8 ≤ D.w) {t : List Nat} {v : Value F} (h : Json (rfcParams D) t v) :
    ∀ nx, After nx → Val D t nx v := by
  have hkw : ∀ k : List Nat, (∀ c ∈ k, c < 256) → Keyword D.w k k := by
    intro k hk
    refine ⟨rfl, ?_⟩
    have : ∀ k : List Nat, (∀ c ∈ k, c < 256) → k.map (· % 2 ^ D.w) = k := by
      intro k
      induction k with
      | nil => intro _; rfl
      | cons c k ih =>
        intro h
        rw [List.map_cons, small_mod hw (h c (by simp)), ih fun c hc => h c (by simp [hc])]
    exact this k hk
  refine Json.rec (P := rfcParams D) (motive_1 := fun t v _ => ∀ nx, After nx → Val D t nx v)
    (motive_2 := fun t xs _ => Elems D (t ++ [0x5D]) xs)
    (motive_3 := fun t ms _ => Members D (t ++ [0x7D]) ms)
    ?_ ?_ ?_ ?_ ?_ ?_ ?_ ?_ ?_ ?_ ?_ ?_ ?_ h
  · intro nx _; exact .vtrue (hkw kTrue (by decide))
  · intro nx _; exact .vfalse (hkw kFalse (by decide))
  · intro nx _; exact .vnull (hkw kNull (by decide))
  · intro n hv hr nx hn; exact .num (number_of hw hv hr hn)
  · intro t s hs nx _; exact .str (str_lit hs)
  · intro g hg nx _; exact .arr (.close (ws_gap hg))
  · intro t xs _ ih nx _; exact .arr ih
  · intro g hg nx _
    exact .obj (.close (ws_gap hg)) ⟨.nil, fun _ => rfl⟩
  · intro t ms r _ _ hf ih nx _; exact .obj ih hf
  · intro g t v g' hg _ hg' ih
    exact .last (ws_gap hg) (ih _ (after_ws hg' (by simp) _)) (ws_gap hg')
  · intro g t v g' u xs hg _ hg' _ ih ih'
    have := Elems.more (ws_gap hg) (ih _ (after_ws hg' (x := 0x2C) (by simp) [])) (ws_gap hg') ih'
    simpa using this
  · intro g k s g1 g2 t v g' hg hk hg1 hg2 _ hg' ih
    exact .last (ws_gap hg) (str_lit hk) (ws_gap hg1) (ws_gap hg2) (ih _ (after_ws hg' (by simp) _)) (ws_gap hg')
  · intro g k s g1 g2 t v g' u ms hg hk hg1 hg2 _ hg' _ ih ih'
    have := Members.more (ws_gap hg) (str_lit hk) (ws_gap hg1) (ws_gap hg2) (ih _ (after_ws hg' (x := 0x2C) (by simp) [])) (ws_gap hg') ih'
    simpa using this

theorem text_document {D : Dialect F} (hw : 8 ≤ D.w) {l : List Nat} {v : Value F} (h : Text (rfcParams D) l v) :
    Document D (l.map some) v := by
  obtain ⟨g, t, g', rfl, hg, ht, hg'⟩ := h
  refine ⟨g, t, g', [], by simp, ws_gap hg, json_val hw ht _ ?_, .eof (ws_gap hg')⟩
  intro c hc
  cases g' with
  | nil => cases hc
  | cons d g' =>
    simp at hc
    exact Or.inl (hc ▸ hg' d (by simp))

end Configor
