import Verif.Proofs.Document
/-!
The language for another width of the source character type.
-/
namespace Configor
open Spec

variable {F : Type}

/-- What lets a derivation be carried over from width `w` to width `w'`. -/
structure Widens (w w' : Nat) (P : Nat → Prop) : Prop where
  dig : ∀ c, P c → IsDig w c → IsDig w' c
  low : ∀ c, c < 128 → IsDig w' c → IsDig w c
  key : ∀ c, P c → c % 2 ^ w < 128 → c % 2 ^ w' = c % 2 ^ w

/-- The same dialect for another width. -/
def _root_.Spec.Dialect.withWidth (D : Dialect F) (w : Nat) : Dialect F := { D with w := w }

variable {w w' : Nat} {P : Nat → Prop} {D : Dialect F}

def LowNext (nx : Option Nat) : Prop := ∀ c, nx = some c → c < 128

theorem Widens.noDig (K : Widens w w' P) {nx : Option Nat} (hn : LowNext nx) (h : NoDig w nx) : NoDig w' nx :=
  fun c hc hd => h c hc (K.low c (hn c hc) hd)

theorem Widens.digs (K : Widens w w' P) {ds : List Nat} (hp : ∀ c ∈ ds, P c) (h : ∀ d ∈ ds, IsDig w d) :
    ∀ d ∈ ds, IsDig w' d := fun d hd => K.dig d (hp d hd) (h d hd)

theorem expo_carry (K : Widens w w' P) {t : List Nat} {nx : Option Nat} {neg : Bool} {e : Nat} (h : Expo w t nx neg e)
    (hp : ∀ c ∈ t, P c) (hn : LowNext nx) : Expo w' t nx neg e := by
  cases h with
  | plain h1 h2 h3 h4 h5 =>
    exact .plain h1 (K.dig _ (hp _ (by simp)) h2) h3 (K.digs (fun c hc => hp c (by simp [hc])) h4) (K.noDig hn h5)
  | signed h1 h2 h3 h4 => exact .signed h1 h2 (K.digs (fun c hc => hp c (by simp [hc])) h3) (K.noDig hn h4)
  | bare h1 h2 => exact .bare h1 h2

theorem floatTail_carry (K : Widens w w' P) {fo : FloatOps F} {i : Nat} {t : List Nat} {nx : Option Nat} {f : F}
    (h : FloatTail w fo i t nx f) (hp : ∀ c ∈ t, P c) (hn : LowNext nx) : FloatTail w' fo i t nx f := by
  cases h with
  | frac h1 h2 h3 h4 =>
    exact .frac (K.digs (fun c hc => hp c (List.mem_cons_of_mem _ hc)) h1) (K.noDig hn h2) h3 h4
  | fracExp h1 h2 =>
    exact .fracExp (K.digs (fun c hc => hp c (List.mem_append_left _ (List.mem_cons_of_mem _ hc))) h1) (expo_carry K h2 (fun c hc => hp c (by simp [hc])) hn)
  | exp h => exact .exp (expo_carry K h hp hn)

theorem numBody_carry (K : Widens w w' P) {sg : Bool} {t : List Nat} {nx : Option Nat} {n : Num F}
    (h : NumBody (D.withWidth w) sg t nx n) (hp : ∀ c ∈ t, P c) (hn : LowNext nx) : NumBody (D.withWidth w') sg t nx n := by
  have first : ∀ c, P c → FirstDig (D.withWidth w) sg c → FirstDig (D.withWidth w') sg c := by
    intro c hc ⟨h1, h2⟩
    exact ⟨h1, h2.imp (K.dig c hc) id⟩
  cases h with
  | zero h => exact .zero h
  | zeroFrac h => exact .zeroFrac (floatTail_carry K h (fun c hc => hp c (List.mem_cons_of_mem _ hc)) hn)
  | int h1 h2 h3 h4 h5 =>
    exact .int (first _ (hp _ (by simp)) h1) (K.digs (fun c hc => hp c (by simp [hc])) h2) h3 (K.noDig hn h4) h5
  | flt h1 h2 h3 h4 =>
    exact .flt (first _ (hp _ (by simp)) h1) (K.digs (fun c hc => hp c (by simp [hc])) h2) h3
      (floatTail_carry K h4 (fun c hc => hp c (by simp [hc])) hn)
  | bareSign h1 h2 => exact .bareSign h1 h2

theorem number_carry (K : Widens w w' P) {t : List Nat} {nx : Option Nat} {v : Value F}
    (h : Number (D.withWidth w) t nx v) (hp : ∀ c ∈ t, P c) (hn : LowNext nx) : Number (D.withWidth w') t nx v := by
  cases h with
  | plain h1 h2 h3 => exact .plain h1 h2 (numBody_carry K h3 hp hn)
  | signed h1 h2 => exact .signed h1 (numBody_carry K h2 (fun c hc => hp c (List.mem_cons_of_mem _ hc)) hn)

theorem keyword_carry (K : Widens w w' P) {k t : List Nat} (hk : ∀ c ∈ k, c < 128) (h : Keyword w k t) (hp : ∀ c ∈ t, P c) :
    Keyword w' k t := by
  refine ⟨h.1, ?_⟩
  rw [← h.2]
  refine List.map_congr_left fun c hc => K.key c (hp c hc) (hk _ ?_)
  rw [← h.2]
  exact List.mem_map_of_mem hc

theorem gap_low {g r : List Nat} (hg : Gap g) (hr : LowNext r.head?) : LowNext (g ++ r).head? := by
  cases hg with
  | nil => exact hr
  | blank h => intro c hc; simp at hc; subst hc; rcases h with h | h | h | h <;> omega
  | line => intro c hc; simp at hc; omega
  | block => intro c hc; simp at hc; omega

theorem lowNext_one {c : Nat} (h : c < 128) : LowNext [c].head? := by
  intro d hd; simp at hd; omega

theorem carry_all (K : Widens w w' P) (n : Nat) :
    (∀ t nx (v : Value F), t.length < n → Val (D.withWidth w) t nx v → (∀ c ∈ t, P c) → LowNext nx → Val (D.withWidth w') t nx v) ∧
    (∀ t (xs : List (Value F)), t.length < n → Elems (D.withWidth w) t xs → (∀ c ∈ t, P c) → Elems (D.withWidth w') t xs) ∧
    (∀ t (ms : List (List Nat × Value F)), t.length < n → Members (D.withWidth w) t ms → (∀ c ∈ t, P c) →
      Members (D.withWidth w') t ms) := by
  induction n with
  | zero => exact ⟨fun _ _ _ h => absurd h (by omega), fun _ _ h => absurd h (by omega), fun _ _ h => absurd h (by omega)⟩
  | succ n ih =>
    obtain ⟨ihv, ihe, ihm⟩ := ih
    refine ⟨fun t nx v hl h hp hn => ?_, fun t xs hl h hp => ?_, fun t ms hl h hp => ?_⟩
    · cases h with
      | vtrue h => exact .vtrue (keyword_carry K (by decide) h hp)
      | vfalse h => exact .vfalse (keyword_carry K (by decide) h hp)
      | vnull h => exact .vnull (keyword_carry K (by decide) h hp)
      | num h => exact .num (number_carry K h hp hn)
      | str h => exact .str h
      | arr h => exact .arr (ihe _ _ (by simp at hl; omega) h (fun c hc => hp c (List.mem_cons_of_mem _ hc)))
      | obj h h2 => exact .obj (ihm _ _ (by simp at hl; omega) h (fun c hc => hp c (List.mem_cons_of_mem _ hc))) h2
    · cases h with
      | close h => exact .close h
      | last h1 h2 h3 =>
        exact .last h1 (ihv _ _ _ (by simp at hl; omega) h2 (fun c hc => hp c (by simp [hc])) (gap_low h3 (lowNext_one (by decide)))) h3
      | more h1 h2 h3 h4 =>
        exact .more h1 (ihv _ _ _ (by simp at hl; omega) h2 (fun c hc => hp c (by simp [hc])) (gap_low h3 (lowNext_one (by decide)))) h3
          (ihe _ _ (by simp at hl; omega) h4 (fun c hc => hp c (by simp [hc])))
    · cases h with
      | close h => exact .close h
      | keyOnly h1 h2 h3 => exact .keyOnly h1 h2 h3
      | last h1 h2 h3 h4 h5 h6 =>
        exact .last h1 h2 h3 h4 (ihv _ _ _ (by simp at hl; omega) h5 (fun c hc => hp c (by simp [hc]))
          (gap_low h6 (lowNext_one (by decide)))) h6
      | more h1 h2 h3 h4 h5 h6 h7 =>
        exact .more h1 h2 h3 h4 (ihv _ _ _ (by simp at hl; omega) h5 (fun c hc => hp c (by simp [hc]))
          (gap_low h6 (lowNext_one (by decide)))) h6 (ihm _ _ (by simp at hl; omega) h7 (fun c hc => hp c (by simp [hc])))

theorem document_carry (K : Widens w w' P) {l : List (Option Nat)} {v : Value F}
    (h : Document (D.withWidth w) l v) (hp : ∀ c, some c ∈ l → P c) : Document (D.withWidth w') l v := by
  obtain ⟨g, t, e, more, rfl, hg, hv, hf⟩ := h
  refine ⟨g, t, e, more, rfl, hg, (carry_all K (t.length + 1)).1 _ _ _ (by omega) hv (fun c hc => hp c (by simp [hc])) ?_, hf⟩
  intro c hc
  cases hf with
  | eof h =>
    have := gap_low h (r := []) (by intro d hd; simp at hd)
    cases e with
    | nil => simp at hc
    | cons d ds => simp at hc; exact this c (by simp [hc])
  | eofInLine h =>
    rename_i g' t' ht'
    have := gap_low h (r := 0x2F :: 0x2F :: t') (by intro d hd; simp at hd; omega)
    cases g' with
    | nil => simp at hc; omega
    | cons d ds => simp at hc; exact this c (by simp [hc])
  | nul h =>
    have := gap_low h (r := [0]) (by intro d hd; simp at hd; omega)
    cases e with
    | nil => simp at hc; omega
    | cons d ds => simp at hc; exact this c (by simp [hc])

/-- To a narrower type. -/
theorem carries_narrow (h8 : 8 ≤ w') (h : w' ≤ w) : Widens w w' (fun _ => True) where
  dig c _ hd := by
    have hp : 2 ^ 8 ≤ 2 ^ w' := Nat.pow_le_pow_right (by decide) h8
    have hm : c % 2 ^ w % 2 ^ w' = c % 2 ^ w' := Nat.mod_mod_of_dvd c (Nat.pow_dvd_pow 2 h)
    have hs : c % 2 ^ w % 2 ^ w' = c % 2 ^ w := Nat.mod_eq_of_lt (by have := hd.2; omega)
    unfold IsDig
    rw [← hm, hs]
    exact hd
  low c hc hd := by
    have hp : 2 ^ 8 ≤ 2 ^ w' := Nat.pow_le_pow_right (by decide) h8
    have hp' : 2 ^ w' ≤ 2 ^ w := Nat.pow_le_pow_right (by decide) h
    unfold IsDig at hd ⊢
    rw [Nat.mod_eq_of_lt (by omega)] at hd ⊢
    exact hd
  key c _ hc := by
    have hp : 2 ^ 8 ≤ 2 ^ w' := Nat.pow_le_pow_right (by decide) h8
    have hm : c % 2 ^ w % 2 ^ w' = c % 2 ^ w' := Nat.mod_mod_of_dvd c (Nat.pow_dvd_pow 2 h)
    rw [← hm, Nat.mod_eq_of_lt (by omega)]

/-- To a type of any width, if no character looks like an ASCII character to the first one. -/
theorem carries_faithful (h8 : 8 ≤ w) (h8' : 8 ≤ w') : Widens w w' (fun c => c % 2 ^ w < 128 → c < 128) where
  dig c hc hd := by
    have hp : 2 ^ 8 ≤ 2 ^ w := Nat.pow_le_pow_right (by decide) h8
    have hp' : 2 ^ 8 ≤ 2 ^ w' := Nat.pow_le_pow_right (by decide) h8'
    have := hc (by have := hd.2; omega)
    unfold IsDig at hd ⊢
    rw [Nat.mod_eq_of_lt (by omega)] at hd ⊢
    exact hd
  low c hc hd := by
    have hp : 2 ^ 8 ≤ 2 ^ w := Nat.pow_le_pow_right (by decide) h8
    have hp' : 2 ^ 8 ≤ 2 ^ w' := Nat.pow_le_pow_right (by decide) h8'
    unfold IsDig at hd ⊢
    rw [Nat.mod_eq_of_lt (by omega)] at hd ⊢
    exact hd
  key c hc h := by
    have hp : 2 ^ 8 ≤ 2 ^ w := Nat.pow_le_pow_right (by decide) h8
    have hp' : 2 ^ 8 ≤ 2 ^ w' := Nat.pow_le_pow_right (by decide) h8'
    have := hc h
    rw [Nat.mod_eq_of_lt (by omega), Nat.mod_eq_of_lt (by omega)]

end Configor
