import Verif.Proofs.LexRun
/-! Completeness of the scanner: numbers. -/
namespace Configor
open Lexer Spec

variable {F α β : Type} {C : Cfg CpS F} {l k : List (Option Nat)} {d : Data F}

theorem mod_small (H : Canon C) {c : Nat} (h : c < 256) : c % 2 ^ C.w = c := by
  have : (2:Nat) ^ 8 ≤ 2 ^ C.w := Nat.pow_le_pow_right (by decide) H.w
  simp only [Nat.reducePow] at this
  exact Nat.mod_eq_of_lt (by omega)

theorem isDig_ne (H : Canon C) {c x : Nat} (h : IsDig C.w c) (hx : x < 256) (hn : x < 0x30 ∨ 0x39 < x) : c ≠ x := by
  rintro rfl
  unfold IsDig at h
  rw [mod_small H hx] at h
  omega

theorem not_isDig (hk : Ok k) (h : NoDig C.w (look k)) : ¬ IsDig C.w (hd k) := by
  rcases look_eq hk with ⟨_, rfl⟩ | ⟨h1, _⟩
  · exact not_isDig_zero _
  · exact h _ h1

theorem isDigit_false {c : Nat} (h : ¬ IsDig C.w c) : ¬ isDigit C c = true := by
  rwa [isDigit_iff]

theorem hd_ne (hk : Ok k) {x : Nat} (hx : x ≠ 0) (h : look k ≠ some x) : hd k ≠ x := by
  rcases look_eq hk with ⟨_, rfl⟩ | ⟨h1, _⟩
  · exact fun h => hx h.symm
  · rintro rfl; exact h h1

theorem run_exponentDigits (H : Canon C) (ds : List Nat) (n e : Nat) (hl : l.tail = txt ds k) (ho : Ok k)
    (hds : ∀ c ∈ ds, IsDig C.w c) (hk : NoDig C.w (look k)) (hn : ds.length + 1 ≤ n) :
    Runs (exponentDigits C n e) l d fun a l' d' => a = ds.foldl expStep e ∧ l' = k ∧ d' = d := by
  induction ds generalizing n e l with
  | nil =>
    cases n with
    | zero => simp at hn
    | succ n =>
      unfold exponentDigits
      refine .bind (.readNext H (by rw [hl]; exact ho) (.no ?_ (.pure ⟨rfl, hl, rfl⟩)))
      rw [hl]; exact isDigit_false (not_isDig ho hk)
  | cons c ds ih =>
    cases n with
    | zero => simp at hn
    | succ n =>
      unfold exponentDigits
      refine .bind (.readNext H (by rw [hl]; exact ho.txt _) (.yes ?_ ((ih (l := l.tail) n _ ?_ ?_ ?_).imp ?_)))
      · rw [hl, isDigit_iff]; exact hds c (by simp)
      · rw [hl]; rfl
      · exact fun c hc => hds c (by simp [hc])
      · simpa using hn
      · rintro a l' d' ⟨rfl, h⟩
        refine ⟨?_, h⟩
        rw [expStep_eq, hl, List.foldl_cons]
        rfl

theorem run_exponentValue (H : Canon C) (neg : Bool) (ds : List Nat) (hl : l.tail = txt ds k) (ho : Ok k)
    (hds : ∀ c ∈ ds, IsDig C.w c) (hk : NoDig C.w (look k)) (hb : ds.length + 1 ≤ C.bound) :
    Runs (exponentValue C neg) l d fun a l' d' => a = .valueFloat ∧ l' = k ∧
      d' = { d with numF := C.fo.mul d.numF (scale C.fo neg (expVal (hd l :: ds))) } := by
  unfold exponentValue
  refine .bind (.cur (.bind ((run_exponentDigits H ds _ _ hl ho hds hk hb).imp ?_)))
  rintro _ _ d ⟨rfl, rfl, rfl⟩
  refine .bind (.modify (d' := { d with numF := C.fo.mul d.numF (scale C.fo neg (expVal (hd l :: ds))) }) ?_ (.pure ⟨rfl, rfl, rfl⟩))
  rw [digitVal_eq, ← expVal_cons, powLoop_scale]
  rfl

theorem run_scanExponent (H : Canon C) {x : List Nat} {neg : Bool} {e : Nat} (hx : Expo C.w x (look k) neg e)
    (ho : Ok k) (hb : x.length + 1 ≤ C.bound) :
    Runs (scanExponent C) (txt x k) d fun a l' d' => a = .valueFloat ∧ l' = k ∧
      d' = { d with numF := C.fo.mul d.numF (scale C.fo neg e) } := by
  generalize hnx : look k = nx at hx
  unfold scanExponent
  cases hx with
  | @plain e c ds nx he hc hc0 hds hnd =>
    refine .bind (.cur ?_)
    rw [assert_true (by simpa using he)]
    refine .bind (.pure (.bind (.next H (.cons _ _) (.no ?_ (.no ?_ ?_)))))
    · simp [(isDigit_iff (C := C) c).2 hc, hc0]
    · have h1 := isDig_ne (x := 0x2B) H hc (by decide) (by decide)
      have h2 := isDig_ne (x := 0x2D) H hc (by decide) (by decide)
      simp [h1, h2]
    · refine run_exponentValue H false ds rfl ho hds (by rw [hnx]; exact hnd) ?_
      simp at hb; omega
  | @signed e sg c ds nx he hsg hds hnd =>
    refine .bind (.cur ?_)
    rw [assert_true (by simpa using he)]
    refine .bind (.pure (.bind (.next H (.cons _ _) (.no ?_ (.yes ?_ (.bind (.next H (.cons _ _) ?_)))))))
    · rcases hsg with rfl | rfl <;> simp
    · rcases hsg with rfl | rfl <;> simp
    · refine run_exponentValue H _ ds rfl ho hds (by rw [hnx]; exact hnd) ?_
      simp at hb; omega
  | @bare e sg he hsg =>
    have hk : k = [] := by
      rcases look_eq ho with ⟨_, h⟩ | ⟨h, _⟩
      · exact h
      · rw [h] at hnx; cases hnx
    subst hk
    refine .bind (.cur ?_)
    rw [assert_true (by simpa using he)]
    refine .bind (.pure (.bind (.next H (.cons _ _) (.no ?_ (.yes ?_ (.bind (.next H Ok.nil ?_)))))))
    · rcases hsg with rfl | rfl <;> simp
    · rcases hsg with rfl | rfl <;> simp
    · refine run_exponentValue (l := []) H _ [] rfl ho (by simp) (fun c hc => by cases hc) ?_
      simp at hb ⊢; omega

theorem expo_hd {w e : Nat} {x : List Nat} {nx : Option Nat} {neg : Bool} (h : Expo w x nx neg e)
    (k : List (Option Nat)) : hd (txt x k) = 0x65 ∨ hd (txt x k) = 0x45 := by
  cases h with
  | plain he => rcases he with rfl | rfl <;> simp
  | signed he => rcases he with rfl | rfl <;> simp
  | bare he => rcases he with rfl | rfl <;> simp

theorem run_fractionLoop (H : Canon C) (ds x : List Nat) (n : Nat) (f : F) (hl : l.tail = txt ds (txt x k)) (ho : Ok k)
    (hds : ∀ c ∈ ds, IsDig C.w c) (hn : ds.length + 1 ≤ n) (r : F)
    (hx : (x = [] ∧ NoDig C.w (look k) ∧ look k ≠ some 0x65 ∧ look k ≠ some 0x45 ∧
        r = fracLoop C.fo d.numF f ds) ∨
      (∃ neg e, Expo C.w x (look k) neg e ∧ x.length + 1 ≤ C.bound ∧
        r = C.fo.mul (fracLoop C.fo d.numF f ds) (scale C.fo neg e))) :
    Runs (fractionLoop C n f) l d fun a l' d' => a = .valueFloat ∧ l' = k ∧ d' = { d with numF := r } := by
  induction ds generalizing n f l d with
  | nil =>
    cases n with
    | zero => simp at hn
    | succ n =>
      unfold fractionLoop
      refine .bind (.readNext H (by rw [hl]; exact ho.txt _) ?_)
      rcases hx with ⟨rfl, h1, h2, h3, rfl⟩ | ⟨neg, e, h1, h2, rfl⟩
      · rw [txt_nil, txt_nil] at hl
        rw [hl]
        refine .no ?_ (.no (isDigit_false (not_isDig ho h1)) (.pure ⟨rfl, rfl, rfl⟩))
        simp [hd_ne ho (by decide) h2, hd_ne ho (by decide) h3]
      · rw [txt_nil] at hl
        rw [hl]
        exact .yes (by simpa using expo_hd h1 k) (run_scanExponent H h1 ho h2)
  | cons c ds ih =>
    cases n with
    | zero => simp at hn
    | succ n =>
      unfold fractionLoop
      have hc := hds c (by simp)
      refine .bind (.readNext H (by rw [hl]; exact (ho.txt _).txt _) ?_)
      rw [hl]
      refine .no ?_ (.yes ((isDigit_iff _).2 hc) (.bind (.modify
        (d' := { d with numF := C.fo.add d.numF (C.fo.mul (C.fo.ofInt (dv c)) (C.fo.mul f C.fo.tenth)) }) ?_ ?_)))
      · have h1 := isDig_ne (x := 0x65) H hc (by decide) (by decide)
        have h2 := isDig_ne (x := 0x45) H hc (by decide) (by decide)
        simp [h1, h2]
      · rw [digitVal_eq]; rfl
      · refine ih (l := txt (c :: ds) (txt x k)) n _ rfl (fun c hc => hds c (by simp [hc])) (by simpa using hn) ?_
        rcases hx with ⟨h0, h1, h2, h3, h4⟩ | ⟨neg, e, h1, h2, h3⟩
        · exact Or.inl ⟨h0, h1, h2, h3, h4⟩
        · exact Or.inr ⟨neg, e, h1, h2, h3⟩

theorem run_scanFloat (H : Canon C) (i : Nat) (hi : d.numI = i) {t : List Nat} {r : F}
    (ht : FloatTail C.w C.fo i t (look k) r) (ho : Ok k) (hb : t.length + 1 ≤ C.bound) :
    Runs (scanFloat C) (txt t k) d fun a l' d' => a = .valueFloat ∧ l' = k ∧ d' = { d with numF := r } := by
  unfold scanFloat
  refine .bind (.modify (d' := { d with numF := C.fo.ofInt i }) (by rw [← hi]; rfl) (.bind (.cur ?_)))
  generalize hnx : look k = nx at ht
  cases ht with
  | @exp x nx neg e hx =>
    subst hnx
    exact .yes (by simpa using expo_hd hx k) (run_scanExponent H hx ho hb)
  | @frac c ds nx hds h1 h2 h3 =>
    subst hnx
    have hc := hds c (by simp)
    refine .no (by simp) ?_
    rw [assert_true (by simp)]
    refine .bind (.pure (.bind (.next H (.cons _ _) (.no ?_ (.bind (.modify
      (d' := { d with numF := C.fo.add (C.fo.ofInt i) (C.fo.mul (C.fo.ofInt (dv c)) C.fo.tenth) }) ?_ ?_))))))
    · simp [(isDigit_iff (C := C) c).2 hc]
    · rw [digitVal_eq]; rfl
    · exact run_fractionLoop (l := txt (c :: ds) k) H ds [] _ _ rfl ho (fun c hc => hds c (by simp [hc])) (by simp at hb; omega) _
        (Or.inl ⟨rfl, h1, h2, h3, rfl⟩)
  | @fracExp c ds x nx neg e hds h1 =>
    subst hnx
    have hc := hds c (by simp)
    simp only [List.cons_append, txt_cons, txt_append]
    refine .no (by simp) ?_
    rw [assert_true (by simp)]
    refine .bind (.pure (.bind (.next H (.cons _ _) (.no ?_ (.bind (.modify
      (d' := { d with numF := C.fo.add (C.fo.ofInt i) (C.fo.mul (C.fo.ofInt (dv c)) C.fo.tenth) }) ?_ ?_))))))
    · simp [(isDigit_iff (C := C) c).2 hc]
    · rw [digitVal_eq]; rfl
    · exact run_fractionLoop (l := txt (c :: ds) (txt x k)) H ds x _ _ rfl ho (fun c hc => hds c (by simp [hc])) (by simp at hb; omega) _
        (Or.inr ⟨neg, e, h1, by simp at hb; omega, rfl⟩)

theorem intVal_le_append (hist ds : List Nat) : intVal hist ≤ intVal (hist ++ ds) := by
  induction ds generalizing hist with
  | nil => rw [List.append_nil]; exact Nat.le_refl _
  | cons c ds ih =>
    have h1 := ih (hist ++ [c])
    rw [intVal_snoc, List.append_assoc] at h1
    simp only [List.singleton_append] at h1
    omega

theorem floatTail_hd {w i : Nat} {fo : FloatOps F} {t : List Nat} {nx : Option Nat} {f : F}
    (h : FloatTail w fo i t nx f) (k : List (Option Nat)) :
    hd (txt t k) = 0x2E ∨ hd (txt t k) = 0x65 ∨ hd (txt t k) = 0x45 := by
  cases h with
  | frac => simp
  | fracExp => simp
  | exp h => exact Or.inr (expo_hd h k)

theorem run_integerLoop (H : Canon C) (n : Nat) (hist ds u : List Nat)
    (hi : d.numI = (intVal hist : Nat)) (hmax : intVal (hist ++ ds) ≤ intMax)
    (hl : l.tail = txt ds (txt u k)) (ho : Ok k) (hds : ∀ c ∈ ds, IsDig C.w c) (hn : ds.length + 1 ≤ n)
    (hu : (u = [] ∧ NoDig C.w (look k) ∧ NoFloat (look k)) ∨
      (∃ f, FloatTail C.w C.fo (intVal (hist ++ ds)) u (look k) f ∧ u.length + 1 ≤ C.bound)) :
    Runs (integerLoop C n) l d fun a l' d' => l' = k ∧ d'.neg = d.neg ∧
      ((u = [] ∧ a = .valueInteger ∧ d'.numI = (intVal (hist ++ ds) : Nat)) ∨
        (a = .valueFloat ∧ FloatTail C.w C.fo (intVal (hist ++ ds)) u (look k) d'.numF ∧
          ∀ f, FloatTail C.w C.fo (intVal (hist ++ ds)) u (look k) f → d'.numF = f)) := by
  induction ds generalizing n hist l d with
  | nil =>
    cases n with
    | zero => simp at hn
    | succ n =>
      unfold integerLoop
      refine .bind (.readNext H (by rw [hl]; exact ho.txt _) ?_)
      rw [txt_nil] at hl
      rw [hl]
      rcases hu with ⟨rfl, h1, h2, h3, h4⟩ | ⟨f, h1, h2⟩
      · refine .no ?_ (.no (isDigit_false (not_isDig ho h1)) (.pure ⟨rfl, rfl, Or.inl ⟨rfl, rfl, by rw [List.append_nil]; exact hi⟩⟩))
        have e2 := hd_ne ho (by decide) h2
        have e3 := hd_ne ho (by decide) h3
        have e4 := hd_ne ho (by decide) h4
        simp [e2, e3, e4]
      · have := floatTail_hd h1 k
        rw [List.append_nil] at h1 ⊢
        refine .yes (by simpa [or_assoc] using this) ?_
        obtain ⟨a, l', d', h3, rfl, rfl, rfl⟩ := run_scanFloat H _ hi h1 ho h2
        refine ⟨_, _, _, h3, rfl, rfl, Or.inr ⟨rfl, h1, ?_⟩⟩
        intro f' hf'
        obtain ⟨a, l', d', h4, rfl, rfl, rfl⟩ := run_scanFloat H _ hi hf' ho h2
        rw [h3] at h4
        simp [At] at h4
        exact h4
  | cons c ds ih =>
    cases n with
    | zero => simp at hn
    | succ n =>
      have hc := hds c (by simp)
      unfold integerLoop
      refine .bind (.readNext H (by rw [hl]; exact (ho.txt _).txt _) ?_)
      rw [hl]
      refine .no ?_ (.yes ((isDigit_iff _).2 hc) (.bind (.gets ?_)))
      · have h1 := isDig_ne (x := 0x2E) H hc (by decide) (by decide)
        have h2 := isDig_ne (x := 0x65) H hc (by decide) (by decide)
        have h3 := isDig_ne (x := 0x45) H hc (by decide) (by decide)
        simp [h1, h2, h3]
      have e : hist ++ c :: ds = (hist ++ [c]) ++ ds := by simp
      rw [e] at hmax hu ⊢
      have hv : (At (txt (c :: ds) (txt u k)) d).numI * 10 + (digitVal (hd (txt (c :: ds) (txt u k))) : Int) = (intVal (hist ++ [c]) : Nat) := by
        rw [digitVal_eq, intVal_snoc]
        simp [At, hi]
      simp only [hv]
      refine .no ?_ (.bind (.modify (d' := { d with numI := (intVal (hist ++ [c]) : Nat) }) rfl ?_))
      · have := intVal_le_append (hist ++ [c]) ds
        unfold intMax at hmax
        unfold i64max
        omega
      · exact ih (l := txt (c :: ds) (txt u k)) n (hist ++ [c]) rfl hmax rfl (fun c hc => hds c (by simp [hc])) (by simpa using hn) hu

/-- What the scanner remembers of a number. -/
theorem run_numberBody (H : Canon C) (signed : Bool) (hi : d.numI = 0) {t : List Nat} {n : Num F}
    (ht : NumBody C.dialect signed t (look k) n) (ho : Ok k) (hb : t.length + 1 ≤ C.bound) :
    Runs (numberBody C) (txt t k) d fun a l' d' => l' = k ∧ d'.neg = d.neg ∧ NumRes a d' n := by
  generalize hnx : look k = nx at ht
  -- digits and what follows
  have main : ∀ (l : List (Option Nat)) (ds u : List Nat), hd l ≠ 0x30 → l.tail = txt ds (txt u k) →
      (IsDig C.w (hd l) ∨ C.debug = false) → (∀ c ∈ ds, IsDig C.w c) → intVal (hd l :: ds) ≤ intMax →
      ds.length + 1 ≤ C.bound →
      ((u = [] ∧ NoDig C.w (look k) ∧ NoFloat (look k)) ∨
        (∃ f, FloatTail C.w C.fo (intVal (hd l :: ds)) u (look k) f ∧ u.length + 1 ≤ C.bound)) →
      Runs (numberBody C) l d fun a l' d' => l' = k ∧ d'.neg = d.neg ∧
      ((u = [] ∧ a = .valueInteger ∧ d'.numI = (intVal (hd l :: ds) : Nat)) ∨
        (a = .valueFloat ∧ FloatTail C.w C.fo (intVal (hd l :: ds)) u (look k) d'.numF ∧
          ∀ f, FloatTail C.w C.fo (intVal (hd l :: ds)) u (look k) f → d'.numF = f)) := by
    intro l ds u h0 hl hfd hds hmax hlen hu
    unfold numberBody
    refine .bind (.cur (.no (by simpa using h0) ?_))
    unfold scanInteger
    refine .bind (.cur ?_)
    have ha : assert C (isDigit C (hd l)) = Pure.pure () := by
      rcases hfd with h | h
      · exact assert_true ((isDigit_iff _).2 h)
      · simp [assert, h]
    rw [ha]
    refine .bind (.pure (.bind (.modify (d' := { d with numI := (dv (hd l) : Int) }) (by rw [digitVal_eq]; rfl) ?_)))
    exact run_integerLoop H _ [hd l] ds u (by simp [intVal_one]) hmax hl ho hds hlen hu
  cases ht with
  | @zero nx h =>
    subst hnx
    unfold numberBody
    refine .bind (.cur (.yes (by simp) (.bind (.next H ho (.no ?_ (.no ?_ (.pure ⟨rfl, rfl, Or.inl ⟨0, rfl, rfl, by simpa using hi⟩⟩)))))))
    · simpa using hd_ne ho (by decide) h.1
    · simpa using ⟨hd_ne ho (by decide) h.2.1, hd_ne ho (by decide) h.2.2⟩
  | @zeroFrac u nx f h =>
    subst hnx
    unfold numberBody
    refine .bind (.cur (.yes (by simp) (.bind (.next H (.cons _ _) (.yes (by simp) ?_)))))
    refine (run_scanFloat H 0 (by simpa using hi) h ho (by simp at hb ⊢; omega)).imp ?_
    rintro _ _ _ ⟨rfl, rfl, rfl⟩
    exact ⟨rfl, rfl, Or.inr ⟨rfl, rfl⟩⟩
  | @int c ds nx hf hds hmax h1 h2 =>
    subst hnx
    refine (main (txt (c :: ds) k) ds [] hf.1 rfl ?_ hds hmax (by simp at hb; omega) (Or.inl ⟨rfl, h1, h2⟩)).imp ?_
    · rcases hf.2 with h | h
      · exact Or.inl h
      · exact Or.inr h.2
    · rintro a l' d' ⟨rfl, h3, ⟨_, rfl, h5⟩ | ⟨_, h5, _⟩⟩
      · exact ⟨rfl, h3, Or.inl ⟨_, rfl, rfl, h5⟩⟩
      · exact absurd rfl (floatTail_ne_nil h5)
  | @flt c ds u nx f hf hds hmax h1 =>
    subst hnx
    simp only [List.cons_append, List.length_cons, List.length_append] at hb
    rw [List.cons_append, txt_cons, txt_append]
    refine (main (txt (c :: ds) (txt u k)) ds u hf.1 rfl ?_ hds hmax (by omega) (Or.inr ⟨f, h1, by omega⟩)).imp ?_
    · rcases hf.2 with h | h
      · exact Or.inl h
      · exact Or.inr h.2
    · rintro a l' d' ⟨rfl, h3, ⟨rfl, rfl, h5⟩ | ⟨rfl, h5, h6⟩⟩
      · exact absurd rfl (floatTail_ne_nil h1)
      · exact ⟨rfl, h3, Or.inr ⟨rfl, by rw [h6 f h1]⟩⟩
  | bareSign hs hdb =>
    have hk : k = [] := by
      rcases look_eq ho with ⟨_, h⟩ | ⟨h, _⟩
      · exact h
      · rw [h] at hnx; cases hnx
    subst hk
    refine (main [] [] [] (by simp [hd]) rfl (Or.inr hdb) (by simp) ?_ (by simp at hb ⊢; omega)
      (Or.inl ⟨rfl, fun c hc => (by cases hc), by simp [look, NoFloat]⟩)).imp ?_
    · rw [intVal_one]; have := dv_lt (hd []); unfold intMax; omega
    · rintro a l' d' ⟨rfl, h3, ⟨_, rfl, h5⟩ | ⟨_, h5, _⟩⟩
      · exact ⟨rfl, h3, Or.inl ⟨_, rfl, rfl, h5⟩⟩
      · exact absurd rfl (floatTail_ne_nil h5)

theorem run_scanNumber (H : Canon C) {t : List Nat} {v : Value F} (ht : Number C.dialect t (look k) v)
    (ho : Ok k) (hb : t.length + 1 ≤ C.bound) :
    Runs (scanNumber C) (txt t k) d fun a l' d' => l' = k ∧ NumVal C a d' v := by
  generalize hnx : look k = nx at ht
  unfold scanNumber
  cases ht with
  | @plain c t nx n h1 h2 h =>
    subst hnx
    refine .bind (.modify (d' := { d with neg := false, numI := 0 }) rfl (.bind (.cur (.no ?_ ?_))))
    · simp; omega
    · refine (run_numberBody H false rfl h ho hb).imp ?_
      rintro a l' d' ⟨rfl, h3, h4⟩
      refine ⟨rfl, ?_⟩
      have := h4.val (C := C)
      rwa [h3] at this
  | @signed sg t nx n h1 h =>
    subst hnx
    refine .bind (.modify (d' := { d with neg := false, numI := 0 }) rfl (.bind (.cur (.yes ?_ 
      (.bind (.modify (d' := { d with neg := sg == 0x2D, numI := 0 }) rfl (.bind (.next H (ho.txt _) ?_))))))))
    · simpa using h1.symm
    · refine (run_numberBody H true rfl h ho (by simp at hb; omega)).imp ?_
      rintro a l' d' ⟨rfl, h3, h4⟩
      refine ⟨rfl, ?_⟩
      have := h4.val (C := C)
      rwa [h3] at this

end Configor
