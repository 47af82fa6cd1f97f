import Verif.Proofs.LexToken
/-! Soundness of the scanner: numbers. -/
namespace Configor
open Lexer Spec

variable {F α β : Type} {C : Cfg CpS F} {l : List (Option Nat)} {d : Data F} {E : Stop → Prop}

/-- The code point the input starts with, if any. -/
def look (l : List (Option Nat)) : Option Nat := l.head?.join

theorem look_eq (hl : Ok l) : (look l = none ∧ l = []) ∨ (look l = some (hd l) ∧ one l = [hd l] ∧
    ∃ r, l = some (hd l) :: r) := by
  cases l with
  | nil => left; simp [look]
  | cons x l =>
    cases x with
    | none => exact absurd rfl hl
    | some c => right; simp [look, hd, one]

theorem look_hd {c : Nat} (h : look l = some c) : hd l = c := by
  cases l with
  | nil => simp [look] at h
  | cons x l => cases x <;> simp_all [look, hd]

theorem isDigit_iff (c : Nat) : isDigit C c = true ↔ IsDig C.w c := by
  unfold isDigit toChar IsDig
  rw [Bool.and_eq_true]
  exact and_congr decide_eq_true_iff decide_eq_true_iff

theorem not_isDig_zero (w : Nat) : ¬ IsDig w 0 := by simp [IsDig]

theorem _root_.Spec.IsDig.ne {w c : Nat} (h : IsDig w c) : c ≠ 0 := by
  rintro rfl; exact not_isDig_zero w h

theorem noDig_of (h : ¬ IsDig C.w (hd l)) : NoDig C.w (look l) := by
  intro c hc
  rw [look_hd hc] at h
  exact h

theorem digitVal_eq (c : Nat) : digitVal c = dv c := by
  rfl

theorem dv_lt (c : Nat) : dv c < 4294967296 := Nat.mod_lt _ (by decide)

theorem powLoop_eq {S : Type} (C : Cfg S F) (n e : Nat) (b p : F) : powLoop C n e b p = powSq C.fo n e b p := by
  induction n generalizing e b p with
  | zero => rfl
  | succ n ih => simp only [powLoop, powSq, ih]

theorem powLoop_scale {S : Type} (C : Cfg S F) (e : Nat) (neg : Bool) :
    powLoop C 32 e (if neg then C.fo.tenth else C.fo.ofInt 10) (C.fo.ofInt 1) = scale C.fo neg e :=
  powLoop_eq C 32 e _ _

/-- One more exponent digit. -/
def expStep (v c : Nat) : Nat := (v * 10 + dv c) % 4294967296

theorem expStep_eq (v c : Nat) : u32 (u32 (v * 10) + digitVal c) = expStep v c := by
  rw [digitVal_eq, expStep]; simp only [u32]; omega

theorem expVal_cons (c : Nat) (ds : List Nat) : expVal (c :: ds) = ds.foldl expStep (dv c) := by
  have := dv_lt c
  simp only [expVal, List.foldl_cons]
  rw [show (0 * 10 + dv c) % 4294967296 = dv c by omega]
  rfl

theorem tail_length_lt (h : hd l.tail ≠ 0) : l.tail.length + 1 = l.length := by
  cases l with
  | nil => exact absurd rfl h
  | cons => simp

theorem post_exponentDigits (H : Canon C) (hx : E (.exn .deserialization)) (n e : Nat) (hl : Ok l)
    (hn : l.length + 1 ≤ n) :
    Post E (exponentDigits C n e) l d fun t a l' d' => d' = d ∧ ∃ ds, t = one l ++ ds ∧
      (∀ c ∈ ds, IsDig C.w c) ∧ NoDig C.w (look l') ∧ a = ds.foldl expStep e := by
  induction n generalizing l e with
  | zero => omega
  | succ n ih =>
    unfold exponentDigits
    refine .bind (.readNext H hx hl fun ho _ _ => ?_)
    refine .ite (fun hs => ?_) (fun hs => ?_)
    · rw [isDigit_iff] at hs
      have := tail_length_lt hs.ne
      refine (ih _ ho (by omega)).imp ?_
      rintro t a l' d' _ _ ⟨h1, ds, rfl, h3, h4, rfl⟩
      refine ⟨h1, hd l.tail :: ds, by rw [one_of_hd hs.ne]; simp, ?_, h4, ?_⟩
      · intro c hc
        rcases List.mem_cons.1 hc with rfl | hc
        · exact hs
        · exact h3 c hc
      · rw [expStep_eq, List.foldl_cons]
    · rw [isDigit_iff] at hs
      exact .pure ho ⟨rfl, [], by simp, by simp, noDig_of hs, rfl⟩

theorem post_exponentValue (H : Canon C) (hx : E (.exn .deserialization)) (neg : Bool) (hl : Ok l)
    (hb : l.length + 1 ≤ C.bound) :
    Post E (exponentValue C neg) l d fun t a l' d' => ∃ ds, t = one l ++ ds ∧
      (∀ c ∈ ds, IsDig C.w c) ∧ NoDig C.w (look l') ∧ a = .valueFloat ∧
      d' = { d with numF := C.fo.mul d.numF (scale C.fo neg (expVal (hd l :: ds))) } := by
  unfold exponentValue
  refine .bind (.cur hl fun _ _ => ?_)
  refine .bind ((post_exponentDigits H hx _ _ hl hb).imp ?_)
  rintro t a l' d' _ ho ⟨rfl, ds, rfl, h3, h4, rfl⟩ _ _
  refine .bind (.modify (d' := { d' with numF := C.fo.mul d'.numF (scale C.fo neg (expVal (hd l :: ds))) }) ho ?_ fun _ _ => ?_)
  · rw [digitVal_eq, ← expVal_cons, powLoop_scale]
    rfl
  · exact .pure ho ⟨ds, by simp, h3, h4, rfl, rfl⟩

theorem assert_true {S : Type} {C : Cfg S F} {b : Bool} (h : b = true) : assert C b = Pure.pure () := by
  simp [assert, h]

theorem post_scanExponent (H : Canon C) (hx : E (.exn .deserialization)) (hl : Ok l)
    (hb : l.length + 1 ≤ C.bound) (hcur : hd l = 0x65 ∨ hd l = 0x45) :
    Post E (scanExponent C) l d fun t a l' d' => ∃ neg e, Expo C.w t (look l') neg e ∧
      a = .valueFloat ∧ d' = { d with numF := C.fo.mul d.numF (scale C.fo neg e) } := by
  have hone : one l = [hd l] := one_of_hd (by omega)
  have hlen : l.length = 1 + l.tail.length := by have := len_of (one_tail hl); rw [hone] at this; simpa using this
  unfold scanExponent
  refine .bind (.cur hl fun _ _ => ?_)
  rw [assert_true (by simpa using hcur)]
  refine .bind (.pure hl fun _ _ => ?_)
  refine .bind (.readNext H hx hl fun ho1 _ _ => ?_)
  refine .ite (fun _ => .fail hx) (fun hs => .ite (fun hs2 => ?_) (fun hs2 => ?_))
  · have hs2 : hd l.tail = 0x2B ∨ hd l.tail = 0x2D := by simpa using hs2
    have hone1 : one l.tail = [hd l.tail] := one_of_hd (by omega)
    have hlen1 : l.tail.length = 1 + l.tail.tail.length := by
      have := len_of (one_tail ho1); rw [hone1] at this; simpa using this
    refine .bind (.readNext H hx ho1 fun ho2 _ _ => ?_)
    refine (post_exponentValue H hx _ ho2 (by omega)).imp ?_
    rintro t a l' d' hl' _ ⟨ds, rfl, h1, h2, h3, h4⟩
    refine ⟨_, _, ?_, h3, h4⟩
    simp only [List.nil_append, hone, hone1]
    rcases look_eq ho2 with ⟨_, he⟩ | ⟨_, he, _⟩
    · rw [he] at hl'
      simp [one] at hl'
      obtain ⟨rfl, rfl⟩ := hl'
      rw [he]
      exact .bare hcur hs2
    · rw [he]
      exact .signed hcur hs2 h1 h2
  · have hs2 : hd l.tail ≠ 0x2B ∧ hd l.tail ≠ 0x2D := by simpa using hs2
    have hs : IsDig C.w (hd l.tail) ∧ hd l.tail ≠ 0x30 := by
      rw [← isDigit_iff]
      simp only [hs2.1, hs2.2, beq_iff_eq, bne_iff_ne, Bool.or_eq_true, Bool.not_eq_true', 
        Bool.and_eq_true, Bool.not_eq_false, ne_eq, or_false] at hs
      exact hs
    have hone1 : one l.tail = [hd l.tail] := one_of_hd hs.1.ne
    have hlen1 : l.tail.length = 1 + l.tail.tail.length := by
      have := len_of (one_tail ho1); rw [hone1] at this; simpa using this
    refine (post_exponentValue H hx _ ho1 (by omega)).imp ?_
    rintro t a l' d' hl' _ ⟨ds, rfl, h1, h2, h3, h4⟩
    refine ⟨_, _, ?_, h3, h4⟩
    simp only [List.nil_append, hone, hone1]
    exact .plain hcur hs.1 hs.2 h1 h2

theorem post_fractionLoop (H : Canon C) (hx : E (.exn .deserialization)) (n : Nat) (f : F) (hl : Ok l)
    (hn : l.length + 1 ≤ n) (hb : l.length + 1 ≤ C.bound) :
    Post E (fractionLoop C n f) l d fun t a l' d' => a = .valueFloat ∧ d'.neg = d.neg ∧
      ∃ ds, (∀ c ∈ ds, IsDig C.w c) ∧
      ((t = one l ++ ds ∧ NoDig C.w (look l') ∧ look l' ≠ some 0x65 ∧ look l' ≠ some 0x45 ∧
          d'.numF = fracLoop C.fo d.numF f ds) ∨
        ∃ x neg e, t = one l ++ ds ++ x ∧ Expo C.w x (look l') neg e ∧
          d'.numF = C.fo.mul (fracLoop C.fo d.numF f ds) (scale C.fo neg e)) := by
  induction n generalizing l f d with
  | zero => omega
  | succ n ih =>
    have tle : l.tail.length ≤ l.length := by simp
    unfold fractionLoop
    refine .bind (.readNext H hx hl fun ho _ _ => ?_)
    refine .ite (fun hs => ?_) (fun hs => .ite (fun hs2 => ?_) (fun hs2 => ?_))
    · refine (post_scanExponent H hx ho (by omega) (by simpa using hs)).imp ?_
      rintro t a l' d' hl' _ ⟨neg, e, h1, h2, rfl⟩
      exact ⟨h2, rfl, [], by simp, Or.inr ⟨t, neg, e, by simp, h1, rfl⟩⟩
    · rw [isDigit_iff] at hs2
      have := tail_length_lt hs2.ne
      refine .bind (.modify (d' := { d with numF := C.fo.add d.numF (C.fo.mul (C.fo.ofInt (dv (hd l.tail))) (C.fo.mul f C.fo.tenth)) }) ho ?_ fun _ _ => ?_)
      · rw [digitVal_eq]; rfl
      · refine (ih _ ho (by omega) (by omega)).imp ?_
        rintro t a l' d' hl' _ ⟨h1, h2, ds, h3, h4⟩
        refine ⟨h1, h2, hd l.tail :: ds, ?_, ?_⟩
        · intro c hc
          rcases List.mem_cons.1 hc with rfl | hc
          · exact hs2
          · exact h3 c hc
        · rw [one_of_hd hs2.ne] at h4
          rcases h4 with ⟨rfl, h5, h6, h7, h8⟩ | ⟨x, neg, e, rfl, h5, h6⟩
          · exact Or.inl ⟨by simp, h5, h6, h7, h8⟩
          · exact Or.inr ⟨x, neg, e, by simp, h5, h6⟩
    · rw [isDigit_iff] at hs2
      have hs : hd l.tail ≠ 0x65 ∧ hd l.tail ≠ 0x45 := by simpa using hs
      refine .pure ho ⟨rfl, rfl, [], by simp, Or.inl ⟨by simp, noDig_of hs2, ?_, ?_, rfl⟩⟩
      · intro h; exact hs.1 (look_hd h)
      · intro h; exact hs.2 (look_hd h)

theorem post_scanFloat (H : Canon C) (hx : E (.exn .deserialization)) (i : Nat) (hi : d.numI = i)
    (hl : Ok l) (hb : l.length + 1 ≤ C.bound) (hcur : hd l = 0x2E ∨ hd l = 0x65 ∨ hd l = 0x45) :
    Post E (scanFloat C) l d fun t a l' d' => a = .valueFloat ∧ d'.neg = d.neg ∧
      FloatTail C.w C.fo i t (look l') d'.numF := by
  have hone : one l = [hd l] := one_of_hd (by omega)
  have tle : l.tail.length ≤ l.length := by simp
  unfold scanFloat
  refine .bind (.modify (d' := { d with numF := C.fo.ofInt i }) hl (by rw [← hi]; rfl) fun _ _ => ?_)
  refine .bind (.cur hl fun _ _ => ?_)
  refine .ite (fun hs => ?_) (fun hs => ?_)
  · refine (post_scanExponent H hx hl hb (by simpa using hs)).imp ?_
    rintro t a l' d' hl' _ ⟨neg, e, h1, h2, rfl⟩
    exact ⟨h2, rfl, .exp h1⟩
  · have hs : hd l ≠ 0x65 ∧ hd l ≠ 0x45 := by simpa using hs
    have hdot : hd l = 0x2E := by omega
    rw [assert_true (by simpa using hdot)]
    refine .bind (.pure hl fun _ _ => ?_)
    refine .bind (.readNext H hx hl fun ho _ _ => ?_)
    refine .ite (fun _ => .fail hx) (fun hs2 => ?_)
    have hs2 : IsDig C.w (hd l.tail) := by rw [← isDigit_iff]; simpa using hs2
    refine .bind (.modify (d' := { d with numF := C.fo.add (C.fo.ofInt i) (C.fo.mul (C.fo.ofInt (dv (hd l.tail))) C.fo.tenth) }) ho ?_ fun _ _ => ?_)
    · rw [digitVal_eq]; rfl
    · refine (post_fractionLoop H hx _ _ ho (by omega) (by omega)).imp ?_
      rintro t a l' d' hl' _ ⟨h1, h2, ds, h3, h4⟩
      refine ⟨h1, h2, ?_⟩
      have hall : ∀ c ∈ hd l.tail :: ds, IsDig C.w c := by
        intro c hc
        rcases List.mem_cons.1 hc with rfl | hc
        · exact hs2
        · exact h3 c hc
      simp only [List.nil_append, hone, hdot]
      rw [one_of_hd hs2.ne] at h4
      rcases h4 with ⟨rfl, h5, h6, h7, h8⟩ | ⟨x, neg, e, rfl, h5, h6⟩
      · rw [h8]
        exact .frac hall h5 h6 h7
      · rw [h6]
        have := FloatTail.fracExp (i := i) (fo := C.fo) hall h5
        simpa [fracVal] using this

theorem floatTail_ne_nil {w i : Nat} {fo : FloatOps F} {t : List Nat} {nx : Option Nat} {f : F}
    (h : FloatTail w fo i t nx f) : t ≠ [] := by
  cases h with
  | frac => simp
  | fracExp => simp
  | exp h => cases h <;> simp

theorem numBody_ne_nil {D : Dialect F} {t : List Nat} {nx : Option Nat} {n : Num F}
    (h : NumBody D false t nx n) : t ≠ [] := by
  cases h with
  | bareSign h => cases h
  | _ => simp

theorem intVal_snoc (hist : List Nat) (c : Nat) : intVal (hist ++ [c]) = intVal hist * 10 + dv c := by
  unfold intVal
  rw [List.foldl_append, List.foldl_cons, List.foldl_nil]

theorem intVal_one (c : Nat) : intVal [c] = dv c := by
  unfold intVal
  rw [List.foldl_cons, List.foldl_nil, Nat.zero_mul, Nat.zero_add]

theorem post_integerLoop (H : Canon C) (hx : E (.exn .deserialization)) (n : Nat) (hist : List Nat)
    (hi : d.numI = (intVal hist : Nat)) (hmax : intVal hist ≤ intMax)
    (hub : ∀ ds r, l.tail = ds.map some ++ r → (∀ c ∈ ds, IsDig C.w c) →
      intMax < intVal (hist ++ ds) → E .ub)
    (hl : Ok l) (hn : l.length + 1 ≤ n) (hb : l.length + 1 ≤ C.bound) :
    Post E (integerLoop C n) l d fun t a l' d' => d'.neg = d.neg ∧
      ∃ ds, (∀ c ∈ ds, IsDig C.w c) ∧ intVal (hist ++ ds) ≤ intMax ∧
      ((t = one l ++ ds ∧ a = .valueInteger ∧ NoDig C.w (look l') ∧ NoFloat (look l') ∧
          d'.numI = (intVal (hist ++ ds) : Nat)) ∨
        ∃ u, t = one l ++ ds ++ u ∧ a = .valueFloat ∧
          FloatTail C.w C.fo (intVal (hist ++ ds)) u (look l') d'.numF) := by
  induction n generalizing l d hist with
  | zero => omega
  | succ n ih =>
    have tle : l.tail.length ≤ l.length := by simp
    unfold integerLoop
    refine .bind (.readNext H hx hl fun ho _ _ => ?_)
    refine .ite (fun hs => ?_) (fun hs => .ite (fun hs2 => ?_) (fun hs2 => ?_))
    · refine (post_scanFloat H hx _ hi ho (by omega) (by simpa [or_assoc] using hs)).imp ?_
      rintro t a l' d' hl' _ ⟨h1, h2, h3⟩
      exact ⟨h2, [], by simp, by simpa using hmax, Or.inr ⟨t, by simp, h1, by simpa using h3⟩⟩
    · rw [isDigit_iff] at hs2
      have hlen := tail_length_lt hs2.ne
      have hone : one l.tail = [hd l.tail] := one_of_hd hs2.ne
      have htl : l.tail = some (hd l.tail) :: l.tail.tail := by
        have := one_tail ho; rw [hone] at this; exact this
      refine .bind (.gets ho fun _ _ => ?_)
      have hv : (At l.tail d).numI * 10 + (digitVal (hd l.tail) : Int) = (intVal (hist ++ [hd l.tail]) : Nat) := by
        rw [digitVal_eq, intVal_snoc]
        simp [At, hi]
      simp only [hv]
      refine .ite (fun hgt => ?_) (fun hgt => ?_)
      · refine hub [hd l.tail] l.tail.tail htl (by simpa using hs2) ?_
        unfold i64max at hgt
        unfold intMax
        omega
      · have hle : intVal (hist ++ [hd l.tail]) ≤ intMax := by
          unfold i64max at hgt
          unfold intMax
          omega
        refine .bind (.modify (d' := { d with numI := (intVal (hist ++ [hd l.tail]) : Nat) }) ho rfl fun _ _ => ?_)
        refine (ih (hist ++ [hd l.tail]) rfl hle ?_ ho (by omega) (by omega)).imp ?_
        · intro ds r hr hds hlt
          refine hub (hd l.tail :: ds) r ?_ ?_ (by simpa using hlt)
          · rw [htl, hr]; rfl
          · intro c hc
            rcases List.mem_cons.1 hc with rfl | hc
            · exact hs2
            · exact hds c hc
        · rintro t a l' d' hl' _ ⟨h1, ds, h2, h3, h4⟩
          refine ⟨h1, hd l.tail :: ds, ?_, by simpa using h3, ?_⟩
          · intro c hc
            rcases List.mem_cons.1 hc with rfl | hc
            · exact hs2
            · exact h2 c hc
          · rw [hone] at h4
            rw [List.append_assoc] at h4
            rcases h4 with ⟨rfl, h5⟩ | ⟨u, rfl, h5⟩
            · exact Or.inl ⟨by simp, h5⟩
            · exact Or.inr ⟨u, by simp, h5⟩
    · rw [isDigit_iff] at hs2
      have hs : (hd l.tail ≠ 0x2E ∧ hd l.tail ≠ 0x65) ∧ hd l.tail ≠ 0x45 := by simpa using hs
      refine .pure ho ⟨rfl, [], by simp, by simpa using hmax, Or.inl ⟨by simp, rfl, noDig_of hs2, ?_, by simpa using hi⟩⟩
      exact ⟨fun h => hs.1.1 (look_hd h), fun h => hs.1.2 (look_hd h), fun h => hs.2 (look_hd h)⟩

/-- What the scanner remembers of a number. -/
def NumRes (a : Token) (d' : Data F) (n : Num F) : Prop :=
  (∃ k : Nat, a = .valueInteger ∧ n = .int k ∧ d'.numI = k) ∨ (a = .valueFloat ∧ n = .flt d'.numF)

theorem post_numberBody (H : Canon C) (hx : E (.exn .deserialization)) (signed : Bool)
    (hi : d.numI = 0)
    (hsg : signed = false → 0x30 ≤ hd l ∧ hd l ≤ 0x39)
    (hab : C.debug = true → signed = true → ¬ IsDig C.w (hd l) → E .abort)
    (hub : ∀ ds r, l = ds.map some ++ r → (∃ c t, ds = c :: t ∧ ∀ c ∈ t, IsDig C.w c) →
      intMax < intVal ds → E .ub)
    (hl : Ok l) (hb : l.length + 1 ≤ C.bound) :
    Post E (numberBody C) l d fun t a l' d' => d'.neg = d.neg ∧
      ∃ n, NumBody C.dialect signed t (look l') n ∧ NumRes a d' n := by
  have tle : l.tail.length ≤ l.length := by simp
  have hw : ∀ c, 0x30 ≤ c → c ≤ 0x39 → IsDig C.w c := by
    intro c h1 h2
    have : (2:Nat) ^ 8 ≤ 2 ^ C.w := Nat.pow_le_pow_right (by decide) H.w
    simp only [Nat.reducePow] at this
    unfold IsDig
    rw [Nat.mod_eq_of_lt (by omega)]
    omega
  unfold numberBody
  refine .bind (.cur hl fun _ _ => ?_)
  refine .ite (fun hs => ?_) (fun hs => ?_)
  · have hs : hd l = 0x30 := by simpa using hs
    have hone : one l = [0x30] := by rw [one_of_hd (by omega), hs]
    refine .bind (.readNext H hx hl fun ho _ _ => ?_)
    refine .ite (fun hs2 => ?_) (fun hs2 => .ite (fun _ => .fail hx) (fun hs3 => ?_))
    · have hs2 : hd l.tail = 0x2E := by simpa using hs2
      refine (post_scanFloat H hx 0 hi ho (by omega) (by simp [hs2])).imp ?_
      rintro t a l' d' hl' _ ⟨h1, h2, h3⟩
      refine ⟨h2, _, ?_, Or.inr ⟨h1, rfl⟩⟩
      have ht : ∃ u, t = 0x2E :: u := by
        cases t with
        | nil => exact absurd rfl (floatTail_ne_nil h3)
        | cons c t =>
          refine ⟨t, ?_⟩
          rw [hl'] at hs2
          simp [hd] at hs2
          rw [hs2]
      obtain ⟨u, rfl⟩ := ht
      rw [hone]
      exact .zeroFrac h3
    · have hs2 : hd l.tail ≠ 0x2E := by simpa using hs2
      have hs3 : hd l.tail ≠ 0x65 ∧ hd l.tail ≠ 0x45 := by simpa using hs3
      refine .pure ho ⟨rfl, .int 0, ?_, Or.inl ⟨0, rfl, rfl, by simpa using hi⟩⟩
      rw [hone]
      exact .zero ⟨fun h => hs2 (look_hd h), fun h => hs3.1 (look_hd h), fun h => hs3.2 (look_hd h)⟩
  · have hs : hd l ≠ 0x30 := by simpa using hs
    unfold scanInteger
    refine .bind (.cur hl fun _ _ => ?_)
    -- the assert
    have main : (IsDig C.w (hd l) ∨ (signed = true ∧ C.debug = false)) →
        Post E (M.modify (fun s => { s with numI := (digitVal (hd l) : Int) }) >>= fun _ => integerLoop C C.bound) l d
        fun t a l' d' => d'.neg = d.neg ∧
          ∃ n, NumBody C.dialect signed t (look l') n ∧ NumRes a d' n := by
      intro hfd
      refine .bind (.modify (d' := { d with numI := (dv (hd l) : Int) }) hl (by rw [digitVal_eq]; rfl) fun _ _ => ?_)
      have hiv : intVal [hd l] = dv (hd l) := intVal_one _
      have := dv_lt (hd l)
      refine (post_integerLoop H hx _ [hd l] (by simp [hiv]) (by rw [hiv]; unfold intMax; omega) ?_ hl hb hb).imp ?_
      · intro ds r hr hds hlt
        rcases look_eq hl with ⟨_, he⟩ | ⟨_, _, r', hr'⟩
        · rw [he] at hr
          simp at hr
          rw [hr.1, List.append_nil, hiv] at hlt
          unfold intMax at hlt
          omega
        · refine hub (hd l :: ds) r ?_ ⟨_, _, rfl, hds⟩ hlt
          rw [hr'] at hr ⊢
          simp [hd] at hr ⊢
          exact hr
      · rintro t a l' d' hl' _ ⟨h1, ds, h2, h3, h4⟩
        refine ⟨h1, ?_⟩
        have hfirst : FirstDig C.dialect signed (hd l) := ⟨hs, hfd⟩
        rcases look_eq hl with ⟨_, he⟩ | ⟨_, hone, _⟩
        · -- the text ends after the sign
          have hempty : t = [] ∧ l' = [] := by
            rw [he] at hl'; simpa using hl'
          obtain ⟨rfl, rfl⟩ := hempty
          have hh : hd l = 0 := by rw [he]; rfl
          rcases h4 with ⟨h5, rfl, h6, h7, h8⟩ | ⟨u, h5, _, h7⟩
          · have : ds = [] := by simp at h5; exact h5.2
            subst this
            rw [hh] at h8
            refine ⟨.int (intVal [0]), ?_, Or.inl ⟨_, rfl, rfl, h8⟩⟩
            have : signed = true ∧ C.debug = false := by
              rcases hfd with h | h
              · exact absurd hh h.ne
              · exact h
            exact .bareSign this.1 this.2
          · exfalso
            have : u = [] := by simp at h5; exact h5.2.2
            subst this
            exact floatTail_ne_nil h7 rfl
        · rw [hone] at h4
          rcases h4 with ⟨h5, rfl, h6, h7, h8⟩ | ⟨u, h5, h6, h7⟩
          · refine ⟨.int (intVal (hd l :: ds)), ?_, Or.inl ⟨_, rfl, rfl, h8⟩⟩
            rw [h5]
            exact .int hfirst h2 h3 h6 h7
          · refine ⟨.flt d'.numF, ?_, Or.inr ⟨h6, rfl⟩⟩
            rw [h5]
            exact .flt hfirst h2 h3 h7
    by_cases hdig : IsDig C.w (hd l)
    · rw [assert_true ((isDigit_iff _).2 hdig)]
      exact .bind (.pure hl fun _ _ => main (Or.inl hdig))
    · have hst : signed = true := by
        cases signed with
        | true => rfl
        | false => exact absurd (hw _ (hsg rfl).1 (hsg rfl).2) hdig
      cases hdb : C.debug with
      | true =>
        have : assert C (isDigit C (hd l)) = M.stop .abort := by
          have : isDigit C (hd l) = false := by
            cases h : isDigit C (hd l) with
            | false => rfl
            | true => exact absurd ((isDigit_iff _).1 h) hdig
          simp [assert, hdb, this]
        rw [this]
        exact hab hdb hst hdig
      | false =>
        have : assert C (isDigit C (hd l)) = Pure.pure () := by simp [assert, hdb]
        rw [this]
        exact .bind (.pure hl fun _ _ => main (Or.inr ⟨hst, hdb⟩))

/-- The value a number token stands for, parser.hpp:118-125. -/
def NumVal (C : Cfg CpS F) (a : Token) (d' : Data F) (v : Value F) : Prop :=
  (a = .valueInteger ∧ v = .int (if d'.neg then -d'.numI else d'.numI)) ∨
  (a = .valueFloat ∧ v = .flt (if d'.neg then C.fo.neg d'.numF else d'.numF))

theorem NumRes.val {a : Token} {d' : Data F} {n : Num F} (h : NumRes a d' n) :
    NumVal C a d' (n.value C.fo d'.neg) := by
  rcases h with ⟨k, h1, rfl, h3⟩ | ⟨h1, rfl⟩
  · exact Or.inl ⟨h1, by simp [Num.value, h3]⟩
  · exact Or.inr ⟨h1, rfl⟩

theorem post_scanNumber (H : Canon C) {l : List (Option Nat)} {d : Data F} (hl : Ok l)
    (hb : l.length + 1 ≤ C.bound)
    (hcur : (hd l = 0x2D ∨ hd l = 0x2B) ∨ (0x30 ≤ hd l ∧ hd l ≤ 0x39)) :
    Post (Fault C l) (scanNumber C) l d fun t a l' d' => ∃ v, Number C.dialect t (look l') v ∧ NumVal C a d' v := by
  have tle : l.tail.length ≤ l.length := by simp
  have hone : one l = [hd l] := one_of_hd (by omega)
  have hcons : l = some (hd l) :: l.tail := by have := one_tail hl; rw [hone] at this; exact this
  have hx : Fault C l (.exn .deserialization) := Or.inl rfl
  unfold scanNumber
  refine .bind (.modify (d' := { d with neg := false, numI := 0 }) hl rfl fun _ _ => ?_)
  refine .bind (.cur hl fun _ _ => ?_)
  refine .ite (fun hs => ?_) (fun hs => ?_)
  · have hs : hd l = 0x2D ∨ hd l = 0x2B := by simpa using hs
    refine .bind (.modify (d' := { d with neg := hd l == 0x2D, numI := 0 }) hl rfl fun _ _ => ?_)
    refine .bind (.readNext H hx hl fun ho _ _ => ?_)
    refine (post_numberBody H hx true rfl (by simp) ?_ ?_ ho (by omega)).imp ?_
    · intro hd1 _ hnd
      exact Or.inr (Or.inl ⟨rfl, hd1, [], _, l.tail, hcons, hs.symm, hnd⟩)
    · rintro ds r hr ⟨c, t, rfl, ht⟩ hlt
      refine Or.inr (Or.inr ⟨rfl, [some (hd l)], c, t, r, ?_, ht, hlt⟩)
      rw [List.append_assoc, ← hr]
      exact hcons
    · rintro t a l' d' hl' _ ⟨h1, n, h2, h3⟩
      refine ⟨_, ?_, h3.val⟩
      rw [h1, hone]
      exact .signed hs.symm h2
  · have hs : hd l ≠ 0x2D ∧ hd l ≠ 0x2B := by simpa using hs
    have hdg : 0x30 ≤ hd l ∧ hd l ≤ 0x39 := by omega
    refine (post_numberBody H hx false rfl (fun _ => hdg) (by simp) ?_ hl hb).imp ?_
    · rintro ds r hr ⟨c, t, rfl, ht⟩ hlt
      exact Or.inr (Or.inr ⟨rfl, [], c, t, r, by simpa using hr, ht, hlt⟩)
    · rintro t a l' d' hl' _ ⟨h1, n, h2, h3⟩
      refine ⟨_, ?_, h3.val⟩
      rw [h1]
      cases t with
      | nil => exact absurd rfl (numBody_ne_nil h2)
      | cons c t =>
        have hc : hd l = c := by rw [hl']; rfl
        refine .plain (c := c) (t := t) ?_ ?_ h2 <;> omega

end Configor
