import Verif.Model.Encoding
import Verif.Spec.Unicode
/-! Helper lemmas about the encoders and decoders. -/
namespace Configor

theorem or_add (k a x : Nat) (h : x < 2 ^ k) : (2 ^ k * a) ||| x = 2 ^ k * a + x :=
  (Nat.two_pow_add_eq_or_of_lt h a).symm

theorem or_C0 {x : Nat} (h : x < 32) : 0xC0 ||| x = 0xC0 + x := or_add 5 6 x (by omega)
theorem or_E0 {x : Nat} (h : x < 16) : 0xE0 ||| x = 0xE0 + x := or_add 4 14 x (by omega)
theorem or_F0 {x : Nat} (h : x < 8) : 0xF0 ||| x = 0xF0 + x := or_add 3 30 x (by omega)
theorem or_80 {x : Nat} (h : x < 64) : 0x80 ||| x = 0x80 + x := or_add 6 2 x (by omega)
theorem and_3F (x : Nat) : x &&& 0x3F = x % 64 := Nat.and_two_pow_sub_one_eq_mod x 6
theorem and_3FF (x : Nat) : x &&& 0x3FF = x % 1024 := Nat.and_two_pow_sub_one_eq_mod x 10

theorem OStream.put_ok {o : OStream} (h : o.failb = false) (c : Nat) :
    o.put c = ⟨o.out ++ [c], false⟩ := by
  cases o; simp_all [OStream.put]

theorem OStream.write_ok {o : OStream} (h : o.failb = false) (c : List Nat) :
    o.write c = ⟨o.out ++ c, false⟩ := by
  cases o; simp_all [OStream.write]

theorem asPut_other {w : Nat} (hw : w ≠ 16) (cp : Nat) : asPut w cp = toChar w cp := by
  unfold asPut; rw [if_neg (fun h => hw h.1)]

theorem utf8Encode_ok {o : OStream} (ho : o.failb = false) {cp : Nat} (h : cp ≤ 0x10FFFF) :
    utf8Encode 8 o cp = ⟨o.out ++ Spec.utf8 cp, false⟩ := by
  unfold utf8Encode Spec.utf8
  simp only [asPut_other (show (8 : Nat) ≠ 16 by decide), toChar]
  simp only [and_3F, Nat.shiftRight_eq_div_pow]
  simp only [Nat.reducePow]
  by_cases h1 : cp < 0x80
  · rw [if_pos h1, if_pos h1, OStream.put_ok ho, Nat.mod_eq_of_lt (by omega)]
  rw [if_neg h1, if_neg h1]
  by_cases h2 : cp < 0x800
  · rw [if_pos (show cp ≤ 0x7FF by omega), if_pos h2, or_C0 (by omega), or_80 (by omega),
      OStream.put_ok ho, OStream.put_ok rfl]
    simp
    omega
  rw [if_neg (show ¬ cp ≤ 0x7FF by omega), if_neg h2]
  by_cases h3 : cp < 0x10000
  · rw [if_pos (show cp ≤ 0xFFFF by omega), if_pos h3, or_E0 (by omega), or_80 (by omega),
      or_80 (by omega), OStream.put_ok ho, OStream.put_ok rfl, OStream.put_ok rfl]
    simp
    omega
  rw [if_neg (show ¬ cp ≤ 0xFFFF by omega), if_neg h3, if_pos h, or_F0 (by omega),
    or_80 (by omega), or_80 (by omega), or_80 (by omega), OStream.put_ok ho, OStream.put_ok rfl,
    OStream.put_ok rfl, OStream.put_ok rfl]
  simp
  omega

theorem utf8Encode_fail (w : Nat) (o : OStream) {cp : Nat} (h : 0x10FFFF < cp) :
    utf8Encode w o cp = o.setFail := by
  unfold utf8Encode
  rw [if_neg (by omega), if_neg (by omega), if_neg (by omega), if_neg (by omega)]

theorem encodeSurrogates_eq {cp : Nat} (h1 : 0x10000 ≤ cp) (h2 : cp ≤ 0x10FFFF) :
    encodeSurrogates cp = (0xD800 + (cp - 0x10000) / 1024, 0xDC00 + (cp - 0x10000) % 1024) := by
  unfold encodeSurrogates u32sub u32
  simp only [and_3FF, Nat.shiftRight_eq_div_pow]
  simp only [Nat.reducePow, Prod.mk.injEq]
  omega

theorem decodeSurrogates_eq {l t : Nat} (hl : isLead l = true) (ht : isTrail t = true) :
    decodeSurrogates l t = (l - 0xD800) * 1024 + (t - 0xDC00) + 0x10000 := by
  simp only [isLead, isTrail, Bool.and_eq_true, decide_eq_true_eq] at hl ht
  have e1 : u32sub l 0xD800 = l - 0xD800 := by unfold u32sub; omega
  have e2 : u32sub t 0xDC00 = t - 0xDC00 := by unfold u32sub; omega
  unfold decodeSurrogates
  rw [e1, e2, Nat.shiftLeft_eq]
  simp only [u32, Nat.reducePow]
  rw [Nat.mod_eq_of_lt (a := (l - 0xD800) * 1024) (by omega), Nat.mod_eq_of_lt (by omega),
    Nat.mod_eq_of_lt (by omega)]

theorem utf16Encode_ok {w : Nat} (hw : w = 16 ∨ w = 32) {o : OStream} (ho : o.failb = false)
    {cp : Nat} (h : cp ≤ 0x10FFFF ∧ (w = 16 → cp ≠ 0xFFFF)) :
    utf16Encode w o cp = ⟨o.out ++ Spec.utf16 cp, false⟩ := by
  obtain ⟨h, hne⟩ := h
  have hm : ∀ x, x < 65536 → (w = 16 → x ≠ 0xFFFF) → asPut w x = x := by
    intro x hx hne
    unfold asPut toChar
    rcases hw with rfl | rfl
    · rw [Nat.mod_eq_of_lt hx, if_neg (fun h => hne rfl h.2)]
    · rw [if_neg (fun h => absurd h.1 (by decide))]
      exact Nat.mod_eq_of_lt (by simp only [Nat.reducePow]; omega)
  unfold utf16Encode Spec.utf16
  by_cases h1 : cp < 0x10000
  · rw [if_pos (show cp ≤ 0xFFFF by omega), if_pos h1, OStream.put_ok ho, hm _ h1 hne]
  · rw [if_neg (show ¬ cp ≤ 0xFFFF by omega), if_neg h1, if_pos h,
      encodeSurrogates_eq (by omega) h]
    simp only
    rw [OStream.put_ok ho, OStream.put_ok rfl, hm _ (by omega) (by omega), hm _ (by omega) (by omega)]
    simp

theorem utf16c_text {cps : List Nat} (h : ∀ c ∈ cps, c ≠ 0xFFFF) : cps.flatMap Spec.utf16c = cps.flatMap Spec.utf16 := by
  induction cps with
  | nil => rfl
  | cons c cs ih =>
    rw [List.flatMap_cons, List.flatMap_cons, ih fun x hx => h x (List.mem_cons_of_mem _ hx)]
    unfold Spec.utf16c
    rw [if_neg (h c (by simp))]

theorem utf16Encode_ok16 {o : OStream} (ho : o.failb = false) {cp : Nat} (h : cp ≤ 0x10FFFF) :
    utf16Encode 16 o cp = ⟨o.out ++ Spec.utf16c cp, false⟩ := by
  unfold Spec.utf16c
  by_cases hc : cp = 0xFFFF
  · subst hc
    rw [if_pos rfl]
    unfold utf16Encode
    rw [if_pos (by decide), OStream.put_ok ho]
    rfl
  · rw [if_neg hc]
    exact utf16Encode_ok (.inl rfl) ho ⟨h, fun _ => hc⟩

theorem utf16Encode_fail (w : Nat) (o : OStream) {cp : Nat} (h : 0x10FFFF < cp) :
    utf16Encode w o cp = o.setFail := by
  unfold utf16Encode
  rw [if_neg (by omega), if_neg (by omega)]

theorem utf32Encode_ok {o : OStream} (ho : o.failb = false) {cp : Nat} (h : cp ≤ 0x10FFFF) :
    utf32Encode 32 o cp = ⟨o.out ++ Spec.utf32 cp, false⟩ := by
  unfold utf32Encode Spec.utf32
  rw [if_neg (by omega), OStream.put_ok ho, asPut_other (by decide)]
  unfold toChar
  simp only [Nat.reducePow]
  rw [Nat.mod_eq_of_lt (by omega)]

theorem utf32Encode_fail (w : Nat) (o : OStream) {cp : Nat} (h : 0x10FFFF < cp) :
    utf32Encode w o cp = o.setFail := by
  unfold utf32Encode
  rw [if_pos (by omega)]
  simp [OStream.put, OStream.setFail]

/-! ## What a buffer delivers -/

variable {σ : Type}

/-- `R` describes what the buffer `B` will deliver: `R s l` says that from state `s`
the characters `l` (as `int_type`) come and then eof. -/
structure View (B : SBuf σ) (R : σ → List Int → Prop) : Prop where
  nil : ∀ {s}, R s [] → (B.sgetc s).1 = -1 ∧ (B.sbumpc s).1 = -1
  cons : ∀ {s u us}, R s (u :: us) → u ≠ -1 ∧
    (B.sgetc s).1 = u ∧ R (B.sgetc s).2 (u :: us) ∧ (B.sbumpc s).1 = u ∧ R (B.sbumpc s).2 us
  calm : ∀ {s l}, R s l → B.throws s = false

variable {B : SBuf σ} {R : σ → List Int → Prop}

theorem View.get_cons (V : View B R) {s : σ} {u us} (h : R s (u :: us)) :
    ∃ s', (⟨s, false, false⟩ : IStream σ).get B = (u, ⟨s', false, false⟩) ∧ R s' us := by
  obtain ⟨h0, _, _, h1, h2⟩ := V.cons h
  refine ⟨_, ?_, h2⟩
  simp [IStream.get, IStream.good, h1, h0, V.calm h]

theorem View.get_nil (V : View B R) {s : σ} (h : R s []) :
    ∃ s', (⟨s, false, false⟩ : IStream σ).get B = (-1, ⟨s', true, true⟩) := by
  refine ⟨(B.sbumpc s).2, ?_⟩
  simp [IStream.get, IStream.good, (V.nil h).2, V.calm h]

theorem View.peek_cons (V : View B R) {s : σ} {u us} (h : R s (u :: us)) :
    ∃ s', (⟨s, false, false⟩ : IStream σ).peek B = (u, ⟨s', false, false⟩) ∧ R s' (u :: us) := by
  obtain ⟨h0, h1, h2, _⟩ := V.cons h
  refine ⟨_, ?_, h2⟩
  simp [IStream.peek, IStream.good, h1, h0, V.calm h]

theorem View.peek_nil (V : View B R) {s : σ} (h : R s []) :
    ∃ s', (⟨s, false, false⟩ : IStream σ).peek B = (-1, ⟨s', true, false⟩) := by
  refine ⟨(B.sgetc s).2, ?_⟩
  simp [IStream.peek, IStream.good, (V.nil h).1, V.calm h]

theorem get_notgood {s : IStream σ} (h : s.good = false) :
    s.get B = (-1, { s with failb := true }) := by
  simp [IStream.get, h]

theorem peek_notgood {s : IStream σ} (h : s.good = false) :
    s.peek B = (-1, { s with failb := true }) := by
  simp [IStream.peek, h]

/-! ## Decoders as functions on the delivered characters

`none`: end of input; `some (some cp, rest)`: a code point; `some (none, _)`: the
stream is left not good. -/

abbrev Step := List Int → Option (Option Nat × List Int)

/-- The bytes after the first one of a UTF-8 sequence. -/
def utf8Sum : Nat → Nat → List Int → Option (Nat × List Int)
  | _, _, [] => none
  | 0, cp, b :: bs => some (u32 (cp + castU 8 b), bs)
  | n + 1, cp, b :: bs => utf8Sum n (u32 (u32 (cp + castU 8 b) <<< 6)) bs

def utf8Step : Step
  | [] => none
  | b :: bs =>
    let n := utf8ExtraTable.getD (castU 8 b) 0
    match utf8Sum n 0 (b :: bs) with
    | none => some (none, [])
    | some (r, rest) =>
      let cp := u32sub r (utf8Offsets.getD n 0)
      if cp > 0x10FFFF then some (none, rest) else some (some cp, rest)

def utf16Step : Step
  | [] => none
  | u :: us =>
    let cp := castU 16 u
    if isLead cp then
      match us with
      | [] => some (none, [])
      | t :: ts =>
        if isTrail (castU 16 t) then some (some (decodeSurrogates cp (castU 16 t)), ts)
        else some (none, ts)
    else some (some cp, us)

def utf32Step : Step
  | [] => none
  | u :: us => let cp := castU 32 u
    if cp > 0x10FFFF then some (none, us) else some (some cp, us)

def ignoreStep (w : Nat) : Step
  | [] => none
  | u :: us => some (some (castU 32 (signExtend w (castU w u))), us)

def Enc.step (e : Enc) (w : Nat) : Step :=
  match e with
  | .ignore => ignoreStep w
  | .utf8 => utf8Step
  | .utf16 => utf16Step
  | .utf32 => utf32Step

/-- A decoder follows a step function. -/
structure Follows (dec : IStream σ → Decoded σ) (R : σ → List Int → Prop) (step : Step) : Prop where
  nil : ∀ {s}, R s [] → (dec ⟨s, false, false⟩).1 = false ∧ (dec ⟨s, false, false⟩).2.2.eofb = true
  good : ∀ {s l cp rest}, R s l → step l = some (some cp, rest) →
    ∃ s', dec ⟨s, false, false⟩ = (true, cp, ⟨s', false, false⟩) ∧ R s' rest
  bad : ∀ {s l rest}, R s l → step l = some (none, rest) →
    (dec ⟨s, false, false⟩).1 = true ∧ (dec ⟨s, false, false⟩).2.2.good = false
  stepnil : step [] = none
  stepcons : ∀ u us, step (u :: us) ≠ none
  eof : ∀ {s : IStream σ}, s.eofb = true → (dec s).1 = false ∧ (dec s).2.2.eofb = true

theorem notgood_of_eof {s : IStream σ} (h : s.eofb = true) : s.good = false := by
  simp [IStream.good, h]

theorem utf8Read_dead (n : Nat) (cp : Nat) (s : IStream σ) (h : s.good = false) :
    ((utf8Read B n cp s).2).good = false := by
  induction n generalizing cp s with
  | zero => simp [utf8Read, get_notgood h, IStream.good]
  | succ n ih => simp only [utf8Read, get_notgood h]; exact ih _ _ (by simp [IStream.good])

theorem utf8Read_sum (V : View B R) (n cp : Nat) (s : σ) (l : List Int) (h : R s l) :
    match utf8Sum n cp l with
    | some (r, rest) => ∃ s', utf8Read B n cp ⟨s, false, false⟩ = (r, ⟨s', false, false⟩) ∧ R s' rest
    | none => ((utf8Read B n cp ⟨s, false, false⟩).2).good = false := by
  induction n generalizing cp s l with
  | zero =>
    cases l with
    | nil =>
      obtain ⟨s', hs⟩ := V.get_nil h
      simp [utf8Sum, utf8Read, hs, IStream.good]
    | cons b bs =>
      obtain ⟨s', hs, hr⟩ := V.get_cons h
      simp only [utf8Sum, utf8Read, hs]
      exact ⟨s', rfl, hr⟩
  | succ n ih =>
    cases l with
    | nil =>
      obtain ⟨s', hs⟩ := V.get_nil h
      simp only [utf8Sum, utf8Read, hs]
      exact utf8Read_dead _ _ _ (by simp [IStream.good])
    | cons b bs =>
      obtain ⟨s', hs, hr⟩ := V.get_cons h
      simp only [utf8Sum, utf8Read, hs]
      exact ih _ s' bs hr

theorem utf8_follows (V : View B R) : Follows (utf8Decode B) R utf8Step where
  nil h := by
    obtain ⟨s', hs⟩ := V.peek_nil h
    simp [utf8Decode, hs]
  good {s l cp rest} h hst := by
    cases l with
    | nil => simp [utf8Step] at hst
    | cons b bs =>
      obtain ⟨s', hs, hr⟩ := V.peek_cons h
      simp only [utf8Step] at hst
      have := utf8Read_sum V (utf8ExtraTable.getD (castU 8 b) 0) 0 s' _ hr
      split at hst
      · simp at hst
      · rename_i r rest' heq
        rw [heq] at this
        obtain ⟨s'', h1, h2⟩ := this
        split at hst
        · simp at hst
        · rename_i hle
          simp only [Option.some.injEq, Prod.mk.injEq] at hst
          obtain ⟨hc, hrr⟩ := hst
          refine ⟨s'', ?_, hrr ▸ h2⟩
          simp only [utf8Decode, hs, h1]
          rw [if_neg hle]
          simp [← hc]
  bad {s l rest} h hst := by
    cases l with
    | nil => simp [utf8Step] at hst
    | cons b bs =>
      obtain ⟨s', hs, hr⟩ := V.peek_cons h
      simp only [utf8Step] at hst
      have := utf8Read_sum V (utf8ExtraTable.getD (castU 8 b) 0) 0 s' _ hr
      simp only [utf8Decode, hs, Bool.false_eq_true, if_false, true_and]
      split at hst
      · rename_i heq
        rw [heq] at this
        split
        · simp [IStream.setFail, IStream.good]
        · exact this
      · rename_i r rest' heq
        rw [heq] at this
        obtain ⟨s'', h1, h2⟩ := this
        split at hst
        · rename_i hgt
          rw [h1, if_pos hgt]; simp [IStream.setFail, IStream.good]
        · simp at hst
  stepnil := rfl
  stepcons u us := by
    simp only [utf8Step]
    split
    · simp
    · split <;> simp
  eof {s} h := by
    simp [utf8Decode, peek_notgood (notgood_of_eof h), h]

theorem castU16_lt (i : Int) : castU 16 i < 65536 := by
  unfold castU; simp only [Nat.reducePow]; omega

theorem decodeSurrogates_le {l t : Nat} (hl : isLead l = true) (ht : isTrail t = true) :
    0x10000 ≤ decodeSurrogates l t ∧ decodeSurrogates l t ≤ 0x10FFFF := by
  rw [decodeSurrogates_eq hl ht]
  simp only [isLead, isTrail, Bool.and_eq_true, decide_eq_true_eq] at hl ht
  omega

theorem utf16_follows (V : View B R) : Follows (utf16Decode B) R utf16Step where
  nil h := by
    obtain ⟨s', hs⟩ := V.get_nil h
    simp [utf16Decode, hs]
  good {s l cp rest} h hst := by
    cases l with
    | nil => simp [utf16Step] at hst
    | cons u us =>
      obtain ⟨s', hs, hr⟩ := V.get_cons h
      simp only [utf16Step] at hst
      split at hst
      · rename_i hl
        cases us with
        | nil => simp at hst
        | cons t ts =>
          obtain ⟨s'', hs', hr'⟩ := V.get_cons hr
          simp only at hst
          split at hst
          · rename_i ht
            simp only [Option.some.injEq, Prod.mk.injEq] at hst
            obtain ⟨rfl, rfl⟩ := hst
            refine ⟨s'', ?_, hr'⟩
            simp only [utf16Decode, hs, hl, hs', ht, if_true]
            have := (decodeSurrogates_le hl ht).2
            simp
            omega
          · simp at hst
      · rename_i hl
        simp only [Option.some.injEq, Prod.mk.injEq] at hst
        obtain ⟨rfl, rfl⟩ := hst
        refine ⟨s', ?_, hr⟩
        simp only [utf16Decode, hs, hl]
        have := castU16_lt u
        simp
        omega
  bad {s l rest} h hst := by
    cases l with
    | nil => simp [utf16Step] at hst
    | cons u us =>
      obtain ⟨s', hs, hr⟩ := V.get_cons h
      simp only [utf16Step] at hst
      split at hst
      · rename_i hl
        cases us with
        | nil =>
          obtain ⟨s'', hs'⟩ := V.get_nil hr
          simp only [utf16Decode, hs, hl, hs']
          rw [show isTrail (castU 16 (-1)) = false by decide +kernel]
          simp [IStream.good, IStream.setFail]
        | cons t ts =>
          obtain ⟨s'', hs', hr'⟩ := V.get_cons hr
          simp only at hst
          split at hst
          · simp at hst
          · rename_i ht
            simp only [utf16Decode, hs, hl, hs', ht]
            simp [IStream.good, IStream.setFail]
      · simp at hst
  stepnil := rfl
  stepcons u us := by
    simp only [utf16Step]
    split
    · split
      · simp
      · split <;> simp
    · simp
  eof {s} h := by
    simp [utf16Decode, get_notgood (notgood_of_eof h), h]

theorem utf32_follows (V : View B R) : Follows (utf32Decode B) R utf32Step where
  nil h := by
    obtain ⟨s', hs⟩ := V.get_nil h
    simp [utf32Decode, hs]
  good {s l cp rest} h hst := by
    cases l with
    | nil => simp [utf32Step] at hst
    | cons u us =>
      obtain ⟨s', hs, hr⟩ := V.get_cons h
      simp only [utf32Step] at hst
      split at hst
      · simp at hst
      · rename_i hl
        simp only [Option.some.injEq, Prod.mk.injEq] at hst
        obtain ⟨rfl, rfl⟩ := hst
        refine ⟨s', ?_, hr⟩
        simp only [utf32Decode, hs]
        rw [if_neg hl]
        simp
  bad {s l rest} h hst := by
    cases l with
    | nil => simp [utf32Step] at hst
    | cons u us =>
      obtain ⟨s', hs, hr⟩ := V.get_cons h
      simp only [utf32Step] at hst
      split at hst
      · rename_i hl
        simp only [utf32Decode, hs]
        rw [if_pos hl]; simp [IStream.setFail, IStream.good]
      · simp at hst
  stepnil := rfl
  stepcons u us := by
    simp only [utf32Step]
    split <;> simp
  eof {s} h := by
    simp [utf32Decode, get_notgood (notgood_of_eof h), h]

theorem ignore_follows (w : Nat) (V : View B R) : Follows (ignoreDecode w B) R (ignoreStep w) where
  nil h := by
    obtain ⟨s', hs⟩ := V.get_nil h
    simp [ignoreDecode, hs]
  good {s l cp rest} h hst := by
    cases l with
    | nil => simp [ignoreStep] at hst
    | cons u us =>
      obtain ⟨s', hs, hr⟩ := V.get_cons h
      simp only [ignoreStep, Option.some.injEq, Prod.mk.injEq] at hst
      obtain ⟨rfl, rfl⟩ := hst
      exact ⟨s', by simp [ignoreDecode, hs], hr⟩
  bad {s l rest} h hst := by
    cases l with
    | nil => simp [ignoreStep] at hst
    | cons u us => simp [ignoreStep] at hst
  stepnil := rfl
  stepcons u us := by simp [ignoreStep]
  eof {s} h := by
    simp [ignoreDecode, get_notgood (notgood_of_eof h), h]

theorem Enc.follows (e : Enc) (w : Nat) (V : View B R) : Follows (e.decode w B) R (e.step w) := by
  cases e
  · exact ignore_follows w V
  · exact utf8_follows V
  · exact utf16_follows V
  · exact utf32_follows V

/-! ## String buffers -/

theorem strView (w : Nat) : View (strSBuf w) (fun b l => l.all (· ≠ -1) ∧
    ∃ more, (b.str.drop b.idx).map (toIntType w) = l ++ more ∧ (more = [] ∨ more.head? = some (-1))) where
  calm := fun _ => rfl
  nil {s} h := by
    obtain ⟨_, more, h, hm⟩ := h
    simp only [List.nil_append] at h
    have : s.underflow w = -1 := by
      unfold StrBuf.underflow
      rw [← List.head?_drop]
      cases hd : List.drop s.idx s.str with
      | nil => simp
      | cons a as =>
        rw [hd] at h
        rcases hm with rfl | hm
        · simp at h
        · rw [← h] at hm
          simpa using hm
    simp [strSBuf, this]
  cons {s u us} h := by
    obtain ⟨ha, more, h, hm⟩ := h
    cases hd : List.drop s.idx s.str with
    | nil => rw [hd] at h; simp at h
    | cons a as =>
      rw [hd] at h
      simp only [List.map_cons, List.cons_append, List.cons.injEq] at h
      have hu : s.underflow w = u := by
        unfold StrBuf.underflow
        rw [← List.head?_drop, hd]
        simp [h.1]
      simp only [List.all_cons, Bool.and_eq_true, decide_eq_true_eq] at ha
      refine ⟨ha.1, hu, ⟨by simpa using ha, more, ?_, hm⟩, hu, ⟨by simpa using ha.2, more, ?_, hm⟩⟩
      · simp [strSBuf, hd, h]
      · have : List.drop (s.idx + 1) s.str = as := by
          have := congrArg List.tail hd
          simpa [List.tail_drop] using this
        simp [strSBuf, this, h]

/-! ## Clean text -/

/-- Characters as `int_type`. -/
def ints (l : List Nat) : List Int := l.map (fun u : Nat => (u : Int))

theorem ints_append (a b : List Nat) : ints (a ++ b) = ints a ++ ints b := by simp [ints]

/-- No unit is mistaken for eof. -/
def NoEof (w : Nat) (str : List Nat) : Prop := ∀ u ∈ str, w = 8 ∨ u ≠ 2 ^ w - 1

/-- A string buffer on `str` that still has to deliver `l`. -/
def StrAt (str : List Nat) (b : StrBuf) (l : List Int) : Prop :=
  b.str = str ∧ b.idx ≤ str.length ∧ ints (str.drop b.idx) = l

theorem toIntType_noEof {w u : Nat} (h : w = 8 ∨ u ≠ 2 ^ w - 1) : toIntType w u = (u : Int) := by
  unfold toIntType
  rw [if_neg, if_neg]
  · omega
  · rintro ⟨rfl, rfl⟩
    rcases h with h | h
    · exact absurd h (by decide)
    · exact h rfl

theorem strAtView (w : Nat) {str : List Nat} (hc : NoEof w str) :
    View (strSBuf w) (StrAt str) where
  calm := fun _ => rfl
  nil {b} h := by
    obtain ⟨h1, h2, h3⟩ := h
    subst h1
    have hl : b.str.length = b.idx := by
      have := congrArg List.length h3
      simp [ints] at this
      omega
    have : b.underflow w = -1 := by
      unfold StrBuf.underflow
      rw [List.getElem?_eq_none (by omega)]
    simp [strSBuf, this]
  cons {b u us} h := by
    obtain ⟨h1, h2, h3⟩ := h
    subst h1
    cases hd : List.drop b.idx b.str with
    | nil => rw [hd] at h3; simp [ints] at h3
    | cons a as =>
      rw [hd] at h3
      have hmem : a ∈ b.str := by
        apply List.mem_of_mem_drop (i := b.idx); rw [hd]; simp
      simp only [ints, List.map_cons, List.cons.injEq] at h3
      have hu : b.underflow w = u := by
        unfold StrBuf.underflow
        rw [← List.head?_drop, hd]
        simp only [List.head?_cons]
        rw [toIntType_noEof (hc a hmem)]; exact h3.1
      have hlt : b.idx < b.str.length := by
        have := congrArg List.length hd
        simp at this
        omega
      have ht : List.drop (b.idx + 1) b.str = as := by
        have := congrArg List.tail hd
        simpa [List.tail_drop] using this
      refine ⟨by omega, hu, ⟨rfl, h2, ?_⟩, hu, ⟨rfl, hlt, ?_⟩⟩
      · show ints (List.drop b.idx b.str) = _
        rw [hd]; simp [ints, h3]
      · show ints (List.drop (b.idx + 1) b.str) = _
        rw [ht]; simp [ints, h3]

theorem StrAt.idx_eq {str : List Nat} {b : StrBuf} {suf : List Nat} {pre : List Nat}
    (h : StrAt str b (ints suf)) (hs : str = pre ++ suf) : b = ⟨str, pre.length⟩ := by
  obtain ⟨h1, h2, h3⟩ := h
  have := congrArg List.length h3
  simp [ints] at this
  have hl := congrArg List.length hs
  simp at hl
  cases b
  simp at *
  exact ⟨h1, by omega⟩

theorem strAt_start (pre suf : List Nat) : StrAt (pre ++ suf) ⟨pre ++ suf, pre.length⟩ (ints suf) := by
  simp [StrAt]

theorem castU_nat (n u : Nat) : castU n (u : Int) = u % 2 ^ n := by
  unfold castU
  rw [← Int.natCast_emod, Int.toNat_natCast]

theorem castU8_nat {u : Nat} (h : u < 256) : castU 8 (u : Int) = u := by
  rw [castU_nat]; exact Nat.mod_eq_of_lt h

theorem utf8Extra_eq (b : Nat) (h : b < 256) : utf8ExtraTable.getD b 0 =
    if b < 0xC0 then 0 else if b < 0xE0 then 1 else if b < 0xF0 then 2
    else if b < 0xF8 then 3 else if b < 0xFC then 4 else 5 := by
  have : ∀ b < 256, utf8ExtraTable.getD b 0 =
    if b < 0xC0 then 0 else if b < 0xE0 then 1 else if b < 0xF0 then 2
    else if b < 0xF8 then 3 else if b < 0xFC then 4 else 5 := by decide +kernel
  exact this b h

theorem u32_of_lt {n : Nat} (h : n < 4294967296) : u32 n = n := Nat.mod_eq_of_lt h

theorem u32sub_of_le {a b : Nat} (h : b ≤ a) (ha : a < 4294967296) : u32sub a b = a - b := by
  unfold u32sub; omega

theorem utf8Step_1 {b : Nat} (h : b < 0xC0) (rest : List Int) :
    utf8Step ((b : Int) :: rest) = some (some b, rest) := by
  simp only [utf8Step]
  rw [castU8_nat (by omega), utf8Extra_eq _ (by omega), if_pos h]
  simp only [utf8Sum]
  rw [castU8_nat (by omega)]
  simp only [utf8Offsets, List.getD_cons_zero, Nat.zero_add]
  rw [u32_of_lt (by omega), u32sub_of_le (by omega) (by omega), if_neg (by omega)]
  simp

theorem utf8Step_2 {a b : Nat} (h : 0xC0 ≤ a) (h' : a < 0xE0) (hb : b < 256) (rest : List Int)
    {cp : Nat} (hcp : a * 64 + b = cp + 0x3080) :
    utf8Step ((a : Int) :: (b : Int) :: rest) = some (some cp, rest) := by
  simp only [utf8Step]
  rw [castU8_nat (by omega), utf8Extra_eq _ (by omega), if_neg (by omega), if_pos h']
  simp only [utf8Sum]
  rw [castU8_nat (by omega), castU8_nat hb]
  simp only [utf8Offsets, List.getD_cons_zero, List.getD_cons_succ, Nat.zero_add, Nat.shiftLeft_eq,
    Nat.reducePow]
  rw [u32_of_lt (n := a) (by omega), u32_of_lt (n := a * 64) (by omega), u32_of_lt (by omega),
    u32sub_of_le (by omega) (by omega), if_neg (by omega)]
  simp; omega

theorem utf8Step_3 {a b c : Nat} (h : 0xE0 ≤ a) (h' : a < 0xF0) (hb : b < 256) (hc : c < 256)
    (rest : List Int) {cp : Nat} (hcp : (a * 64 + b) * 64 + c = cp + 0xE2080) :
    utf8Step ((a : Int) :: (b : Int) :: (c : Int) :: rest) = some (some cp, rest) := by
  simp only [utf8Step]
  rw [castU8_nat (by omega), utf8Extra_eq _ (by omega), if_neg (by omega), if_neg (by omega),
    if_pos h']
  simp only [utf8Sum]
  rw [castU8_nat (by omega), castU8_nat hb, castU8_nat hc]
  simp only [utf8Offsets, List.getD_cons_zero, List.getD_cons_succ, Nat.zero_add, Nat.shiftLeft_eq,
    Nat.reducePow]
  rw [u32_of_lt (n := a) (by omega), u32_of_lt (n := a * 64) (by omega),
    u32_of_lt (n := a * 64 + b) (by omega), u32_of_lt (n := (a * 64 + b) * 64) (by omega),
    u32_of_lt (by omega), u32sub_of_le (by omega) (by omega), if_neg (by omega)]
  simp; omega

theorem utf8Step_4 {a b c d : Nat} (h : 0xF0 ≤ a) (h' : a < 0xF8) (hb : b < 256) (hc : c < 256)
    (hd : d < 256) (rest : List Int) {cp : Nat}
    (hcp : ((a * 64 + b) * 64 + c) * 64 + d = cp + 0x3C82080) (hle : cp ≤ 0x10FFFF) :
    utf8Step ((a : Int) :: (b : Int) :: (c : Int) :: (d : Int) :: rest) = some (some cp, rest) := by
  simp only [utf8Step]
  rw [castU8_nat (by omega), utf8Extra_eq _ (by omega), if_neg (by omega), if_neg (by omega),
    if_neg (by omega), if_pos h']
  simp only [utf8Sum]
  rw [castU8_nat (by omega), castU8_nat hb, castU8_nat hc, castU8_nat hd]
  simp only [utf8Offsets, List.getD_cons_zero, List.getD_cons_succ, Nat.zero_add, Nat.shiftLeft_eq,
    Nat.reducePow]
  rw [u32_of_lt (n := a) (by omega), u32_of_lt (n := a * 64) (by omega),
    u32_of_lt (n := a * 64 + b) (by omega), u32_of_lt (n := (a * 64 + b) * 64) (by omega),
    u32_of_lt (n := (a * 64 + b) * 64 + c) (by omega),
    u32_of_lt (n := ((a * 64 + b) * 64 + c) * 64) (by omega),
    u32_of_lt (by omega), u32sub_of_le (by omega) (by omega), if_neg (by omega)]
  simp; omega

theorem utf8Step_enc {cp : Nat} (h : cp ≤ 0x10FFFF) (rest : List Int) :
    utf8Step (ints (Spec.utf8 cp) ++ rest) = some (some cp, rest) := by
  unfold Spec.utf8 ints
  split
  · exact utf8Step_1 (by omega) rest
  split
  · exact utf8Step_2 (by omega) (by omega) (by omega) rest (by omega)
  split
  · exact utf8Step_3 (by omega) (by omega) (by omega) (by omega) rest (by omega)
  · exact utf8Step_4 (by omega) (by omega) (by omega) (by omega) (by omega) rest (by omega) h

theorem utf16Step_enc {cp : Nat} (h : cp ≤ 0x10FFFF) (hs : isLead cp = false) (rest : List Int) :
    utf16Step (ints (Spec.utf16 cp) ++ rest) = some (some cp, rest) := by
  unfold Spec.utf16 ints
  split
  · simp only [utf16Step, List.map_cons, List.map_nil, List.cons_append, List.nil_append]
    rw [castU_nat, Nat.mod_eq_of_lt (by simp only [Nat.reducePow]; omega), hs]
    simp
  · have hl : isLead (55296 + (cp - 65536) / 1024) = true := by simp [isLead]; omega
    have ht : isTrail (56320 + (cp - 65536) % 1024) = true := by simp [isTrail]; omega
    simp only [utf16Step, List.map_cons, List.map_nil, List.cons_append, List.nil_append]
    rw [castU_nat, Nat.mod_eq_of_lt (by simp only [Nat.reducePow]; omega), castU_nat,
      Nat.mod_eq_of_lt (by simp only [Nat.reducePow]; omega), hl, if_pos rfl, if_pos ht,
      decodeSurrogates_eq hl ht]
    simp; omega

theorem utf32Step_enc {cp : Nat} (h : cp ≤ 0x10FFFF) (rest : List Int) :
    utf32Step (ints (Spec.utf32 cp) ++ rest) = some (some cp, rest) := by
  unfold Spec.utf32 ints
  simp only [utf32Step, List.map_cons, List.map_nil, List.cons_append, List.nil_append]
  rw [castU_nat, Nat.mod_eq_of_lt (by simp only [Nat.reducePow]; omega), if_neg (by omega)]

theorem utf8Sum_spec (n cp : Nat) (l : List Int) (r : Nat) (rest : List Int)
    (h : utf8Sum n cp l = some (r, rest)) : n + 1 ≤ l.length ∧ rest = l.drop (n + 1) := by
  induction n generalizing cp l with
  | zero =>
    cases l with
    | nil => simp [utf8Sum] at h
    | cons b bs => simp [utf8Sum] at h; simp [h.2]
  | succ n ih =>
    cases l with
    | nil => simp [utf8Sum] at h
    | cons b bs =>
      simp only [utf8Sum] at h
      have := ih _ _ h
      simp; exact this

theorem utf8Sum_none (n cp : Nat) (l : List Int) (h : l.length < n + 1) : utf8Sum n cp l = none := by
  cases hs : utf8Sum n cp l with
  | none => rfl
  | some p => have := utf8Sum_spec n cp l p.1 p.2 hs; omega

theorem utf8Extra_le (b : Nat) : utf8ExtraTable.getD b 0 ≤ 5 := by
  by_cases h : b < 256
  · rw [utf8Extra_eq b h]; repeat (split; omega)
    omega
  · have : utf8ExtraTable.length = 256 := by decide +kernel
    rw [List.getD_eq_getElem?_getD, List.getElem?_eq_none (by omega)]; simp

/-- Everything about an accepted UTF-8 sequence. -/
theorem utf8Step_good {l rest : List Int} {cp : Nat} (h : utf8Step l = some (some cp, rest)) :
    ∃ b bs, l = b :: bs ∧ utf8ExtraTable.getD (castU 8 b) 0 + 1 ≤ l.length ∧
      rest = l.drop (utf8ExtraTable.getD (castU 8 b) 0 + 1) ∧ cp ≤ 0x10FFFF := by
  cases l with
  | nil => simp [utf8Step] at h
  | cons b bs =>
    refine ⟨b, bs, rfl, ?_⟩
    simp only [utf8Step] at h
    split at h
    · simp at h
    · rename_i r rest' heq
      have hs := utf8Sum_spec _ _ _ _ _ heq
      split at h
      · simp at h
      · rename_i hle
        simp only [Option.some.injEq, Prod.mk.injEq] at h
        refine ⟨hs.1, h.2 ▸ hs.2, by omega⟩

theorem castU8_lt (i : Int) : castU 8 i < 256 := by
  unfold castU; simp only [Nat.reducePow]; omega

theorem Enc.step_good {e : Enc} {w : Nat} {l rest : List Int} {cp : Nat}
    (h : e.step w l = some (some cp, rest)) : ∃ k, 1 ≤ k ∧ k ≤ l.length ∧ rest = l.drop k := by
  cases e
  · cases l with
    | nil => simp [Enc.step, ignoreStep] at h
    | cons u us =>
      simp [Enc.step, ignoreStep] at h
      exact ⟨1, by omega, by simp, by simp [h.2]⟩
  · obtain ⟨b, bs, _, h1, h2, _⟩ := utf8Step_good h
    exact ⟨_, by omega, h1, h2⟩
  · cases l with
    | nil => simp [Enc.step, utf16Step] at h
    | cons u us =>
      simp only [Enc.step, utf16Step] at h
      split at h
      · cases us with
        | nil => simp at h
        | cons t ts =>
          simp only at h
          split at h
          · simp at h; exact ⟨2, by omega, by simp, by simp [h.2]⟩
          · simp at h
      · simp at h; exact ⟨1, by omega, by simp, by simp [h.2]⟩
  · cases l with
    | nil => simp [Enc.step, utf32Step] at h
    | cons u us =>
      simp only [Enc.step, utf32Step] at h
      split at h
      · simp at h
      · simp at h; exact ⟨1, by omega, by simp, by simp [h.2]⟩

theorem ints_drop (k : Nat) (l : List Nat) : ints (l.drop k) = (ints l).drop k := by
  simp [ints]

theorem ints_length (l : List Nat) : (ints l).length = l.length := by simp [ints]

end Configor
