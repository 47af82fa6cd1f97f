import Verif.Proofs.ZSim
/-!
What the buffers of the library deliver: files, and adapters that end with NULs.
-/
namespace Configor
open Lexer Spec

/-! ## Files -/

/-- A file buffer that still has to deliver `l`. -/
def FileAt (b : CacheBuf (List Nat)) (l : List Int) : Prop :=
  (∀ u ∈ b.dev, u ≠ 0) ∧
  ((b.last = 0 ∧ l = ints b.dev) ∨ (b.last ≠ 0 ∧ b.last ≠ -1 ∧ l = b.last :: ints b.dev) ∨
    (b.last = -1 ∧ b.dev = [] ∧ l = []))

theorem fileView : View (cacheSBuf fgetc) FileAt where
  calm := fun _ => rfl
  nil {b} h := by
    obtain ⟨dev, last⟩ := b
    obtain ⟨_, ⟨h1, h2⟩ | ⟨_, _, h2⟩ | ⟨h1, h2, _⟩⟩ := h
    · simp only at h1 h2
      have : dev = [] := by simpa [ints] using h2.symm
      subst this h1
      simp [cacheSBuf, CacheBuf.underflow, fgetc]
    · simp at h2
    · simp only at h1 h2
      subst h1 h2
      simp [cacheSBuf, CacheBuf.underflow]
  cons {b u us} h := by
    obtain ⟨dev, last⟩ := b
    obtain ⟨h0, ⟨h1, h2⟩ | ⟨h1, h2, h3⟩ | ⟨_, _, h2⟩⟩ := h
    · simp only at h0 h1 h2
      subst h1
      cases dev with
      | nil => simp [ints] at h2
      | cons v vs =>
        simp only [ints, List.map_cons, List.cons.injEq] at h2
        obtain ⟨rfl, rfl⟩ := h2
        have hv : v ≠ 0 := h0 v (by simp)
        have hvs : ∀ x ∈ vs, x ≠ 0 := fun x hx => h0 x (by simp [hx])
        refine ⟨by omega, rfl, ⟨hvs, Or.inr (Or.inl ⟨?_, ?_, rfl⟩)⟩, rfl, ⟨hvs, Or.inl ⟨rfl, rfl⟩⟩⟩
        · show ((v : Int)) ≠ 0; omega
        · show ((v : Int)) ≠ -1; omega
    · simp only at h0 h1 h2 h3
      simp only [List.cons.injEq] at h3
      obtain ⟨rfl, rfl⟩ := h3
      simp only [cacheSBuf, CacheBuf.underflow, if_pos h1, ne_eq]
      exact ⟨h2, trivial, ⟨h0, Or.inr (Or.inl ⟨h1, h2, rfl⟩)⟩, trivial, ⟨h0, Or.inl ⟨rfl, rfl⟩⟩⟩
    · simp at h2

theorem unitsOf_ints {w : Nat} {str : List Nat} (h : NoEof w str) : unitsOf w str = ints str := by
  have e : str.map (toIntType w) = ints str := by
    unfold ints
    apply List.map_congr_left
    intro u hu
    exact toIntType_noEof (h u hu)
  unfold unitsOf
  rw [e]
  clear h e
  induction str with
  | nil => rfl
  | cons u us ih =>
    simp only [ints, List.map_cons] at ih ⊢
    rw [List.takeWhile_cons_of_pos (by simp only [ne_eq, decide_eq_true_eq]; omega), ih]

/-! ## Buffers that never end -/

variable {σ : Type} {B : SBuf σ} {R : σ → List Int → Prop}

/-- `R s l`: from state `s` the characters `l` come, and then zeros. -/
structure Feed (B : SBuf σ) (R : σ → List Int → Prop) : Prop where
  cons : ∀ {s u us}, R s (u :: us) → u ≠ -1 ∧
    (B.sgetc s).1 = u ∧ R (B.sgetc s).2 (u :: us) ∧ (B.sbumpc s).1 = u ∧ R (B.sbumpc s).2 us
  calm : ∀ {s l}, R s l → B.throws s = false
  zero : ∀ {s}, R s [] → R s [0]

theorem Feed.get (V : Feed B R) {s : σ} {u us} (h : R s (u :: us)) :
    ∃ s', (⟨s, false, false⟩ : IStream σ).get B = (u, ⟨s', false, false⟩) ∧ R s' us := by
  obtain ⟨h0, _, _, h1, h2⟩ := V.cons h
  refine ⟨_, ?_, h2⟩
  simp [IStream.get, IStream.good, h1, h0, V.calm h]

theorem Feed.peek (V : Feed B R) {s : σ} {u us} (h : R s (u :: us)) :
    ∃ s', (⟨s, false, false⟩ : IStream σ).peek B = (u, ⟨s', false, false⟩) ∧ R s' (u :: us) := by
  obtain ⟨h0, h1, h2, _⟩ := V.cons h
  refine ⟨_, ?_, h2⟩
  simp [IStream.peek, IStream.good, h1, h0, V.calm h]

theorem Feed.read (V : Feed B R) (n cp : Nat) (s : σ) (l : List Int) (h : R s l) {r : Nat} {rest : List Int}
    (hs : utf8Sum n cp l = some (r, rest)) :
    ∃ s', utf8Read B n cp ⟨s, false, false⟩ = (r, ⟨s', false, false⟩) ∧ R s' rest := by
  induction n generalizing cp s l with
  | zero =>
    cases l with
    | nil => simp [utf8Sum] at hs
    | cons b bs =>
      obtain ⟨s', he, hr⟩ := V.get h
      simp only [utf8Sum, Option.some.injEq, Prod.mk.injEq] at hs
      simp only [utf8Read, he]
      exact ⟨s', by rw [hs.1], hs.2 ▸ hr⟩
  | succ n ih =>
    cases l with
    | nil => simp [utf8Sum] at hs
    | cons b bs =>
      obtain ⟨s', he, hr⟩ := V.get h
      simp only [utf8Sum] at hs
      simp only [utf8Read, he]
      exact ih _ s' bs hr hs

theorem utf8Sum_some (n cp : Nat) (l : List Int) (h : n < l.length) : ∃ r rest, utf8Sum n cp l = some (r, rest) := by
  induction n generalizing cp l with
  | zero =>
    cases l with
    | nil => simp at h
    | cons b bs => exact ⟨_, _, rfl⟩
  | succ n ih =>
    cases l with
    | nil => simp at h
    | cons b bs => exact ih _ bs (by simpa using h)

theorem extra_le (i : Nat) : utf8ExtraTable.getD i 0 ≤ 5 := by
  have h : ∀ x ∈ utf8ExtraTable, x ≤ 5 := by decide +kernel
  rw [List.getD_eq_getElem?_getD]
  cases hi : utf8ExtraTable[i]? with
  | none => simp
  | some x => exact h x (List.mem_of_getElem? hi)

theorem Feed.good (V : Feed B R) (e : Enc) (w : Nat) {s : σ} {l rest : List Int} {cp : Nat} (h : R s l)
    (hst : e.step w l = some (some cp, rest)) :
    ∃ s', e.decode w B ⟨s, false, false⟩ = (true, cp, ⟨s', false, false⟩) ∧ R s' rest := by
  cases l with
  | nil => cases e <;> simp [Enc.step, ignoreStep, utf8Step, utf16Step, utf32Step] at hst
  | cons u us =>
    cases e with
    | ignore =>
      obtain ⟨s', hs, hr⟩ := V.get h
      simp only [Enc.step, ignoreStep, Option.some.injEq, Prod.mk.injEq] at hst
      obtain ⟨rfl, rfl⟩ := hst
      exact ⟨s', by simp [Enc.decode, ignoreDecode, hs], hr⟩
    | utf8 =>
      obtain ⟨s', hs, hr⟩ := V.peek h
      simp only [Enc.step, utf8Step] at hst
      split at hst
      · simp at hst
      · rename_i r rest' heq
        obtain ⟨s'', h1, h2⟩ := V.read _ 0 s' _ hr heq
        split at hst
        · simp at hst
        · rename_i hle
          simp only [Option.some.injEq, Prod.mk.injEq] at hst
          obtain ⟨hc, hrr⟩ := hst
          refine ⟨s'', ?_, hrr ▸ h2⟩
          simp only [Enc.decode, utf8Decode, hs, h1]
          rw [if_neg hle]
          simp [← hc]
    | utf16 =>
      obtain ⟨s', hs, hr⟩ := V.get h
      simp only [Enc.step, utf16Step] at hst
      split at hst
      · rename_i hl
        cases us with
        | nil => simp at hst
        | cons t ts =>
          obtain ⟨s'', hs', hr'⟩ := V.get hr
          simp only at hst
          split at hst
          · rename_i ht
            simp only [Option.some.injEq, Prod.mk.injEq] at hst
            obtain ⟨rfl, rfl⟩ := hst
            refine ⟨s'', ?_, hr'⟩
            simp only [Enc.decode, utf16Decode, hs, hl, hs', ht, if_true]
            have := (decodeSurrogates_le hl ht).2
            simp
            omega
          · simp at hst
      · rename_i hl
        simp only [Option.some.injEq, Prod.mk.injEq] at hst
        obtain ⟨rfl, rfl⟩ := hst
        refine ⟨s', ?_, hr⟩
        simp only [Enc.decode, utf16Decode, hs, hl]
        have := castU16_lt u
        simp
        omega
    | utf32 =>
      obtain ⟨s', hs, hr⟩ := V.get h
      simp only [Enc.step, utf32Step] at hst
      split at hst
      · simp at hst
      · rename_i hl
        simp only [Option.some.injEq, Prod.mk.injEq] at hst
        obtain ⟨rfl, rfl⟩ := hst
        refine ⟨s', ?_, hr⟩
        simp only [Enc.decode, utf32Decode, hs]
        rw [if_neg hl]
        simp

theorem Feed.bad (V : Feed B R) (e : Enc) (w : Nat) {s : σ} {l rest : List Int} (h : R s l)
    (hst : e.step w l = some (none, rest)) (hl6 : 6 ≤ l.length) :
    (e.decode w B ⟨s, false, false⟩).1 = true ∧ (e.decode w B ⟨s, false, false⟩).2.2.good = false := by
  cases l with
  | nil => simp at hl6
  | cons u us =>
    cases e with
    | ignore => simp [Enc.step, ignoreStep] at hst
    | utf8 =>
      obtain ⟨s', hs, hr⟩ := V.peek h
      simp only [Enc.step, utf8Step] at hst
      obtain ⟨r, rest', heq⟩ := utf8Sum_some (utf8ExtraTable.getD (castU 8 u) 0) 0 (u :: us)
        (by have := extra_le (castU 8 u); omega)
      rw [heq] at hst
      obtain ⟨s'', h1, h2⟩ := V.read _ 0 s' _ hr heq
      simp only at hst
      split at hst
      · rename_i hgt
        simp only [Enc.decode, utf8Decode, hs, h1]
        rw [if_pos hgt]
        simp [IStream.setFail, IStream.good]
      · simp at hst
    | utf16 =>
      obtain ⟨s', hs, hr⟩ := V.get h
      simp only [Enc.step, utf16Step] at hst
      split at hst
      · rename_i hl
        cases us with
        | nil => simp at hl6
        | cons t ts =>
          obtain ⟨s'', hs', hr'⟩ := V.get hr
          simp only at hst
          split at hst
          · simp at hst
          · rename_i ht
            simp only [Enc.decode, utf16Decode, hs, hl, hs', ht]
            simp [IStream.good, IStream.setFail]
      · simp at hst
    | utf32 =>
      obtain ⟨s', hs, hr⟩ := V.get h
      simp only [Enc.step, utf32Step] at hst
      split at hst
      · rename_i hl
        simp only [Enc.decode, utf32Decode, hs]
        rw [if_pos hl]; simp [IStream.setFail, IStream.good]
      · simp at hst

theorem Enc.step_nil (e : Enc) (w : Nat) : e.step w [] = none := (e.follows w (strView w)).stepnil
theorem Enc.step_cons (e : Enc) (w : Nat) (u : Int) (us : List Int) : e.step w (u :: us) ≠ none :=
  (e.follows w (strView w)).stepcons u us

theorem Enc.step_zero (e : Enc) (w : Nat) (us : List Int) : e.step w (0 :: us) = some (some 0, us) := by
  have h8 : castU 8 0 = 0 := by decide
  have h16 : castU 16 0 = 0 := by decide
  have h32 : castU 32 0 = 0 := by decide
  cases e
  · have hw : castU w 0 = 0 := by simp [castU]
    have : signExtend w 0 = 0 := by
      unfold signExtend
      rw [if_pos (Nat.two_pow_pos _)]
      rfl
    simp [Enc.step, ignoreStep, hw, this, h32]
  · have : utf8ExtraTable.getD 0 0 = 0 := by decide
    simp only [Enc.step, utf8Step, h8, this]
    simp [utf8Sum, h8, u32, u32sub, utf8Offsets]
  · simp [Enc.step, utf16Step, h16, isLead]
  · simp [Enc.step, utf32Step, h32]

/-- Lists that no character at the end is cut off from. -/
def Safe (l : List Int) : Prop := (∃ p, l = p ++ List.replicate 6 0) ∨ ∃ j, l = List.replicate j 0

theorem Safe.drop {l : List Int} (h : Safe l) (k : Nat) : Safe (l.drop k) := by
  rcases h with ⟨p, rfl⟩ | ⟨j, rfl⟩
  · by_cases hk : k ≤ p.length
    · left; exact ⟨p.drop k, by rw [List.drop_append_of_le_length hk]⟩
    · right
      refine ⟨6 - (k - p.length), ?_⟩
      rw [List.drop_append, List.drop_eq_nil_of_le (by omega), List.nil_append, List.drop_replicate]
  · right; exact ⟨j - k, by rw [List.drop_replicate]⟩

theorem Safe.long {l rest : List Int} (h : Safe l) {e : Enc} {w : Nat} (hst : e.step w l = some (none, rest)) :
    6 ≤ l.length := by
  rcases h with ⟨p, rfl⟩ | ⟨j, rfl⟩
  · simp
  · cases j with
    | zero => simp [Enc.step_nil] at hst
    | succ j => rw [List.replicate_succ, Enc.step_zero] at hst; simp at hst

/-- A stream that delivers the code points of the source that does not end. -/
def ZSt (R : σ → List Int → Prop) (step : Step) (s : IStream σ) (r : List (Option Nat) × Bool) : Prop :=
  s.eofb = false ∧ s.failb = false ∧ r.2 = false ∧
    ∃ l, R s.sb l ∧ r.1 = items step l ∧ ((∀ x ∈ items step l, x ≠ none) ∨ Safe l)

theorem z_src {e : Enc} {w : Nat} (V : Feed B R) : SrcSim (istreamSrc e w B) zSrc (ZSt R (e.step w)) := by
  have hsh := e.shrinks w
  have hnil := e.step_nil w
  -- the two possible reads
  have live : ∀ (s : IStream σ) (r : List (Option Nat) × Bool), ZSt R (e.step w) s r →
      ((e.decode w B s).1 = true ∧ (e.decode w B s).2.2.good = true ∧ zSrc.good (zSrc.decode r).2.2 = true ∧
        (e.decode w B s).2.1 = (zSrc.decode r).2.1 ∧ ZSt R (e.step w) (e.decode w B s).2.2 (zSrc.decode r).2.2) ∨
      ((e.decode w B s).1 = true ∧ (e.decode w B s).2.2.good = false ∧ zSrc.good (zSrc.decode r).2.2 = false) := by
    rintro ⟨sb, _, _⟩ ⟨r, _⟩ ⟨h1, h2, h3, l, hl, hr, hk⟩
    simp only at h1 h2 h3 hl hr
    subst h1 h2 h3
    cases hst : e.step w l with
    | none =>
      have : l = [] := by
        cases l with
        | nil => rfl
        | cons u us => exact absurd hst (e.step_cons w u us)
      subst this
      rw [items_nil hnil] at hr
      subst hr
      obtain ⟨s', hd, hr'⟩ := V.good e w (V.zero hl) (e.step_zero w [])
      left
      rw [hd]
      exact ⟨rfl, rfl, rfl, rfl, rfl, rfl, rfl, [], hr', by rw [items_nil hnil]; rfl, Or.inr (Or.inr ⟨0, rfl⟩)⟩
    | some p =>
      obtain ⟨o, rest⟩ := p
      cases o with
      | some cp =>
        left
        rw [items_cons hsh hnil hst] at hr hk
        subst hr
        obtain ⟨s', hd, hr'⟩ := V.good e w hl hst
        rw [hd]
        refine ⟨rfl, rfl, rfl, rfl, rfl, rfl, rfl, rest, hr', rfl, ?_⟩
        rcases hk with hk | hk
        · exact Or.inl fun x hx => hk x (by simp [hx])
        · obtain ⟨k, _, _, rfl⟩ := Enc.step_good hst
          exact Or.inr (hk.drop k)
      | none =>
        right
        rw [items_bad hnil hst] at hr hk
        subst hr
        rcases hk with hk | hk
        · exact absurd rfl (hk none (by simp))
        · have := V.bad e w hl hst (hk.long hst)
          exact ⟨this.1, this.2, rfl⟩
  refine ⟨?_, ?_, ?_, ?_, ?_⟩
  · intro s r h; exact h.1
  · intro s r h
    rcases live s r h with h | h
    · exact h.1
    · exact h.1
  · intro s r h _
    rcases live s r h with h | h
    · exact h.2.1.trans h.2.2.1.symm
    · exact h.2.1.trans h.2.2.symm
  · intro s r h hd hg
    rcases live s r h with h | h
    · exact ⟨h.2.2.2.1, h.2.2.2.2⟩
    · exact absurd (h.2.1.symm.trans hg) (by simp)
  · intro s r h hd
    rcases live s r h with h | h
    · exact absurd (h.1.symm.trans hd) (by simp)
    · exact absurd (h.1.symm.trans hd) (by simp)

/-! ## Adapters -/

/-- An adapter buffer that still has to deliver `l`, and then zeros. -/
def AdaptAt (w : Nat) (b : CacheBuf (List Nat)) (l : List Int) : Prop :=
  (∀ u ∈ b.dev, signExtend w u ≠ 0 ∧ signExtend w u ≠ -1) ∧ b.last ≠ -1 ∧
  ∃ k, l = (if b.last = 0 then [] else [b.last]) ++ (b.dev.map (signExtend w) ++ List.replicate k 0)

theorem adaptFeed (w : Nat) : Feed (cacheSBuf (adapterRead w)) (AdaptAt w) where
  calm := fun _ => rfl
  cons {b u us} h := by
    obtain ⟨dev, last⟩ := b
    obtain ⟨h0, h1, k, h2⟩ := h
    simp only at h0 h1 h2
    by_cases hz : last = 0
    · subst hz
      simp only [if_true, List.nil_append] at h2
      cases dev with
      | nil =>
        cases k with
        | zero => simp at h2
        | succ k =>
          simp only [List.map_nil, List.nil_append, List.replicate_succ, List.cons.injEq] at h2
          obtain ⟨rfl, rfl⟩ := h2
          refine ⟨by decide, rfl, ⟨by simp [cacheSBuf, CacheBuf.underflow, adapterRead], by
            simp [cacheSBuf, CacheBuf.underflow, adapterRead], k + 1, ?_⟩, rfl,
            ⟨by simp [cacheSBuf, CacheBuf.underflow, adapterRead], by
            simp [cacheSBuf, CacheBuf.underflow, adapterRead], k, ?_⟩⟩
          · simp [cacheSBuf, CacheBuf.underflow, adapterRead, List.replicate_succ]
          · simp [cacheSBuf, CacheBuf.underflow, adapterRead]
      | cons v vs =>
        simp only [List.map_cons, List.cons_append, List.cons.injEq] at h2
        obtain ⟨rfl, rfl⟩ := h2
        obtain ⟨hv0, hv1⟩ := h0 v (by simp)
        have hvs : ∀ x ∈ vs, signExtend w x ≠ 0 ∧ signExtend w x ≠ -1 := fun x hx => h0 x (by simp [hx])
        have e : CacheBuf.underflow (adapterRead w) ⟨v :: vs, 0⟩ = (signExtend w v, ⟨vs, signExtend w v⟩) := by
          simp [CacheBuf.underflow, adapterRead]
        simp only [cacheSBuf, e]
        refine ⟨hv1, trivial, ⟨hvs, hv1, k, ?_⟩, trivial, ⟨hvs, by simp, k, ?_⟩⟩
        · simp [hv0]
        · simp
    · rw [if_neg hz] at h2
      simp only [List.cons_append, List.nil_append, List.cons.injEq] at h2
      obtain ⟨rfl, rfl⟩ := h2
      have e : CacheBuf.underflow (adapterRead w) ⟨dev, u⟩ = (u, ⟨dev, u⟩) := by
        simp [CacheBuf.underflow, hz]
      simp only [cacheSBuf, e]
      refine ⟨h1, trivial, ⟨h0, h1, k, ?_⟩, trivial, ⟨h0, by simp, k, ?_⟩⟩
      · simp [hz]
      · simp
  zero {b} h := by
    obtain ⟨h0, h1, k, h2⟩ := h
    refine ⟨h0, h1, 1, ?_⟩
    by_cases hz : b.last = 0
    · rw [if_pos hz] at h2 ⊢
      have := (List.append_eq_nil_iff.mp h2.symm).2
      have := (List.append_eq_nil_iff.mp this).1
      rw [this]; rfl
    · rw [if_neg hz] at h2
      simp at h2

/-! ## Sign extension does not matter to the decoders -/

/-- The encoding's units fit into the character type. -/
def Enc.Fits (e : Enc) (w : Nat) : Prop :=
  match e with
  | .ignore => True
  | .utf8 => 8 ≤ w
  | .utf16 => 16 ≤ w
  | .utf32 => 32 ≤ w

theorem castU_signExtend {k w : Nat} (h : k ≤ w) (u : Nat) : castU k (signExtend w u) = castU k (u : Int) := by
  unfold castU signExtend
  split
  · rfl
  · congr 1
    obtain ⟨j, rfl⟩ : ∃ j, w = k + j := ⟨w - k, by omega⟩
    rw [Nat.pow_add]
    push_cast
    rw [Int.sub_mul_emod_self_left]

theorem utf8Sum_map {f : Int → Int} (hf : ∀ i, castU 8 (f i) = castU 8 i) (n cp : Nat) (l : List Int) :
    utf8Sum n cp (l.map f) = (utf8Sum n cp l).map fun p => (p.1, p.2.map f) := by
  induction n generalizing cp l with
  | zero => cases l <;> simp [utf8Sum, hf]
  | succ n ih => cases l <;> simp [utf8Sum, hf, ih]

theorem Enc.step_map (e : Enc) (w : Nat) {f : Int → Int} (hw : ∀ i, castU w (f i) = castU w i)
    (h8 : e = .utf8 → ∀ i, castU 8 (f i) = castU 8 i) (h16 : e = .utf16 → ∀ i, castU 16 (f i) = castU 16 i)
    (h32 : e = .utf32 → ∀ i, castU 32 (f i) = castU 32 i) (l : List Int) :
    (e.step w (l.map f)).map Prod.fst = (e.step w l).map Prod.fst ∧
    ∀ c r, e.step w l = some (some c, r) → e.step w (l.map f) = some (some c, r.map f) := by
  cases l with
  | nil => simp [Enc.step_nil]
  | cons u us =>
    cases e with
    | ignore => simp [Enc.step, ignoreStep, hw]
    | utf8 =>
      have hf := h8 rfl
      have hs := utf8Sum_map hf (utf8ExtraTable.getD (castU 8 u) 0) 0 (u :: us)
      simp only [List.map_cons] at hs
      simp only [Enc.step, utf8Step, List.map_cons, hf, hs]
      cases utf8Sum (utf8ExtraTable.getD (castU 8 u) 0) 0 (u :: us) with
      | none => simp
      | some p =>
        simp only [Option.map_some]
        split <;> simp_all
    | utf16 =>
      have hf := h16 rfl
      simp only [Enc.step, utf16Step, List.map_cons, hf]
      split
      · cases us with
        | nil => simp
        | cons t ts =>
          simp only [List.map_cons, hf]
          split <;> simp
      · simp
    | utf32 =>
      have hf := h32 rfl
      simp only [Enc.step, utf32Step, List.map_cons, hf]
      split <;> simp

theorem items_map {step : Step} (hs : Shrinks step) (hn : step [] = none) (hc : ∀ u us, step (u :: us) ≠ none)
    {f : Int → Int}
    (hf : ∀ l, (step (l.map f)).map Prod.fst = (step l).map Prod.fst ∧
      ∀ c r, step l = some (some c, r) → step (l.map f) = some (some c, r.map f)) (l : List Int) :
    items step (l.map f) = items step l := by
  generalize hk : l.length = k
  induction k using Nat.strongRecOn generalizing l with
  | ind k ih =>
    subst hk
    cases hst : step l with
    | none =>
      cases l with
      | nil => rfl
      | cons u us => exact absurd hst (hc u us)
    | some p =>
      obtain ⟨o, r⟩ := p
      cases o with
      | some c =>
        rw [items_cons hs hn hst, items_cons hs hn ((hf l).2 c r hst), ih _ (hs _ _ _ hst) _ rfl]
      | none =>
        have := (hf l).1
        rw [hst] at this
        simp only [Option.map_some] at this
        obtain ⟨⟨o, r'⟩, h1, h2⟩ := Option.map_eq_some_iff.mp this
        simp only at h2; subst h2
        rw [items_bad hn hst, items_bad hn h1]

/-- The code points of a text do not depend on whether its characters are signed. -/
theorem items_signExtend {e : Enc} {w : Nat} (hf : e.Fits w) (l : List Nat) :
    items (e.step w) (l.map (signExtend w)) = items (e.step w) (ints l) := by
  let f : Int → Int := fun i => if 0 ≤ i then signExtend w i.toNat else i
  have e1 : l.map (signExtend w) = (ints l).map f := by
    simp only [ints, List.map_map]
    apply List.map_congr_left
    intro u _
    simp [f]
  have hk : ∀ k, k ≤ w → ∀ i, castU k (f i) = castU k i := by
    intro k hk i
    simp only [f]
    split
    · rename_i hi
      rw [castU_signExtend hk, Int.toNat_of_nonneg hi]
    · rfl
  rw [e1]
  refine items_map (e.shrinks w) (e.step_nil w) (e.step_cons w) (fun l => e.step_map w (hk w (Nat.le_refl _)) ?_ ?_ ?_ l) _
  · rintro rfl; exact hk 8 hf
  · rintro rfl; exact hk 16 hf
  · rintro rfl; exact hk 32 hf

end Configor
