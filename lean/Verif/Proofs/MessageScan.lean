import Verif.Proofs.MessageLex
import Verif.Proofs.Layout
/-! What the messages of the scanner say: tokens. -/
set_option autoImplicit false
namespace Configor
open Lexer Spec

variable {F α β : Type} {C : Cfg CpS F} {l : List (Option Nat)} {d : Data F} {P : List Nat → Prop}

theorem errs_skipSpaces (H : Canon C) (n : Nat) (hl : Ok l) (hn : l.length + 1 ≤ n) (hb : l.length + 1 ≤ C.bound) (hm : Mal P l)
    (hs : ∀ g r, Gap g → l = (g ++ [0x2F]).map some ++ r → Spec.Readable r → first r ≠ 0x2F → first r ≠ 0x2A →
      P (text! "unexpected character '/'"))
    (hc : ∀ g t, Gap g → l = (g ++ 0x2F :: 0x2A :: t).map some → Unclosed t → P (text! "unexpected eof while reading comment")) :
    Errs P (Msg.skipSpaces C n) l d := by
  induction n generalizing l with
  | zero => exact .stop _ (by simp)
  | succ n ih =>
    unfold Msg.skipSpaces
    refine .bind (Erases.skipBlanks C _) ((post_skipBlanks H trivial C.bound hl hb).imp ?_) (errs_skipBlanks H _ hl hm)
    rintro bl _ l1 d1 hl1 ho1 ⟨rfl, hbl, hnb⟩ _ _
    have len1 : l.length = bl.length + l1.length := len_of hl1
    have hm1 : Mal P l1 := hm.suffix hl1
    refine .cur (.ite (fun h => ?_) fun _ => .pure _)
    have h : hd l1 = 0x2F := by simpa using h
    obtain ⟨r, hr⟩ := cons_of_hd (l := l1) (by omega)
    rw [h] at hr
    have len2 : l1.length = 1 + l1.tail.length := by rw [hr]; simp; omega
    have e1 : l1 = some 0x2F :: l1.tail := by rw [hr]; rfl
    refine .next H ho1 hm1 fun ho2 hm2 => .ite (fun h2 => ?_) fun h2 => .ite (fun h3 => ?_) fun h3 => .fail ?_
    · have h2 : hd l1.tail = 0x2F := by simpa using h2
      obtain ⟨r2, hr2⟩ := cons_of_hd (l := l1.tail) (by omega)
      have hone2 : one l1.tail = [0x2F] := by rw [hr2, h2]; rfl
      refine .bind (Erases.lineComment C _) ((post_lineComment H trivial C.bound ho2 (by omega)).imp ?_)
        (errs_lineComment H _ ho2 hm2)
      rintro t b l3 d3 hl3 ho3 ⟨rfl, u, rfl, hu, hbt, hbf⟩ _ _
      have len3 : l1.tail.length = (one l1.tail ++ u).length + l3.length := len_of hl3
      cases b with
      | false => exact .pure _
      | true =>
        have hnl := hbt rfl
        simp only [hone2, List.singleton_append, List.length_cons] at len3
        have eall : l = (bl ++ 0x2F :: 0x2F :: u).map some ++ l3 := by
          rw [hl1, e1, hl3, hone2]; simp
        have key : ∀ g', Gap g' → (∃ x rest, l3 = (g' ++ 0x2F :: x).map some ++ rest) →
            Gap (bl ++ 0x2F :: 0x2F :: u ++ g') := by
          rintro g' hg' ⟨x, rest, hx⟩
          rw [List.append_assoc]
          refine Gap.blanks hbl ?_
          cases g' with
          | nil => rw [hx] at hnl; simp [hd] at hnl
          | cons c g'' =>
            have hcn : c = hd l3 := by rw [hx]; rfl
            cases hg' with
            | blank _ hg'' =>
              have := Gap.line hu (nl := c) (by rw [hcn]; exact hnl) hg''
              simpa using this
            | line => rw [hx] at hnl; simp [hd] at hnl
            | block => rw [hx] at hnl; simp [hd] at hnl
        refine ih ho3 (by omega) (by omega) (hm2.suffix hl3) ?_ ?_
        · intro g' r' hg' he
          refine hs _ r' (key g' hg' ⟨[], r', he⟩) ?_
          rw [eall, he]; simp
        · intro g' t' hg' he
          refine hc _ t' (key g' hg' ⟨0x2A :: t', [], by rw [he]; simp⟩) ?_
          rw [eall, he]; simp
    · have h3 : hd l1.tail = 0x2A := by simpa using h3
      obtain ⟨r2, hr2⟩ := cons_of_hd (l := l1.tail) (by omega)
      have hone2 : one l1.tail = [0x2A] := by rw [hr2, h3]; rfl
      have e2 : l1.tail = some 0x2A :: l1.tail.tail := by rw [hr2, h3]; rfl
      refine .bind (Erases.blockComment C _) ((post_blockComment H trivial C.bound ho2 (by omega)).imp ?_)
        (errs_blockComment H _ ho2 hm2 fun t ht hu => hc bl t ?_ ?_ hu)
      · rintro t _ l3 d3 hl3 ho3 ⟨rfl, u, rfl, hu⟩ _ _
        have len3 : l1.tail.length = (one l1.tail ++ u).length + l3.length := len_of hl3
        simp only [hone2, List.singleton_append, List.length_cons] at len3
        have eall : l = (bl ++ 0x2F :: 0x2A :: u).map some ++ l3 := by
          rw [hl1, e1, hl3, hone2]; simp
        have key : ∀ g', Gap g' → Gap (bl ++ 0x2F :: 0x2A :: u ++ g') := by
          intro g' hg'
          rw [List.append_assoc]
          exact Gap.blanks hbl (by simpa using Gap.block hu hg')
        refine ih ho3 (by omega) (by omega) (hm2.suffix hl3) ?_ ?_
        · intro g' r' hg' he
          refine hs _ r' (key g' hg') ?_
          rw [eall, he]; simp
        · intro g' t' hg' he
          refine hc _ t' (key g' hg') ?_
          rw [eall, he]; simp
      · simpa using Gap.blanks hbl .nil
      · rw [hl1, e1, e2, ht]; simp
    · refine hs bl l1.tail (by simpa using Gap.blanks hbl .nil) ?_ ho2 ?_ ?_
      · rw [hl1, e1]; simp
      · rw [first_eq]; simpa using h2
      · rw [first_eq]; simpa using h3

theorem mod_ne_zero_of {w c x : Nat} (h : toChar w c = x) (hx : x ≠ 0) : c ≠ 0 := by
  rintro rfl
  rw [toChar_zero] at h
  exact hx h.symm

/-- Literals: `done` are the characters of the literal that have been read. -/
theorem errs_literalLoop (H : Canon C) (w rest done : List Nat) (tok : Token) (hw : w = done.map (· % 2 ^ C.w) ++ rest)
    (hne : ∀ c ∈ w, c ≠ 0) (hl : Ok l) (hm : Mal P l)
    (hk : ∀ t r, l = t.map some ++ r → Spec.Readable r → (done ++ t).map (· % 2 ^ C.w) = w.take (done ++ t).length →
      (done ++ t).length < w.length → w[(done ++ t).length]? ≠ some (first r % 2 ^ C.w) →
      P (text! "unexpected character '" ++ [first r % 256] ++ text! "' (expected literal '" ++ w ++ text! "')")) :
    Errs P (Msg.literalLoop C w rest tok) l d := by
  induction rest generalizing l done with
  | nil => exact .pure _
  | cons ch rest ih =>
    unfold Msg.literalLoop
    refine .cur (.ite (fun hs => .fail ?_) fun hs => ?_)
    · have hs : ch ≠ toChar C.w (hd l) := by simpa using hs
      have := hk [] l rfl hl (by rw [hw]; simp) (by rw [hw]; simp) (by
        rw [hw]; simp [first_eq]; exact hs)
      rw [first_eq] at this
      exact this
    · have hs : toChar C.w (hd l) = ch := by simp at hs; exact hs.symm
      have hne0 : hd l ≠ 0 := mod_ne_zero_of hs (hne ch (by rw [hw]; simp))
      obtain ⟨r, hr⟩ := cons_of_hd hne0
      have e1 : l = some (hd l) :: l.tail := by rw [hr]; rfl
      refine .next H hl hm fun ho hm => ih (done ++ [hd l]) ?_ ho hm ?_
      · rw [hw, ← hs]; simp [toChar]
      · intro t r ht hr
        have := hk (hd l :: t) r (by rw [e1, ht]; simp [hd]) hr
        simpa using this

/-! ## Numbers -/

theorem errs_exponentDigits (H : Canon C) (n e : Nat) (hl : Ok l) (hm : Mal P l) : Errs P (Msg.exponentDigits C n e) l d := by
  induction n generalizing l e with
  | zero => exact .stop _ (by simp)
  | succ n ih =>
    unfold Msg.exponentDigits
    exact .next H hl hm fun ho hm => .ite (fun _ => ih _ ho hm) fun _ => .pure _

theorem errs_exponentValue (H : Canon C) (neg : Bool) (hl : Ok l) (hm : Mal P l) (hb : l.length + 1 ≤ C.bound) :
    Errs P (Msg.exponentValue C neg) l d := by
  unfold Msg.exponentValue
  refine .cur (.bind (Erases.exponentDigits C _ _) ((post_exponentDigits H trivial _ _ hl hb).imp ?_)
    (errs_exponentDigits H _ _ hl hm))
  intro t a l' d' _ _ _ _ _
  exact .modify (d' := { d' with numF := _ }) rfl (.pure _)

/-- The first character of an exponent is wrong. -/
def BadExp (w : Nat) (r : List (Option Nat)) : Prop :=
  Spec.Readable r ∧ ∀ c, r.head? = some (some c) → (IsDig w c → c = 0x30) ∧ c ≠ 0x2B ∧ c ≠ 0x2D

theorem errs_scanExponent (H : Canon C) (hl : Ok l) (hm : Mal P l) (hb : l.length + 1 ≤ C.bound)
    (hE : ∀ m, BadExp C.w l.tail → Shown (text! "invalid exponent number, got") (first l.tail) m → P m) :
    Errs P (Msg.scanExponent C) l d := by
  unfold Msg.scanExponent
  have htl : l.tail.length + 1 ≤ C.bound := by simp; omega
  have htl2 : l.tail.tail.length + 1 ≤ C.bound := by simp; omega
  refine .cur (.assert fun _ => .next H hl hm fun ho hm => .ite (fun hs => .failCode fun m h => ?_) fun hs =>
    .ite (fun _ => .next H ho hm fun ho hm => errs_exponentValue H _ ho hm htl2) fun _ => errs_exponentValue H _ ho hm htl)
  refine hE m ⟨ho, fun c hc => ?_⟩ (by rw [first_eq]; exact h)
  have hc' : hd l.tail = c := by
    generalize l.tail = l' at hc
    rcases l' with _ | ⟨x, r⟩
    · cases hc
    · cases hc; rfl
  simp only [Bool.not_or, Bool.not_and, Bool.and_eq_true, Bool.or_eq_true, Bool.not_eq_true', hc', beq_eq_false_iff_ne, ne_eq,
    bne_eq_false_iff_eq] at hs
  obtain ⟨⟨h1, h2⟩, h3⟩ := hs
  refine ⟨fun hd => ?_, h3, h2⟩
  rcases h1 with h1 | h1
  · rw [(isDigit_iff c).2 hd] at h1; simp at h1
  · exact h1

theorem errs_fractionLoop (H : Canon C) (n : Nat) (f : F) (hl : Ok l) (hm : Mal P l) (hb : l.length + 1 ≤ C.bound)
    (hE : ∀ ds e r m, (∀ c ∈ ds, IsDig C.w c) → e = 0x65 ∨ e = 0x45 → l.tail = (ds ++ [e]).map some ++ r → BadExp C.w r →
      Shown (text! "invalid exponent number, got") (first r) m → P m) :
    Errs P (Msg.fractionLoop C n f) l d := by
  induction n generalizing l f d with
  | zero => exact .stop _ (by simp)
  | succ n ih =>
    unfold Msg.fractionLoop
    have htl : l.tail.length + 1 ≤ C.bound := by simp; omega
    refine .next H hl hm fun ho hm => .ite (fun hs => ?_) fun hs => .ite (fun h2 => ?_) fun _ => .pure _
    · have hs : hd l.tail = 0x65 ∨ hd l.tail = 0x45 := by simpa using hs
      refine errs_scanExponent H ho hm htl fun m hbad hsh => hE [] (hd l.tail) l.tail.tail m (by simp) hs ?_ hbad hsh
      obtain ⟨r, hr⟩ := cons_of_hd (l := l.tail) (by omega)
      rw [hr]; simp [hd]
    · rw [isDigit_iff] at h2
      obtain ⟨r, hr⟩ := cons_of_hd (l := l.tail) h2.ne
      refine .modify (d' := { d with numF := _ }) rfl (ih _ ho hm htl fun ds e r' m hds he hl' => hE (hd l.tail :: ds) e r' m ?_ he ?_)
      · intro c hc
        rcases List.mem_cons.1 hc with rfl | hc
        · exact h2
        · exact hds c hc
      · have e1 : l.tail = some (hd l.tail) :: l.tail.tail := by rw [hr]; rfl
        rw [e1, hl']; simp [hd]

/-- What can be wrong in the part of a float behind its integer part. -/
structure FloatHyp (C : Cfg CpS F) (P : List Nat → Prop) (l : List (Option Nat)) : Prop where
  frac : ∀ r m, l = some 0x2E :: r → Spec.Readable r → NoDig C.w r.head?.join → Shown (text! "invalid float number, got") (first r) m → P m
  exp : ∀ f e r m, Fraction C.dialect f → e = 0x65 ∨ e = 0x45 → l = (f ++ [e]).map some ++ r → BadExp C.w r →
    Shown (text! "invalid exponent number, got") (first r) m → P m

theorem errs_scanFloat (H : Canon C) (hl : Ok l) (hm : Mal P l) (hb : l.length + 1 ≤ C.bound)
    (hcur : hd l = 0x2E ∨ hd l = 0x65 ∨ hd l = 0x45) (hF : FloatHyp C P l) : Errs P (Msg.scanFloat C) l d := by
  unfold Msg.scanFloat
  obtain ⟨r, hr⟩ := cons_of_hd (l := l) (by omega)
  have e1 : l = some (hd l) :: l.tail := by rw [hr]; rfl
  have htl : l.tail.length + 1 ≤ C.bound := by simp; omega
  refine .modify (d' := { d with numF := _ }) rfl (.cur (.ite (fun hs => ?_) fun hs => .assert fun _ => ?_))
  · have hs : hd l = 0x65 ∨ hd l = 0x45 := by simpa using hs
    exact errs_scanExponent H hl hm hb fun m hbad hsh => hF.exp [] (hd l) l.tail m (Or.inl rfl) hs (by simpa using e1) hbad hsh
  · have hdot : hd l = 0x2E := by
      rcases hcur with h | h | h
      · exact h
      · simp [h] at hs
      · simp [h] at hs
    rw [hdot] at e1
    refine .next H hl hm fun ho hm => .ite (fun h2 => .failCode fun m h => ?_) fun h2 => ?_
    · refine hF.frac l.tail m e1 ho ?_ (by rw [first_eq]; exact h)
      refine noDig_of (l := l.tail) (C := C) ?_
      rw [← isDigit_iff]; simpa using h2
    · have h2 : isDigit C (hd l.tail) = true := by simpa using h2
      rw [isDigit_iff] at h2
      obtain ⟨r2, hr2⟩ := cons_of_hd (l := l.tail) h2.ne
      have e2 : l.tail = some (hd l.tail) :: l.tail.tail := by rw [hr2]; rfl
      refine .modify (d' := { d with numF := _ }) rfl (errs_fractionLoop H _ _ ho hm htl fun ds e r' m hds he hl' =>
        hF.exp (0x2E :: hd l.tail :: ds) e r' m (Or.inr ⟨_, ds, ?_, rfl⟩) he ?_)
      · intro c hc
        rcases List.mem_cons.1 hc with rfl | hc
        · exact h2
        · exact hds c hc
      · rw [e1, e2, hl']; simp [hd]

theorem errs_integerLoop (H : Canon C) (n : Nat) (hl : Ok l) (hm : Mal P l) (hb : l.length + 1 ≤ C.bound)
    (hF : ∀ (ds : List Nat) l', (∀ c ∈ ds, IsDig C.w c) → l.tail = ds.map some ++ l' → FloatHyp C P l') :
    Errs P (Msg.integerLoop C n) l d := by
  induction n generalizing l d with
  | zero => exact .stop _ (by simp)
  | succ n ih =>
    unfold Msg.integerLoop
    have htl : l.tail.length + 1 ≤ C.bound := by simp; omega
    refine .next H hl hm fun ho hm => .ite (fun hs => ?_) fun hs => .ite (fun h2 => ?_) fun _ => .pure _
    · have hs : hd l.tail = 0x2E ∨ hd l.tail = 0x65 ∨ hd l.tail = 0x45 := by simpa [or_assoc] using hs
      exact errs_scanFloat H ho hm htl hs (hF [] _ (by simp) rfl)
    · rw [isDigit_iff] at h2
      obtain ⟨r, hr⟩ := cons_of_hd (l := l.tail) h2.ne
      refine .gets (.ite (fun _ => .stop _ (by simp)) fun _ => .modify (d' := { d with numI := _ }) rfl
        (ih ho hm htl fun ds l' hds hl' => hF (hd l.tail :: ds) l' ?_ ?_))
      · intro c hc
        rcases List.mem_cons.1 hc with rfl | hc
        · exact h2
        · exact hds c hc
      · have e1 : l.tail = some (hd l.tail) :: l.tail.tail := by rw [hr]; rfl
        rw [e1, hl']; simp [hd]

/-- A number behind its sign `sg`. -/
theorem errs_numberBody (H : Canon C) (sg : List Nat) (hl : Ok l) (hm : Mal P l) (hb : l.length + 1 ≤ C.bound)
    (hsg : sg = [] → 0x30 ≤ hd l ∧ hd l ≤ 0x39) (hS : Sign sg)
    (hz : ∀ c r, l = some 0x30 :: some c :: r → c = 0x65 ∨ c = 0x45 → P (text! "invalid exponent"))
    (hF : ∀ t l', IntText C.dialect (sg ++ t) → l = t.map some ++ l' → FloatHyp C P l') :
    Errs P (Msg.numberBody C) l d := by
  unfold Msg.numberBody
  have htl : l.tail.length + 1 ≤ C.bound := by simp; omega
  refine .cur (.ite (fun hs => ?_) fun hs => ?_)
  · have hs : hd l = 0x30 := by simpa using hs
    obtain ⟨r, hr⟩ := cons_of_hd (l := l) (by omega)
    have e1 : l = some 0x30 :: l.tail := by rw [hr, hs]; rfl
    refine .next H hl hm fun ho hm => .ite (fun h2 => ?_) fun h2 => .ite (fun h3 => .fail ?_) fun _ => .pure _
    · have h2 : hd l.tail = 0x2E := by simpa using h2
      exact errs_scanFloat H ho hm htl (Or.inl h2) (hF [0x30] _ ⟨sg, hS, Or.inl rfl⟩ (by simpa using e1))
    · have h3 : hd l.tail = 0x65 ∨ hd l.tail = 0x45 := by simpa using h3
      obtain ⟨r2, hr2⟩ := cons_of_hd (l := l.tail) (by omega)
      exact hz (hd l.tail) r2 (by rw [← hr2]; exact e1) h3
  · have hs : hd l ≠ 0x30 := by simpa using hs
    unfold Msg.scanInteger
    refine .cur (.assert fun hdbg => .modify (d' := { d with numI := _ }) rfl ?_)
    refine errs_integerLoop H _ hl hm hb fun ds l' hds hl' => ?_
    rcases look_eq hl with ⟨_, he⟩ | ⟨_, _, r, hr⟩
    · -- the sign is the end of the input
      rw [he] at hl'
      have : l' = [] := by
        cases l' with
        | nil => rfl
        | cons x l' => simp at hl'
      subst this
      exact ⟨by intro r m h; simp at h, by intro f e r m _ _ h; simp at h⟩
    · have e1 : l = some (hd l) :: l.tail := by rw [hr]; rfl
      refine hF (hd l :: ds) l' ⟨sg, hS, Or.inr ⟨hd l, ds, ⟨hs, ?_⟩, hds, rfl⟩⟩ (by rw [e1, hl']; simp [hd])
      cases sg with
      | nil =>
        left
        have := hsg rfl
        have hw : 2 ^ 8 ≤ 2 ^ C.w := Nat.pow_le_pow_right (by decide) H.w
        show 0x30 ≤ hd l % 2 ^ C.w ∧ hd l % 2 ^ C.w ≤ 0x39
        rw [Nat.mod_eq_of_lt (by simp only [Nat.reducePow] at hw; omega)]
        exact this
      | cons x sg =>
        by_cases hdig : IsDig C.w (hd l)
        · exact Or.inl hdig
        · right
          refine ⟨rfl, ?_⟩
          show C.debug = false
          rw [← isDigit_iff] at hdig
          simp only [Bool.not_eq_true] at hdig
          rw [hdig] at hdbg
          simpa using hdbg

theorem errs_scanNumber (H : Canon C) (hl : Ok l) (hm : Mal P l) (hb : l.length + 1 ≤ C.bound)
    (hcur : (hd l = 0x2D ∨ hd l = 0x2B) ∨ (0x30 ≤ hd l ∧ hd l ≤ 0x39))
    (hT : ∀ m, TokenWrong C.dialect False l m → P m) : Errs P (Msg.scanNumber C) l d := by
  unfold Msg.scanNumber
  have htl : l.tail.length + 1 ≤ C.bound := by simp; omega
  obtain ⟨r, hr⟩ := cons_of_hd (l := l) (by omega)
  have e1 : l = some (hd l) :: l.tail := by rw [hr]; rfl
  have hF : ∀ sg l0, l = sg.map some ++ l0 → ∀ t l', IntText C.dialect (sg ++ t) → l0 = t.map some ++ l' → FloatHyp C P l' := by
    intro sg l0 h0 t l' hI hl'
    refine ⟨fun r m h h2 h3 h4 => hT m (.fraction (g := []) .nil hI ?_ h2 h3 h4), fun f e r m h h2 h3 h4 h5 =>
      hT m (.exponent (g := []) .nil hI h h2 ?_ h4.1 h4.2 h5)⟩
    · rw [h0, hl', h]; simp
    · rw [h0, hl', h3]; simp
  refine .modify (d' := { d with neg := false, numI := 0 }) rfl (.cur (.ite (fun hs => ?_) fun hs => ?_))
  · have hs : hd l = 0x2D ∨ hd l = 0x2B := by simpa using hs
    refine .modify (d' := { d with neg := _, numI := 0 }) rfl (.next H hl hm fun ho hm => ?_)
    refine errs_numberBody H [hd l] ho hm htl (by simp) ?_ ?_ (hF [hd l] _ (by simpa using e1))
    · rcases hs with h | h <;> simp [Sign, h]
    · intro c r' hl' hc
      refine hT _ (.zeroExponent (g := []) (sg := [hd l]) (c := c) (r := r') .nil ?_ ?_ hc)
      · rcases hs with h | h <;> simp [Sign, h]
      · rw [e1, hl']; simp [hd]
  · have hs : ¬ (hd l = 0x2D ∨ hd l = 0x2B) := by simpa using hs
    refine errs_numberBody H [] hl hm hb (fun _ => hcur.resolve_left hs) (Or.inl rfl) ?_ (hF [] _ rfl)
    intro c r' hl' hc
    exact hT _ (.zeroExponent (g := []) (sg := []) (c := c) (r := r') .nil (Or.inl rfl) (by rw [hl']; simp) hc)

/-! ## Strings -/

theorem errs_readEscapedLoop (H : Canon C) (fs h0 : List Nat) (code : Nat) (hl : Ok l) (hm : Mal P l)
    (hlen : h0.length + fs.length = 4) (hh0 : ∀ c ∈ h0, hexDigit c ≠ none)
    (hE : ∀ (h : List Nat) k m, (h0 ++ h).length < 4 → (∀ c ∈ h0 ++ h, hexDigit c ≠ none) → l.tail = h.map some ++ k → Spec.Readable k →
      (∀ c, k.head? = some (some c) → hexDigit c = none) →
      Shown (text! "'\\u' must be followed by 4 hex digits, but got") (first k) m → P m) :
    Errs P (Msg.readEscapedLoop C fs code) l d := by
  induction fs generalizing l h0 code with
  | nil => exact .pure _
  | cons f fs ih =>
    unfold Msg.readEscapedLoop
    refine .next H hl hm fun ho hm => ?_
    rw [hexVal_eq]
    simp only [List.length_cons] at hlen
    cases hh : hexDigit (hd l.tail) with
    | none =>
      refine .failCode fun m h => hE [] l.tail m (by simp; omega) (by simpa using hh0) rfl ho ?_ (by rw [first_eq]; exact h)
      intro c hc
      have : hd l.tail = c := by
        generalize l.tail = l' at hc
        rcases l' with _ | ⟨x, r⟩
        · cases hc
        · cases hc; rfl
      rw [← this]; exact hh
    | some x =>
      obtain ⟨r, hr⟩ := cons_of_hd (l := l.tail) (hexDigit_ne hh)
      have e1 : l.tail = some (hd l.tail) :: l.tail.tail := by rw [hr]; rfl
      refine ih (h0 ++ [hd l.tail]) _ ho hm (by simp; omega) ?_ ?_
      · intro c hc
        rcases List.mem_append.1 hc with hc | hc
        · exact hh0 c hc
        · simp at hc; rw [hc, hh]; simp
      · intro h k m h1 h2 h3
        refine hE (hd l.tail :: h) k m (by simpa using h1) (by simpa using h2) ?_
        rw [e1, h3]; simp [hd]

theorem errs_readEscaped (H : Canon C) (hl : Ok l) (hm : Mal P l)
    (hE : ∀ (h : List Nat) k m, h.length < 4 → (∀ c ∈ h, hexDigit c ≠ none) → l.tail = h.map some ++ k → Spec.Readable k →
      (∀ c, k.head? = some (some c) → hexDigit c = none) →
      Shown (text! "'\\u' must be followed by 4 hex digits, but got") (first k) m → P m) :
    Errs P (Msg.readEscaped C) l d := by
  unfold Msg.readEscaped
  exact errs_readEscapedLoop H _ [] 0 hl hm rfl (by simp) hE

theorem errs_putCp (cp : Nat)
    (h : ∀ m, (C.enc d.out cp).failb = true → Shown (text! "encoding failed with codepoint") cp m → P m) :
    Errs P (Msg.putCp C cp) l d := by
  unfold Msg.putCp
  refine .modify (d' := d.put C cp) rfl (.gets (.ite (fun _ => .pure _) fun hs => .failCode fun m => h m ?_))
  simpa [OStream.good, At, Data.put] using hs

set_option maxRecDepth 4000 in
theorem errs_scanUnicodeEscape (H : Canon C) (hl : Ok l) (hm : Mal P l) (hcur : hd l = 0x75)
    (hW : ∀ m, StrWrong (some 0x5C :: l) m → P m)
    (hS : ∀ t cp r m, StrUnit t cp → some 0x5C :: l = t.map some ++ r → (C.enc d.out cp).failb = true →
      Shown (text! "encoding failed with codepoint") cp m → P m) :
    Errs P (Msg.scanUnicodeEscape C) l d := by
  obtain ⟨r, hr⟩ := cons_of_hd (l := l) (by omega)
  have e1 : l = some 0x75 :: l.tail := by rw [hr, hcur]; rfl
  have hone : one l = [0x75] := by rw [one_of_hd (by omega), hcur]
  unfold Msg.scanUnicodeEscape
  refine .bind (Erases.readEscapedLoop C _ _) ((post_readEscaped H trivial hl).imp ?_) (errs_readEscaped H hl hm ?_)
  · rintro t u l1 d1 hl1 ho1 ⟨rfl, hne1, h, ht, hh⟩ _ _
    have hm1 : Mal P l1 := hm.suffix hl1
    rw [hone] at ht
    obtain ⟨r1, hr1⟩ := cons_of_hd hne1
    have f1 : l = (0x75 :: h).map some ++ l1.tail := by
      have : l = (t ++ one l1).map some ++ l1.tail := by
        rw [one_of_hd hne1]
        rw [hl1, hr1]
        simp [hd]
      rw [this, ht]; simp
    refine .ite (fun hlead => ?_) fun hlead => ?_
    · rw [isLead_iff] at hlead
      refine .next H ho1 hm1 fun ho2 hm2 => .ite (fun h2 => .failCode fun m hs => ?_) fun h2 => ?_
      · have h2 : hd l1.tail ≠ 0x5C := by simpa using h2
        refine hW m ?_
        rw [f1]
        refine StrWrong.lead (k := l1.tail) hh hlead ho2 ?_ (by rw [first_eq]; exact hs)
        intro h3
        generalize l1.tail = l' at h2 h3
        rcases l' with _ | ⟨x, l'⟩
        · cases h3
        · cases h3; exact h2 rfl
      · have h2 : hd l1.tail = 0x5C := by simpa using h2
        obtain ⟨r2, hr2⟩ := cons_of_hd (l := l1.tail) (by omega)
        have e2 : l1.tail = some 0x5C :: l1.tail.tail := by rw [hr2, h2]; rfl
        refine .next H ho2 hm2 fun ho3 hm3 => .ite (fun h3 => .failCode fun m hs => ?_) fun h3 => ?_
        · have h3 : hd l1.tail.tail ≠ 0x75 := by simpa using h3
          refine hW m ?_
          rw [f1, e2]
          have := StrWrong.lead' (k := l1.tail.tail) (m := m) hh hlead ho3 (by
            intro h4
            generalize l1.tail.tail = l' at h3 h4
            rcases l' with _ | ⟨x, l'⟩
            · cases h4
            · cases h4; exact h3 rfl) (by rw [first_eq]; exact hs)
          simpa using this
        · have h3 : hd l1.tail.tail = 0x75 := by simpa using h3
          obtain ⟨r3, hr3⟩ := cons_of_hd (l := l1.tail.tail) (by omega)
          have e3 : l1.tail.tail = some 0x75 :: l1.tail.tail.tail := by rw [hr3, h3]; rfl
          have hone3 : one l1.tail.tail = [0x75] := by rw [one_of_hd (by omega), h3]
          refine .bind (Erases.readEscapedLoop C _ _) ((post_readEscaped H trivial ho3).imp ?_) (errs_readEscaped H ho3 hm3 ?_)
          · rintro t' u' l2 d2 hl2 ho4 ⟨rfl, hne2, h', ht', hh'⟩ _ _
            rw [hone3] at ht'
            obtain ⟨r4, hr4⟩ := cons_of_hd hne2
            have f2 : l1.tail.tail = (0x75 :: h').map some ++ l2.tail := by
              have : l1.tail.tail = (t' ++ one l2).map some ++ l2.tail := by
                rw [one_of_hd hne2]
                rw [hl2, hr4]
                simp [hd]
              rw [this, ht']; simp
            have f3 : some 0x5C :: l = (0x5C :: 0x75 :: h ++ 0x5C :: 0x75 :: h').map some ++ l2.tail := by
              rw [f1, e2, f2]; simp
            refine .ite (fun h4 => .failCode fun m hs => hW m ?_) fun h4 => errs_putCp _ fun m hf hs => ?_
            · rw [f3]
              refine .trail hh hlead hh' ?_ hs
              rw [← isTrail_iff]; simpa using h4
            · have h4 : isTrail u' = true := by simpa using h4
              rw [decodeSurrogates_eq ((isLead_iff _).2 hlead) h4] at hf hs
              rw [isTrail_iff] at h4
              have e5 : (u - 55296) * 1024 + (u' - 56320) + 65536 = 65536 + (u - 55296) * 1024 + (u' - 56320) := by omega
              rw [e5] at hf hs
              exact hS _ _ l2.tail m (.pair hh hlead hh' h4) f3 hf hs
          · intro h' k m h1 h2' h3' h4 h5 h6
            refine hW m ?_
            rw [f1, e2, e3, h3']
            have := StrWrong.leadHex hh hlead h1 h2' h4 h5 h6
            simpa using this
    · rw [isLead_iff] at hlead
      exact errs_putCp _ fun m hf hs => hS _ _ l1.tail m (.uni hh hlead) (by rw [f1]; simp) hf hs
  · intro h k m h1 h2 h3 h4 h5 h6
    refine hW m ?_
    rw [e1, h3]
    exact StrWrong.hex h1 h2 h4 h5 h6

theorem EscText.unit {e : List Nat} {cp : Nat} (h : EscText e cp) : StrUnit (0x5C :: e) cp := by
  have h1 := h [0x22] [] .close
  have nil : ∀ t : List Nat, StrChars t [] → t = [0x22] := by
    intro t ht; cases ht; rfl
  have gen : ∀ x cps, StrChars x cps → x = (0x5C :: e) ++ [0x22] → cps = [cp] → StrUnit (0x5C :: e) cp := by
    intro x cps hc hx hcps
    cases hc with
    | close => cases hcps
    | raw _ _ hne _ => simp at hx; exact absurd hx.1 hne
    | @esc c _ _ _ hs ht =>
      obtain ⟨rfl, rfl⟩ := List.cons.inj hcps
      rw [nil _ ht] at hx
      have : [0x5C, c] = 0x5C :: e := List.append_inj_left' (show [0x5C, c] ++ [0x22] = (0x5C :: e) ++ [0x22] from hx) rfl
      rw [← this]
      exact .esc hs
    | uni hh hn ht =>
      obtain ⟨rfl, rfl⟩ := List.cons.inj hcps
      rw [nil _ ht] at hx
      have := List.append_inj_left' hx rfl
      rw [← this]
      exact .uni hh hn
    | @pair h u h' u' _ _ hh hl hh' ht' ht =>
      obtain ⟨h1, rfl⟩ := List.cons.inj hcps
      rw [nil _ ht] at hx
      have hx : (0x5C :: 0x75 :: h ++ (0x5C :: 0x75 :: h')) ++ [0x22] = (0x5C :: e) ++ [0x22] := by rw [← hx]; simp
      have := List.append_inj_left' hx rfl
      rw [← this, ← h1]
      exact .pair hh hl hh' ht'
  exact gen _ _ h1 rfl rfl

set_option maxRecDepth 4000 in
theorem errs_scanEscape (H : Canon C) (hl : Ok l) (hm : Mal P l) (hcur : hd l = 0x5C)
    (hW : ∀ m, StrWrong l m → P m)
    (hS : ∀ t cp r m, StrUnit t cp → l = t.map some ++ r → (C.enc d.out cp).failb = true →
      Shown (text! "encoding failed with codepoint") cp m → P m) :
    Errs P (Msg.scanEscape C) l d := by
  obtain ⟨r, hr⟩ := cons_of_hd (l := l) (by omega)
  have e1 : l = some 0x5C :: l.tail := by rw [hr, hcur]; rfl
  unfold Msg.scanEscape
  have simple : ∀ c, Errs P (Msg.putAscii c : MM (Lex CpS F) Unit) l.tail d := by
    intro c e msg s h
    cases h
  refine .next H hl hm fun ho hm => ?_
  refine .ite (fun _ => simple _) fun h1 => .ite (fun _ => simple _) fun h2 => .ite (fun _ => simple _) fun h3 =>
    .ite (fun _ => simple _) fun h4 => .ite (fun _ => simple _) fun h5 => .ite (fun _ => simple _) fun h6 =>
    .ite (fun _ => simple _) fun h7 => .ite (fun _ => simple _) fun h8 => .ite (fun h9 => ?_) fun h9 => .failCode fun m hs => ?_
  · exact errs_scanUnicodeEscape H ho hm (by simpa using h9) (fun m hw => hW m (by rw [e1]; exact hw))
      fun t cp r m hu he => hS t cp r m hu (by rw [e1]; exact he)
  · refine hW m ?_
    rw [e1]
    refine .escape ho ?_ (by rw [first_eq]; exact hs)
    intro c hc
    have : hd l.tail = c := by
      generalize l.tail = l' at hc
      rcases l' with _ | ⟨x, r⟩
      · cases hc
      · cases hc; rfl
    rw [this] at h1 h2 h3 h4 h5 h6 h7 h8 h9
    simp only [beq_iff_eq] at h1 h2 h3 h4 h5 h6 h7 h8 h9
    refine ⟨?_, h9⟩
    unfold simpleEscape
    split
    all_goals first | rfl | contradiction

theorem errs_stringLoop (H : Canon C) (n : Nat) (hl : Ok l) (hm : Mal P l) (ho : d.out.failb = false)
    (hW : ∀ p cps r m, StrPart p cps → l.tail = p.map some ++ r → (writeAll C.enc d.out cps).failb = false → StrWrong r m → P m)
    (hS : ∀ p cps t cp r m, StrPart p cps → l.tail = (p ++ t).map some ++ r → (writeAll C.enc d.out cps).failb = false →
      StrUnit t cp → (writeAll C.enc d.out (cps ++ [cp])).failb = true →
      Shown (text! "encoding failed with codepoint") cp m → P m) :
    Errs P (Msg.stringLoop C n) l d := by
  induction n generalizing l d with
  | zero => exact .stop _ (by simp)
  | succ n ih =>
    unfold Msg.stringLoop
    refine .next H hl hm fun ho1 hm1 => .eof H (.ite (fun he => .fail ?_) fun he => ?_)
    · have he : l.tail = [] := by simpa using he
      exact hW [] [] [] _ .nil (by rw [he]; rfl) ho .eof
    · simp only [Bool.not_eq_true] at he
      obtain ⟨r, hr⟩ := cons_of_nonempty ho1 he
      have e1 : l.tail = some (hd l.tail) :: l.tail.tail := by rw [hr]; rfl
      refine .ite (fun hs => ?_) fun hs => .ite (fun hs2 => .failCode fun m h => ?_) fun hs2 => .ite (fun hs3 => ?_) fun hs3 => ?_
      · exact .next H ho1 hm1 fun _ _ => .pure _
      · refine hW [] [] l.tail m .nil rfl ho ?_
        rw [e1]
        exact .control (by omega) h
      · have hs3 : hd l.tail = 0x5C := by simpa using hs3
        refine .bind (Erases.scanEscape C) ((post_scanEscape H trivial ho1 hs3 ho).imp ?_)
          (errs_scanEscape H ho1 hm1 hs3 (fun m h => hW [] [] l.tail m .nil rfl ho h)
            fun t cp r m hu he hf hs => hS [] [] t cp r m .nil he ho hu hf hs)
        rintro t _ l2 d2 hl2 ho2 ⟨hne, e, cp, h1, h2, rfl, h4⟩ _ _
        obtain ⟨r2, hr2⟩ := cons_of_hd hne
        have f1 : l.tail = (0x5C :: e).map some ++ l2.tail := by
          rw [← h1, one_of_hd hne]
          rw [hl2, hr2]
          simp [hd]
        refine ih ho2 (hm1.suffix hl2) h4 ?_ ?_
        · intro p cps r m hp hr hf
          exact hW _ (cp :: cps) r m (.more h2.unit hp) (by rw [f1, hr]; simp) hf
        · intro p cps t cp' r m hp hr hf hu hf'
          exact hS _ (cp :: cps) t cp' r m (.more h2.unit hp) (by rw [f1, hr]; simp) hf hu hf'
      · have hu : StrUnit [hd l.tail] (hd l.tail) := .raw (by omega) (by simpa using hs) (by simpa using hs3)
        refine .bind (Erases.putCp C _) ((post_putCp trivial _ ho1).imp ?_)
          (errs_putCp _ fun m hf h => hS [] [] [hd l.tail] _ l.tail.tail m .nil (by rw [e1]; rfl) ho hu hf h)
        rintro _ _ _ _ _ _ ⟨rfl, rfl, rfl, h4⟩ _ _
        refine ih ho1 hm1 h4 ?_ ?_
        · intro p cps r m hp hr hf
          exact hW _ (hd l.tail :: cps) r m (.more hu hp) (by rw [e1, hr]; simp [hd]) hf
        · intro p cps t cp' r m hp hr hf hu' hf'
          exact hS _ (hd l.tail :: cps) t cp' r m (.more hu hp) (by rw [e1, hr]; simp [hd]) hf hu' hf'

/-- A string literal behind a gap. -/
theorem errs_scanString (H : Canon C) {g : List Nat} {st : Prop} (hst : st) (hg : Gap g) (hl : Ok l) (hm : Mal P l)
    (hcur : hd l = 0x22) (hT : ∀ m, TokenWrong C.dialect st (g.map some ++ l) m → P m) :
    Errs P (Msg.scanString C) l d := by
  obtain ⟨r, hr⟩ := cons_of_hd (l := l) (by omega)
  have e1 : l = some 0x22 :: l.tail := by rw [hr, hcur]; rfl
  unfold Msg.scanString
  refine .modify (d' := { d with out := .ofString [] }) rfl (.cur (.assert fun _ => errs_stringLoop H _ hl hm rfl ?_ ?_))
  · intro p cps r m hp he hf hw
    refine hT m (.string (p := p) (cps := cps) (r := r) hst hg ?_ hp ?_ hw)
    · rw [e1, he]; simp
    · simp only [Cfg.dialect, storeWith]
      rw [if_neg (by simpa using hf)]; simp
  · intro p cps t cp r m hp he hf hu hf' hs
    refine hT m (.store (p := p) (cps := cps) (t := t) (r := r) hst hg ?_ hp ?_ hu ?_ hs)
    · rw [e1, he]; simp
    · simp only [Cfg.dialect, storeWith]
      rw [if_neg (by simpa using hf)]; simp
    · simp only [Cfg.dialect, storeWith]
      rw [if_pos (by simpa using hf')]

/-! ## Tokens -/

theorem _root_.Spec.TokenWrong.behind {D : Dialect F} {g : List Nat} {m : List Nat} (hg : Gap g) (h : TokenWrong D False l m) :
    TokenWrong D False (g.map some ++ l) m := by
  cases h with
  | @character _ _ r _ h1 h2 h3 h4 => exact .character (r := r) (gap_append hg h1) (by rw [h2]; simp) h3 h4
  | slash h1 h2 h3 h4 h5 => exact .slash (gap_append hg h1) (by rw [h2]; simp) h3 h4 h5
  | comment h1 h2 h3 => exact .comment (gap_append hg h1) (by rw [h2]; simp) h3
  | keyword h1 h2 h3 h4 h5 h6 h7 h8 => exact .keyword (gap_append hg h1) h2 (by rw [h3]; simp) h4 h5 h6 h7 h8
  | @zeroExponent _ _ _ r h1 h2 h3 h4 => exact .zeroExponent (r := r) (gap_append hg h1) h2 (by rw [h3]; simp) h4
  | fraction h1 h2 h3 h4 h5 h6 => exact .fraction (gap_append hg h1) h2 (by rw [h3]; simp) h4 h5 h6
  | exponent h1 h2 h3 h4 h5 h6 h7 h8 => exact .exponent (gap_append hg h1) h2 h3 h4 (by rw [h5]; simp) h6 h7 h8
  | string h => exact h.elim
  | store h => exact h.elim

theorem _root_.Spec.TokenWrong.any {D : Dialect F} {st : Prop} {m : List Nat} (h : TokenWrong D False l m) :
    TokenWrong D st l m := by
  cases h with
  | character h1 h2 h3 h4 => exact .character h1 h2 h3 h4
  | slash h1 h2 h3 h4 h5 => exact .slash h1 h2 h3 h4 h5
  | comment h1 h2 h3 => exact .comment h1 h2 h3
  | keyword h1 h2 h3 h4 h5 h6 h7 h8 => exact .keyword h1 h2 h3 h4 h5 h6 h7 h8
  | zeroExponent h1 h2 h3 h4 => exact .zeroExponent h1 h2 h3 h4
  | fraction h1 h2 h3 h4 h5 h6 => exact .fraction h1 h2 h3 h4 h5 h6
  | exponent h1 h2 h3 h4 h5 h6 h7 h8 => exact .exponent h1 h2 h3 h4 h5 h6 h7 h8
  | string h => exact h.elim
  | store h => exact h.elim

theorem errs_scan (H : Canon C) (hl : Ok l) (hm : Mal P l) (hb : l.length + 1 ≤ C.bound)
    (hT : ∀ m, TokenWrong C.dialect False l m → P m) : Errs P (Msg.scan C) l d := by
  unfold Msg.scan
  refine .bind (Erases.skipSpaces C _) ((post_skipSpaces H trivial _ hl hb hb).imp ?_)
    (errs_skipSpaces H _ hl hb hb hm (fun g r h1 h2 h3 h4 h5 => hT _ (.slash h1 h2 h3 h4 h5))
      fun g t h1 h2 h3 => hT _ (.comment h1 h2 h3))
  rintro g _ l1 d1 hl1 ho1 ⟨rfl, hg⟩ _ _
  have hlen := len_of hl1
  have hm1 : Mal P l1 := hm.suffix hl1
  refine .eof H (.ite (fun _ => .pure _) fun he => ?_)
  simp only [Bool.not_eq_true] at he
  obtain ⟨r, hr⟩ := cons_of_nonempty ho1 he
  have hnl : ¬ IsBlank (hd l1) ∧ hd l1 ≠ 0x2F ∧ Gap g := by
    rcases hg with ⟨h1, h2, h3⟩ | ⟨h1, _⟩
    · exact ⟨h2, h3, h1⟩
    · rw [h1] at he; simp at he
  obtain ⟨hblank, hslash, hg⟩ := hnl
  have e1 : l1 = some (hd l1) :: l1.tail := by rw [hr]; rfl
  have sing : ∀ t, Errs P (Msg.single C t) l1 d1 := fun t => .next H ho1 hm1 fun _ _ => .pure _
  have lit : ∀ w name tok, (w, name) ∈ keywords → (∀ c ∈ w, c ≠ 0) → w[0]? = some (hd l1) →
      hd l1 < 256 → Errs P (Msg.scanLiteral C w tok) l1 d1 := by
    intro w name tok hw hne hw0 h256
    refine errs_literalLoop H w w [] tok rfl hne ho1 hm1 fun t r ht hr h1 h2 h3 => hT _ ?_
    rw [List.nil_append] at h1 h2 h3
    refine .keyword (r := r) hg hw (by rw [hl1, ht]; simp) hr ?_ h1 h2 h3
    rintro rfl
    simp only [List.map_nil, List.nil_append] at ht
    subst ht
    refine h3 ?_
    have h8 : 2 ^ 8 ≤ 2 ^ C.w := Nat.pow_le_pow_right (by decide) H.w
    rw [first_eq, Nat.mod_eq_of_lt (by simp only [Nat.reducePow] at h8; omega)]
    simpa using hw0
  refine .cur ?_
  refine .ite (fun _ => sing _) fun n1 => .ite (fun _ => sing _) fun n2 => .ite (fun _ => sing _) fun n3 =>
    .ite (fun _ => sing _) fun n4 => .ite (fun _ => sing _) fun n5 => .ite (fun _ => sing _) fun n6 => ?_
  refine .ite (fun hs => ?_) fun n7 => .ite (fun hs => ?_) fun n8 => .ite (fun hs => ?_) fun n9 => ?_
  · have hs : hd l1 = 0x74 := by simpa using hs
    exact lit kTrue _ _ (by simp [keywords]; exact Or.inl rfl) (by decide) (by rw [hs]; rfl) (by omega)
  · have hs : hd l1 = 0x66 := by simpa using hs
    exact lit kFalse _ _ (by simp [keywords]; exact Or.inr (Or.inl rfl)) (by decide) (by rw [hs]; rfl) (by omega)
  · have hs : hd l1 = 0x6E := by simpa using hs
    exact lit kNull _ _ (by simp [keywords]; exact Or.inr (Or.inr rfl)) (by decide) (by rw [hs]; rfl) (by omega)
  refine .ite (fun _ => .pure _) fun n10 => .ite (fun hs => ?_) fun n11 => .ite (fun _ => .pure _) fun n12 => .failCode fun m hs => ?_
  · refine errs_scanNumber H ho1 hm1 (by omega) (by simpa using hs) fun m h => hT m ?_
    rw [hl1]
    exact h.behind hg
  · refine hT m (.character (g := g) (c := hd l1) (r := l1.tail) hg (by rw [hl1, e1]; simp [hd]) ?_ hs)
    simp only [IsBlank, not_or] at hblank
    simp only [Bool.or_eq_true, Bool.and_eq_true, beq_iff_eq, decide_eq_true_eq, not_or] at n1 n2 n3 n4 n5 n6 n7 n8 n9 n10 n11 n12
    refine ⟨?_, n11.2, n12⟩
    simp only [List.mem_cons, List.not_mem_nil, or_false, not_or]
    omega

end Configor
