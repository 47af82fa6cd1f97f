import Verif.Proofs.LexPost
import Verif.Spec.Decoding
/-! Soundness of the scanner: literals and strings. -/
namespace Configor
open Lexer Spec

variable {F α β : Type} {C : Cfg CpS F} {l : List (Option Nat)} {d : Data F} {E : Stop → Prop}

/-- The dialect of a configuration. -/
def Cfg.dialect {S : Type} (C : Cfg S F) : Dialect F := ⟨C.w, C.debug, C.fo, storeWith C.enc⟩

theorem one_of_hd (h : hd l ≠ 0) : one l = [hd l] := by
  obtain ⟨r, hr⟩ := cons_of_hd h
  rw [hr]; rfl

theorem toChar_zero (w : Nat) : toChar w 0 = 0 := by simp [toChar]

theorem post_scanLiteral (H : Canon C) (hx : E (.exn .deserialization)) (k : List Nat) (tok : Token)
    (hk : ∀ c ∈ k, c ≠ 0) (hl : Ok l) :
    Post E (scanLiteral C k tok) l d fun t a _ d' => d' = d ∧ a = tok ∧ t.map (· % 2 ^ C.w) = k := by
  induction k generalizing l with
  | nil => exact .pure hl ⟨rfl, rfl, rfl⟩
  | cons c k ih =>
    unfold scanLiteral
    refine .bind (.cur hl fun _ _ => ?_)
    refine .ite (fun _ => .fail hx) (fun hs => ?_)
    have hs : toChar C.w (hd l) = c := by simp at hs; exact hs.symm
    have hne : hd l ≠ 0 := by
      intro h
      rw [h, toChar_zero] at hs
      exact hk c (by simp) hs.symm
    refine .bind (.readNext H hx hl fun ho _ _ => ?_)
    refine (ih (fun c hc => hk c (by simp [hc])) ho).imp ?_
    rintro t a l' d' _ _ ⟨h1, h2, h3⟩
    refine ⟨h1, h2, ?_⟩
    rw [one_of_hd hne]
    simp only [List.nil_append, List.map_cons, List.cons_append, h3]
    rw [show hd l % 2 ^ C.w = c from hs]

/-! ## Strings -/

theorem hexVal_eq (c : Nat) : hexVal c = hexDigit c := by
  unfold hexVal hexDigit
  split
  · rfl
  split
  · simp; omega
  split
  · simp; omega
  · rfl

theorem hexDigit_lt {c x : Nat} (h : hexDigit c = some x) : x < 16 := by
  unfold hexDigit at h
  split at h
  · simp at h; omega
  split at h
  · simp at h; omega
  split at h
  · simp at h; omega
  · simp at h

theorem hexDigit_ne {c x : Nat} (h : hexDigit c = some x) : c ≠ 0 := by
  rintro rfl
  simp [hexDigit] at h

theorem post_readEscaped (H : Canon C) (hx : E (.exn .deserialization)) (hl : Ok l) :
    Post E (readEscaped C) l d fun t a l' d' => d' = d ∧ hd l' ≠ 0 ∧
      ∃ h, t ++ one l' = one l ++ h ∧ Hex4 h a := by
  -- one digit
  have one1 : ∀ {k : List (Option Nat)} (fs : List Nat) (f code : Nat)
      {Q : List Nat → Nat → List (Option Nat) → Data F → Prop}, Ok k →
      (∀ x, hexDigit (hd k.tail) = some x → Ok k.tail →
        Post E (readEscapedLoop C fs (u32 (code + u32 (x <<< f)))) k.tail d
          fun t b k' d' => Q (one k ++ t) b k' d') →
      Post E (readEscapedLoop C (f :: fs) code) k d Q := by
    intro k fs f code Q hk h
    unfold readEscapedLoop
    refine .bind (.readNext H hx hk fun ho _ _ => ?_)
    rw [hexVal_eq]
    cases hh : hexDigit (hd k.tail) with
    | none => exact .fail hx
    | some x => exact h x hh ho
  unfold readEscaped
  refine one1 _ _ _ hl fun x hx1 ho1 => ?_
  refine one1 _ _ _ ho1 fun y hy1 ho2 => ?_
  refine one1 _ _ _ ho2 fun z hz1 ho3 => ?_
  refine one1 _ _ _ ho3 fun w hw1 ho4 => ?_
  unfold readEscapedLoop
  refine .pure ho4 ⟨rfl, hexDigit_ne hw1, [hd l.tail, hd l.tail.tail, hd l.tail.tail.tail,
    hd l.tail.tail.tail.tail], ?_, ?_⟩
  · rw [one_of_hd (hexDigit_ne hx1), one_of_hd (hexDigit_ne hy1), one_of_hd (hexDigit_ne hz1),
      one_of_hd (hexDigit_ne hw1)]
    simp
  · have e : u32 (u32 (u32 (u32 (0 + u32 (x <<< 12)) + u32 (y <<< 8)) + u32 (z <<< 4)) + u32 (w <<< 0))
        = ((x * 16 + y) * 16 + z) * 16 + w := by
      have := hexDigit_lt hx1
      have := hexDigit_lt hy1
      have := hexDigit_lt hz1
      have := hexDigit_lt hw1
      simp only [Nat.shiftLeft_eq, u32]
      simp only [Nat.reducePow]
      omega
    rw [e]
    exact .mk hx1 hy1 hz1 hw1

/-- The text of an escape after the backslash and the code point it denotes. -/
def EscText (e : List Nat) (cp : Nat) : Prop :=
  ∀ u cps, StrChars u cps → StrChars (0x5C :: e ++ u) (cp :: cps)

/-- Writing a code point to the string. -/
def Data.put (C : Cfg CpS F) (d : Data F) (cp : Nat) : Data F := { d with out := C.enc d.out cp }

theorem post_putCp (hx : E (.exn .deserialization)) (cp : Nat) (hl : Ok l) :
    Post E (putCp C cp) l d fun t _ l' d' => t = [] ∧ l' = l ∧ d' = d.put C cp ∧ d'.out.failb = false := by
  unfold putCp
  refine .bind (.modify (d' := d.put C cp) hl rfl fun _ _ => ?_)
  refine .bind (.gets hl fun _ _ => ?_)
  refine .ite (fun hs => .pure hl ⟨rfl, rfl, rfl, ?_⟩) (fun _ => .fail hx)
  simpa [OStream.good, At] using hs

theorem post_putAscii (H : Canon C) (c : Nat) (hc : c < 128) (hl : Ok l) (ho : d.out.failb = false) :
    Post E (putAscii c) l d fun t _ l' d' => t = [] ∧ l' = l ∧ d' = d.put C c ∧ d'.out.failb = false := by
  unfold putAscii
  have he : (d.put C c) = { d with out := d.out.put c } := by
    unfold Data.put; rw [H.ascii _ _ ho hc]
  refine .modify (d' := d.put C c) hl ?_ ⟨rfl, rfl, rfl, ?_⟩
  · rw [he]; rfl
  · rw [he]; simp [OStream.put, ho]

theorem isLead_iff (c : Nat) : isLead c = true ↔ 0xD800 ≤ c ∧ c ≤ 0xDBFF := by simp [isLead]
theorem isTrail_iff (c : Nat) : isTrail c = true ↔ 0xDC00 ≤ c ∧ c ≤ 0xDFFF := by simp [isTrail]

theorem post_scanUnicodeEscape (H : Canon C) (hx : E (.exn .deserialization)) (hl : Ok l)
    (hcur : hd l = 0x75) :
    Post E (scanUnicodeEscape C) l d fun t _ l' d' => hd l' ≠ 0 ∧ ∃ e cp, t ++ one l' = e ∧
      EscText e cp ∧ d' = d.put C cp ∧ d'.out.failb = false := by
  have hone : one l = [0x75] := by rw [one_of_hd (by omega), hcur]
  unfold scanUnicodeEscape
  refine .bind ((post_readEscaped H hx hl).imp ?_)
  rintro t u l1 d1 _ ho1 ⟨rfl, hne1, h, ht, hh⟩ _ _
  rw [hone] at ht
  refine .ite (fun hlead => ?_) (fun hlead => ?_)
  · rw [isLead_iff] at hlead
    refine .bind (.readNext H hx ho1 fun ho2 _ _ => ?_)
    refine .ite (fun _ => .fail hx) (fun hs2 => ?_)
    have hs2 : hd l1.tail = 0x5C := by simpa using hs2
    refine .bind (.readNext H hx ho2 fun ho3 _ _ => ?_)
    refine .ite (fun _ => .fail hx) (fun hs3 => ?_)
    have hs3 : hd l1.tail.tail = 0x75 := by simpa using hs3
    refine .bind ((post_readEscaped H hx ho3).imp ?_)
    rintro t' u' l2 d2 _ ho4 ⟨rfl, hne2, h', ht', hh'⟩ _ _
    refine .ite (fun _ => .fail hx) (fun htr => ?_)
    have htr : isTrail u' = true := by simpa using htr
    refine (post_putCp hx _ ho4).imp ?_
    rintro _ _ l3 _ _ _ ⟨rfl, rfl, hd, hf⟩
    refine ⟨hne2, _, _, rfl, ?_, hd, hf⟩
    rw [isTrail_iff] at htr
    intro v cps hv
    have e1 : one l1.tail = [0x5C] := by rw [one_of_hd (by omega), hs2]
    have e2 : one l1.tail.tail = [0x75] := by rw [one_of_hd (by omega), hs3]
    rw [e2] at ht'
    have := StrChars.pair hh hlead hh' htr hv
    rw [decodeSurrogates_eq ((isLead_iff _).2 hlead) ((isTrail_iff _).2 htr)]
    have e3 : (u - 55296) * 1024 + (u' - 56320) + 65536 = 65536 + (u - 55296) * 1024 + (u' - 56320) := by
      omega
    rw [e3]
    have e4 : t ++ (one l1 ++ (one l1.tail ++ (t' ++ []))) ++ one l3 = 0x75 :: h ++ (0x5C :: 0x75 :: h') := by
      have : t ++ one l1 ++ one l1.tail ++ (t' ++ one l3) = 0x75 :: h ++ (0x5C :: 0x75 :: h') := by
        rw [ht, ht', e1]; simp
      simpa using this
    rw [e4]
    simpa using this
  · rw [isLead_iff] at hlead
    refine (post_putCp hx _ ho1).imp ?_
    rintro _ _ _ _ _ _ ⟨rfl, rfl, hd, hf⟩
    refine ⟨hne1, _, _, rfl, ?_, hd, hf⟩
    intro v cps hv
    have := StrChars.uni hh hlead hv
    rw [List.append_nil, ht]
    simpa using this

theorem post_scanEscape (H : Canon C) (hx : E (.exn .deserialization)) (hl : Ok l)
    (hcur : hd l = 0x5C) (ho : d.out.failb = false) :
    Post E (scanEscape C) l d fun t _ l' d' => hd l' ≠ 0 ∧ ∃ e cp, t ++ one l' = 0x5C :: e ∧
      EscText e cp ∧ d' = d.put C cp ∧ d'.out.failb = false := by
  have hone : one l = [0x5C] := by rw [one_of_hd (by omega), hcur]
  unfold scanEscape
  refine .bind (.readNext H hx hl fun ho1 _ _ => ?_)
  have simple : ∀ c x, simpleEscape c = some x → x < 128 → c ≠ 0 → hd l.tail = c →
      Post E (putAscii x) l.tail d fun t' _ l' d' => hd l' ≠ 0 ∧ ∃ e cp, one l ++ t' ++ one l' = 0x5C :: e ∧
      EscText e cp ∧ d' = d.put C cp ∧ d'.out.failb = false := by
    intro c x hse hlt hne hc
    refine (post_putAscii H x hlt ho1 ho).imp ?_
    rintro _ _ _ _ _ _ ⟨rfl, rfl, hd', hf⟩
    refine ⟨by rw [hc]; exact hne, [c], x, ?_, ?_, hd', hf⟩
    · rw [hone, one_of_hd (by rw [hc]; exact hne), hc]; simp
    · intro v cps hv
      exact .esc hse hv
  refine .ite (fun h => simple 0x22 _ (by decide) (by decide) (by decide) (by simpa using h)) (fun _ => ?_)
  refine .ite (fun h => simple 0x5C _ (by decide) (by decide) (by decide) (by simpa using h)) (fun _ => ?_)
  refine .ite (fun h => simple 0x2F _ (by decide) (by decide) (by decide) (by simpa using h)) (fun _ => ?_)
  refine .ite (fun h => simple 0x62 _ (by decide) (by decide) (by decide) (by simpa using h)) (fun _ => ?_)
  refine .ite (fun h => simple 0x66 _ (by decide) (by decide) (by decide) (by simpa using h)) (fun _ => ?_)
  refine .ite (fun h => simple 0x6E _ (by decide) (by decide) (by decide) (by simpa using h)) (fun _ => ?_)
  refine .ite (fun h => simple 0x72 _ (by decide) (by decide) (by decide) (by simpa using h)) (fun _ => ?_)
  refine .ite (fun h => simple 0x74 _ (by decide) (by decide) (by decide) (by simpa using h)) (fun _ => ?_)
  refine .ite (fun h => ?_) (fun _ => .fail hx)
  refine (post_scanUnicodeEscape H hx ho1 (by simpa using h)).imp ?_
  rintro t _ l' d' _ _ ⟨h1, e, cp, h2, h3⟩
  exact ⟨h1, e, cp, by rw [hone, List.append_assoc, h2]; rfl, h3⟩

theorem post_stringLoop (H : Canon C) (hx : E (.exn .deserialization)) (n : Nat) (hl : Ok l)
    (hn : l.length + 1 ≤ n) (ho : d.out.failb = false) :
    Post E (stringLoop C n) l d fun t _ _ d' => ∃ u cps, t = one l ++ u ∧ StrChars u cps ∧
      d' = { d with out := writeAll C.enc d.out cps } ∧ d'.out.failb = false := by
  induction n generalizing l d with
  | zero => omega
  | succ n ih =>
    unfold stringLoop
    refine .bind (.readNext H hx hl fun ho1 _ _ => ?_)
    refine .bind (.eof H ho1 fun _ _ => ?_)
    refine .ite (fun _ => .fail hx) (fun he => ?_)
    simp only [Bool.not_eq_true] at he
    obtain ⟨r, hr⟩ := cons_of_nonempty ho1 he
    have hone : one l.tail = [hd l.tail] := by rw [hr]; rfl
    have hlen : l.length = l.tail.length + 1 := by
      cases l with
      | nil => simp at he
      | cons => simp
    refine .ite (fun hs => ?_) (fun hs => .ite (fun _ => .fail hx) (fun hs2 => .ite (fun hs3 => ?_) (fun hs3 => ?_)))
    · have hs : hd l.tail = 0x22 := by simpa using hs
      refine .bind (.readNext H hx ho1 fun ho2 _ _ => .pure ho2 ?_)
      exact ⟨[0x22], [], by simp [hone, hs], .close, by simp [writeAll], ho⟩
    · have hs3 : hd l.tail = 0x5C := by simpa using hs3
      refine .bind ((post_scanEscape H hx ho1 hs3 ho).imp ?_)
      rintro t _ l2 d2 hl2 ho2 ⟨hne, e, cp, h1, h2, rfl, h4⟩ _ _
      have hlen2 := len_of hl2
      refine (ih ho2 (by omega) h4).imp ?_
      rintro t' _ l3 d3 _ _ ⟨u, cps, rfl, h5, rfl, h7⟩
      refine ⟨0x5C :: e ++ u, cp :: cps, ?_, h2 u cps h5, rfl, h7⟩
      rw [← h1]; simp
    · refine .bind ((post_putCp hx _ ho1).imp ?_)
      rintro _ _ _ _ _ _ ⟨rfl, rfl, rfl, h4⟩ _ _
      refine (ih ho1 (by omega) h4).imp ?_
      rintro t' _ l3 d3 _ _ ⟨u, cps, rfl, h5, rfl, h7⟩
      refine ⟨hd l.tail :: u, hd l.tail :: cps, by simp [hone], ?_, rfl, h7⟩
      exact .raw (by omega) (by simpa using hs) (by simpa using hs3) h5

theorem post_scanString (H : Canon C) (hx : E (.exn .deserialization)) (hl : Ok l)
    (hb : l.length + 1 ≤ C.bound) (hcur : hd l = 0x22) :
    Post E (scanString C) l d fun t _ _ d' => StrLit C.dialect t d'.out.out := by
  unfold scanString
  refine .bind (.modify (d' := { d with out := .ofString [] }) hl rfl fun _ _ => ?_)
  refine .bind (.cur hl fun _ _ => ?_)
  have ha : assert C (hd l == 0x22) = Pure.pure () := by simp [assert, hcur]
  rw [ha]
  refine .bind (.pure hl fun _ _ => ?_)
  refine (post_stringLoop H hx _ hl hb rfl).imp ?_
  rintro t _ l' d' _ _ ⟨u, cps, rfl, h1, rfl, h2⟩
  refine ⟨u, cps, by rw [one_of_hd (by omega), hcur]; rfl, h1, ?_⟩
  simp only [Cfg.dialect, storeWith]
  rw [if_neg (by simpa using h2)]

end Configor
