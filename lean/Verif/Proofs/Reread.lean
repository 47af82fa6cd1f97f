import Verif.Proofs.DumpRound
import Verif.Proofs.Layout
import Verif.Proofs.LexToken
import Verif.Proofs.Words
/-!
# Which strings are read back
-/
set_option autoImplicit false
namespace Configor
open Spec Props

/-- The text of a literal after its opening quote. -/
def litText (uesc : Bool) (cps : List Nat) : List Nat := cps.flatMap (charText uesc self) ++ [0x22]

theorem litText_cons (uesc : Bool) (c : Nat) (cps : List Nat) : litText uesc (c :: cps) = charText uesc self c ++ litText uesc cps := by
  simp [litText]

/-- The forms a character is written in. -/
inductive Form (uesc : Bool) (c : Nat) : List Nat → Prop where
  | raw : Rereadable uesc c → c ≠ 0x22 → c ≠ 0x5C → Form uesc c [c]
  | short {e : Nat} : Rereadable uesc c → e ≠ 0x75 → Form uesc c [0x5C, e]
  | full : Rereadable uesc c → c < 0x10000 → Form uesc c (0x5C :: 0x75 :: hex4 c)
  | two : Rereadable uesc c → Form uesc c
      (0x5C :: 0x75 :: hex4 (0xD800 + (c - 0x10000) / 1024) ++ 0x5C :: 0x75 :: hex4 (0xDC00 + (c - 0x10000) % 1024))
  | few {h : List Nat} : ¬ Rereadable uesc c → (h.length = 2 ∨ h.length = 3) → Form uesc c (0x5C :: 0x75 :: h)

theorem form_of {uesc : Bool} {c : Nat} (hc : IsScalar c) : Form uesc c (charText uesc self c) := by
  unfold charText
  cases hs : shortEscape c with
  | some e =>
    have he : e ≠ 0x75 := by
      unfold shortEscape at hs
      repeat' split at hs
      all_goals first | (cases hs; done) | (cases hs; decide) | skip
    exact .short ⟨hc, .inl (by simp [hs])⟩ he
  | none =>
    have h1 : c ≠ 0x22 ∧ c ≠ 0x5C := by
      constructor <;> (rintro rfl; revert hs; decide)
    by_cases hE : Escaped uesc c
    · simp only [hE, if_true]
      unfold uniEscape
      by_cases hlt : c < 0x10000
      · rw [if_pos hlt]
        unfold hexShort
        by_cases h2 : c < 0x100
        · rw [if_pos h2]
          refine .few ?_ (.inl rfl)
          rintro ⟨_, h | ⟨h, h'⟩⟩
          · exact h hs
          · rcases hE with hE | ⟨hE, hE'⟩
            · omega
            · have := h' hE; omega
        · rw [if_neg h2]
          by_cases h3 : c < 0x1000
          · rw [if_pos h3]
            refine .few ?_ (.inr rfl)
            rintro ⟨_, h | ⟨h, h'⟩⟩
            · exact h hs
            · rcases hE with hE | ⟨hE, hE'⟩
              · omega
              · have := h' hE; omega
          · rw [if_neg h3]
            exact .full ⟨hc, .inr ⟨by omega, fun _ => .inr (by omega)⟩⟩ hlt
      · rw [if_neg hlt]
        have := Form.two (uesc := uesc) (c := c) ⟨hc, .inr ⟨by omega, fun _ => .inr (by omega)⟩⟩
        simpa using this
    · simp only [hE, if_false]
      refine .raw ⟨hc, .inr ?_⟩ h1.1 h1.2
      unfold Escaped at hE
      constructor
      · omega
      · intro hu
        left
        simp [hu] at hE
        omega

theorem hexDigit_noEnd {a x : Nat} (h : hexDigit a = some x) : a ≠ 0x22 ∧ a ≠ 0x5C := by
  refine ⟨?_, ?_⟩ <;> rintro rfl
  · rw [show hexDigit 0x22 = none from by decide] at h; cases h
  · rw [show hexDigit 0x5C = none from by decide] at h; cases h

/-- Hex digits at the start of a text are characters of their own. -/
theorem strip_hex {uesc : Bool} : ∀ (x cps t : List Nat), (∀ c ∈ cps, IsScalar c) → (∀ a ∈ x, hexDigit a ≠ none) →
    litText uesc cps = x ++ t → ∃ a b, cps = a ++ b ∧ a.length = x.length ∧ t = litText uesc b := by
  intro x
  induction x with
  | nil => intro cps t _ _ h; exact ⟨[], cps, rfl, rfl, h.symm⟩
  | cons d x ih =>
    intro cps t hc hx h
    have hd : d ≠ 0x22 ∧ d ≠ 0x5C := by
      rcases hd : hexDigit d with _ | v
      · exact absurd hd (hx d (by simp))
      · exact hexDigit_noEnd hd
    cases cps with
    | nil => simp [litText] at h; exact absurd h.1.symm hd.1
    | cons c cps =>
      rw [litText_cons] at h
      have hf := form_of (uesc := uesc) (hc c (by simp))
      generalize charText uesc self c = w at h hf
      cases hf with
      | raw _ _ _ =>
        simp at h
        obtain ⟨a, b, rfl, h1, h2⟩ := ih cps t (fun c h => hc c (by simp [h])) (fun a h => hx a (by simp [h])) h.2
        exact ⟨c :: a, b, rfl, by simp [h1], h2⟩
      | _ => simp at h; exact absurd h.1.symm hd.2

/-- What stands behind `\u` and four hex digits. -/
theorem strip_uni {uesc : Bool} {cps h t : List Nat} {u : Nat} (hc : ∀ c ∈ cps, IsScalar c) (hx : Hex4 h u)
    (he : litText uesc cps = 0x5C :: 0x75 :: h ++ t) :
    ∃ c cs, cps = c :: cs ∧ ((Rereadable uesc c ∧ u = c ∧ t = litText uesc cs)
      ∨ (Rereadable uesc c ∧ 0xD800 ≤ u ∧ u ≤ 0xDBFF ∧ ∃ h' u', Hex4 h' u' ∧ t = 0x5C :: 0x75 :: h' ++ litText uesc cs)
      ∨ (¬ Rereadable uesc c ∧ ∃ a b, cs = a ++ b ∧ a ≠ [] ∧ t = litText uesc b)) := by
  cases cps with
  | nil => simp [litText] at he
  | cons c cs =>
    refine ⟨c, cs, rfl, ?_⟩
    rw [litText_cons] at he
    have hs := hc c (by simp)
    have hf := form_of (uesc := uesc) hs
    generalize charText uesc self c = w at he hf
    cases hf with
    | raw _ _ h2 => simp at he; exact absurd he.1 h2
    | short _ h2 => simp at he; exact absurd he.1 h2
    | full hr hlt =>
      simp only [List.cons_append, List.cons.injEq, true_and] at he
      obtain ⟨_, h2, h3⟩ := hex4_unique (hex4_spec hlt) hx he
      exact .inl ⟨hr, h2.symm, h3.symm⟩
    | two hr =>
      simp only [List.cons_append, List.append_assoc, List.cons.injEq, true_and] at he
      have hm : c ≤ 0x10FFFF := hs.1
      obtain ⟨_, h2, h3⟩ := hex4_unique (hex4_spec (by omega)) hx he
      refine .inr (.inl ⟨hr, by omega, by omega, _, _, hex4_spec (n := 0xDC00 + (c - 0x10000) % 1024) (by omega), by simpa using h3.symm⟩)
    | @few k hr hl =>
      simp only [List.cons_append, List.cons.injEq, true_and] at he
      have hh : ∀ a ∈ h, hexDigit a ≠ none := by
        cases hx with
        | mk h1 h2 h3 h4 => intro a ha; simp at ha; rcases ha with rfl | rfl | rfl | rfl <;> simp [*]
      have h4 : h.length = 4 := by obtain ⟨_, _, _, _, rfl⟩ := hex4_shape hx; rfl
      have hk : h = k ++ h.drop k.length := by
        have : k = h.take k.length := by
          have := congrArg (List.take k.length) he
          rw [List.take_left, List.take_append_of_le_length (by omega)] at this
          exact this
        conv => lhs; rw [← List.take_append_drop k.length h, ← this]
      rw [hk, List.append_assoc] at he
      have he := List.append_cancel_left he
      obtain ⟨a, b, h5, h6, h7⟩ := strip_hex _ cs t (fun c h => hc c (by simp [h])) (fun a ha => hh a (List.mem_of_mem_drop ha)) he
      refine .inr (.inr ⟨hr, a, b, h5, ?_, h7⟩)
      rintro rfl
      simp at h6
      omega

/-- A literal is never read as more characters than were written, and as fewer if one of them is written with too few digits. -/
theorem litText_shorter {uesc : Bool} (e : List Nat) : ∀ (n : Nat) (cps cps' t : List Nat), cps.length ≤ n →
    (∀ c ∈ cps, IsScalar c) → StrChars t cps' → litText uesc cps = t ++ e →
    (e = [] ∧ cps'.length ≤ cps.length) ∧ ((∃ c ∈ cps, ¬ Rereadable uesc c) → cps'.length < cps.length) := by
  intro n
  induction n with
  | zero =>
    intro cps cps' t hn _ h he
    obtain rfl : cps = [] := by cases cps with | nil => rfl | cons => simp at hn
    simp [litText] at he
    cases h with
    | close => simp at he ⊢; exact he
    | raw _ h2 _ _ => simp at he; exact absurd he.1.symm h2
    | _ => simp at he
  | succ n ih =>
    intro cps cps' t hn hc h he
    cases h with
    | close =>
      cases cps with
      | nil => simp [litText] at he ⊢; exact he
      | cons c cs =>
        rw [litText_cons] at he
        have hf := form_of (uesc := uesc) (hc c (by simp))
        generalize charText uesc self c = w at he hf
        cases hf with
        | raw _ h2 _ => simp at he; exact absurd he.1 h2
        | _ => simp at he
    | @raw c t ps h1 h2 h3 h4 =>
      cases cps with
      | nil => simp [litText] at he; exact absurd he.1.symm h2
      | cons d cs =>
        rw [litText_cons] at he
        have hf := form_of (uesc := uesc) (hc d (by simp))
        generalize charText uesc self d = w at he hf
        cases hf with
        | raw hr _ _ =>
          simp at he hn
          obtain ⟨i1, i2⟩ := ih cs ps _ hn (fun c h => hc c (by simp [h])) h4 he.2
          refine ⟨⟨i1.1, by simpa using i1.2⟩, ?_⟩
          rintro ⟨x, hx, hb⟩
          rcases List.mem_cons.1 hx with rfl | hx
          · exact absurd hr hb
          · simpa using i2 ⟨x, hx, hb⟩
        | _ => simp at he; exact absurd he.1.symm h3
    | @esc c d t ps h1 h4 =>
      have hu : c ≠ 0x75 := by rintro rfl; rw [simpleEscape_u] at h1; cases h1
      cases cps with
      | nil => simp [litText] at he
      | cons d' cs =>
        rw [litText_cons] at he
        have hf := form_of (uesc := uesc) (hc d' (by simp))
        generalize charText uesc self d' = w at he hf
        cases hf with
        | raw _ _ h5 => simp at he; exact absurd he.1 h5
        | short hr _ =>
          simp at he hn
          obtain ⟨i1, i2⟩ := ih cs ps _ hn (fun c h => hc c (by simp [h])) h4 he.2
          refine ⟨⟨i1.1, by simpa using i1.2⟩, ?_⟩
          rintro ⟨x, hx, hb⟩
          rcases List.mem_cons.1 hx with rfl | hx
          · exact absurd hr hb
          · simpa using i2 ⟨x, hx, hb⟩
        | _ => simp at he; exact absurd he.1.symm hu
    | @uni h u t ps h1 h2 h4 =>
      obtain ⟨c, cs, rfl, h5⟩ := strip_uni (t := t ++ e) hc h1 (by rw [he, List.append_assoc])
      simp at hn
      rcases h5 with ⟨hr, _, h7⟩ | ⟨_, h6, h7, _⟩ | ⟨_, a, b, rfl, ha, h7⟩
      · obtain ⟨i1, i2⟩ := ih cs ps _ hn (fun c h => hc c (by simp [h])) h4 h7.symm
        refine ⟨⟨i1.1, by simpa using i1.2⟩, ?_⟩
        rintro ⟨x, hx, hb⟩
        rcases List.mem_cons.1 hx with rfl | hx
        · exact absurd hr hb
        · simpa using i2 ⟨x, hx, hb⟩
      · exact absurd ⟨h6, h7⟩ h2
      · have hp : 0 < a.length := List.length_pos_iff.2 ha
        simp at hn
        obtain ⟨⟨i0, i1⟩, _⟩ := ih b ps _ (by omega) (fun c h => hc c (by simp [h])) h4 h7.symm
        have : (u :: ps).length < (c :: (a ++ b)).length := by simp; omega
        exact ⟨⟨i0, by omega⟩, fun _ => this⟩
    | @pair h u h' u' t ps h1 h2 h3 h6 h4 =>
      obtain ⟨c, cs, rfl, h5⟩ := strip_uni (t := 0x5C :: 0x75 :: h' ++ (t ++ e)) hc h1 (by rw [he]; simp)
      simp at hn
      rcases h5 with ⟨_, rfl, _⟩ | ⟨hr, _, _, k, v, hk, h7⟩ | ⟨_, a, b, rfl, ha, h7⟩
      · have := (hc u (by simp)).2
        unfold IsSurrogate at this
        omega
      · simp only [List.cons_append, List.cons.injEq, true_and] at h7
        obtain ⟨_, _, h8⟩ := hex4_unique h3 hk h7
        obtain ⟨i1, i2⟩ := ih cs ps _ hn (fun c h => hc c (by simp [h])) h4 h8.symm
        refine ⟨⟨i1.1, by simpa using i1.2⟩, ?_⟩
        rintro ⟨x, hx, hb⟩
        rcases List.mem_cons.1 hx with rfl | hx
        · exact absurd hr hb
        · simpa using i2 ⟨x, hx, hb⟩
      · have hp : 0 < a.length := List.length_pos_iff.2 ha
        have hb : ∀ c ∈ b, IsScalar c := fun c h => hc c (by simp [h])
        obtain ⟨c2, cs2, rfl, h8⟩ := strip_uni hb h3 h7.symm
        rcases h8 with ⟨_, rfl, _⟩ | ⟨_, h9, h10, _⟩ | ⟨_, a2, b2, rfl, _, h9⟩
        · have := (hb u' (by simp)).2
          unfold IsSurrogate at this
          omega
        · omega
        · simp at hn
          obtain ⟨⟨i0, i1⟩, _⟩ := ih b2 ps _ (by omega) (fun c h => hb c (by simp [h])) h4 h9.symm
          have : ((0x10000 + (u - 0xD800) * 0x400 + (u' - 0xDC00)) :: ps).length < (c :: (a ++ c2 :: (a2 ++ b2))).length := by
            simp; omega
          exact ⟨⟨i0, by omega⟩, fun _ => this⟩

variable {F : Type}

/-- Dumping, and the text that the parser sees, whether or not it can read it. -/
theorem dump_reads_any {A : DumpArgs F} {B : ParseArgs F} (hAB : Reverses A B) {spec spec' : Nat → List Nat}
    (hs : Target A.se A.sw spec) (ht : Target A.te A.tw spec') (hb : BlankStyle A.style) (v : Value F)
    (hf : ∀ f, HasFloat v f → FloatOk A f ∧ All (· < 128) (floatText A.fo f))
    (htx : ∀ s, HasText v s → ∃ cps : List Nat, s = cps.flatMap spec ∧ ∀ c ∈ cps, IsScalar c ∧ (A.sw = 16 ∨ A.tw = 16 → c ≠ 0xFFFF)) :
    (∀ str, jsonDump A none str v = (.ok (), str ++ (A.printer spec').text 0 v)) ∧
    Reads B ((A.printer spec').text 0 v) ((A.printer self).text 0 v) ∧
    ∀ s, HasText v s → (∀ c ∈ (A.printer self).txt s, IsScalar c) ∧ B.dialect.store ((A.printer self).txt s) = some s := by
  have htxt : ∀ s, HasText v s → ∃ cps : List Nat, s = cps.flatMap spec ∧
      (∀ c ∈ cps, IsScalar c ∧ (A.sw = 16 ∨ A.tw = 16 → c ≠ 0xFFFF)) ∧
      ReadsAs (A.se.decode A.sw (strSBuf A.sw)) (onString s) cps := by
    intro s h
    obtain ⟨cps, rfl, hc⟩ := htx s h
    exact ⟨cps, rfl, hc, hs.reads (fun c h => (hc c h).1) (fun hw c h => (hc c h).2 (Or.inl hw))⟩
  have hfine : ∀ s, HasText v s → Fine A s := by
    intro s h
    obtain ⟨cps, _, hc, hr⟩ := htxt s h
    refine ⟨cps, hr, fun c h => Or.inr (Or.inr ?_)⟩
    rw [(ht.store [c] (spec' c)).2 ⟨by simpa using (hc c h).1.1, by simp⟩]
    simp
  refine ⟨?_, ?_⟩
  · intro str
    have := jsonDump_spec ht.prints str v
    rcases hd : jsonDump A none str v with ⟨e | _, r⟩
    · rw [hd] at this
      rcases this with ⟨_, s, hs, hn⟩ | ⟨_, f, hf', hn⟩
      · exact absurd (hfine s hs) hn
      · exact absurd (hf f hf').1 hn
    · rw [hd] at this
      rw [this.2]
  · have hch : A.style.pretty = true → A.style.ch < 128 := by
      intro hp; rcases hb hp with h | h <;> omega
    have hch0 : ∀ {Q : Nat → Prop}, (∀ c < 128, Q c) → Chars Q (A.printer self) := fun ha =>
      ⟨ha, fun hp => ha _ (hch hp), fun i => (decText_ascii i).mono ha⟩
    have htx' : ∀ s, HasText v s → (A.printer self).txt s = (A.printer self).txt s ∧
        (∀ c ∈ (A.printer self).txt s, IsScalar c ∧ (A.sw = 16 ∨ A.tw = 16 → c ≠ 0xFFFF)) ∧
        s = ((A.printer self).txt s).flatMap spec := by
      intro s hs
      obtain ⟨cps, h1, h2, h3⟩ := htxt s hs
      have : (A.printer self).txt s = cps := items_txt h3
      rw [this]
      exact ⟨rfl, h2, h1⟩
    have hr : ∀ s, HasText v s → (∀ c ∈ (A.printer self).txt s, IsScalar c) ∧ B.dialect.store ((A.printer self).txt s) = some s := by
      intro s h
      obtain ⟨_, h2, h3⟩ := htx' s h
      refine ⟨fun c hc => (h2 c hc).1, ?_⟩
      have hst : Target B.te B.tw spec := by rw [hAB.te, hAB.tw]; exact hs
      exact (hst.store _ s).2 ⟨fun c hc => (h2 c hc).1.1, h3⟩
    -- the units of the text
    have hall : All (fun c => IsScalar c ∧ (A.tw = 16 → c ≠ 0xFFFF)) ((A.printer self).text 0 v) := by
      have ha : ∀ c < 128, IsScalar c ∧ (A.tw = 16 → c ≠ 0xFFFF) := by
        intro c hc; unfold IsScalar IsSurrogate maxCp; omega
      refine text_all (hch0 ha) 0 v ?_ (fun f h => (hf f h).2.mono ha)
      intro s hs c hc
      obtain ⟨_, h2, _⟩ := htx' s hs
      obtain ⟨x, hx, hcx⟩ := List.mem_flatMap.1 hc
      refine charText_all ha (fun _ _ => ?_) c hcx
      intro y hy
      have : y = x := by simpa [DumpArgs.printer, self] using hy
      rw [this]
      exact ⟨(h2 x hx).1, fun h => (h2 x hx).2 (Or.inr h)⟩
    have hmap : (A.printer spec').text 0 v = ((A.printer self).text 0 v).flatMap spec' := by
      have hmt : MapsTo spec' (A.printer self) (A.printer spec') :=
        ⟨rfl, rfl, rfl, rfl, fun c => by simp [DumpArgs.printer, self], hch0 fun c hc => ht.ascii hc⟩
      refine text_maps hmt 0 v fun f h => ?_
      exact (flatMap_fix fun c hc => ht.ascii ((hf f h).2 c hc)).symm
    have hread : Reads B ((A.printer spec').text 0 v) ((A.printer self).text 0 v) := by
      unfold Reads
      rw [hmap, hAB.se, hAB.sw]
      exact ht.reads (fun c h => (hall c h).1) (fun hw c h => (hall c h).2 hw)
    exact ⟨hread, hr⟩


theorem hex4_lt {h : List Nat} {u : Nat} (hx : Hex4 h u) : u < 0x10000 := by
  cases hx with
  | mk h1 h2 h3 h4 =>
    have := hexDigit_lt h1
    have := hexDigit_lt h2
    have := hexDigit_lt h3
    have := hexDigit_lt h4
    omega

/-- The code points of a literal of scalars are at most U+10FFFF and no lead surrogates. -/
theorem strChars_noLead {t cps : List Nat} (h : StrChars t cps) (ht : ∀ c ∈ t, IsScalar c) :
    ∀ c ∈ cps, c ≤ maxCp ∧ isLead c = false := by
  induction h with
  | close => intro c hc; simp at hc
  | raw _ _ _ _ ih =>
    intro c hc
    rcases List.mem_cons.1 hc with rfl | hc
    · have := ht c (by simp)
      unfold IsScalar IsSurrogate at this
      refine ⟨this.1, ?_⟩
      simp [isLead]
      omega
    · exact ih (fun c h => ht c (by simp [h])) c hc
  | esc h _ ih =>
    intro c hc
    rcases List.mem_cons.1 hc with rfl | hc
    · unfold simpleEscape at h
      have : c < 0x100 := by
        repeat' split at h
        all_goals first | (cases h; decide) | (cases h)
      unfold maxCp
      refine ⟨by omega, ?_⟩
      simp [isLead]
      omega
    · exact ih (fun c h => ht c (by simp [h])) c hc
  | uni h1 h2 _ ih =>
    intro c hc
    rcases List.mem_cons.1 hc with rfl | hc
    · have := hex4_lt h1
      unfold maxCp
      refine ⟨by omega, ?_⟩
      simp [isLead]
      omega
    · exact ih (fun c h => ht c (by simp [h])) c hc
  | @pair h u h' u' t cps h1 h2 h3 h4 _ ih =>
    intro c hc
    rcases List.mem_cons.1 hc with hc | hc
    · unfold maxCp
      generalize hz : 0x10000 + (u - 0xD800) * 0x400 + (u' - 0xDC00) = z at hc
      subst hc
      refine ⟨by omega, ?_⟩
      simp [isLead]
      omega
    · exact ih (fun c h => ht c (by simp [h])) c hc

/-- A value that starts with a quote is a string. -/
theorem val_quote {D : Dialect F} {u : List Nat} {nx : Option Nat} {v : Value F} (h : Val D (0x22 :: u) nx v) :
    ∃ s, v = .str s ∧ StrLit D (0x22 :: u) s := by
  generalize he : 0x22 :: u = t at h
  cases h with
  | vtrue h => subst he; exact absurd h.1 (by simp [kTrue])
  | vfalse h => subst he; exact absurd h.1 (by simp [kFalse])
  | vnull h => subst he; exact absurd h.1 (by simp [kNull])
  | num h =>
    cases h with
    | plain h1 _ _ => simp at he; omega
    | signed h1 _ => simp at he; omega
  | str h => exact ⟨_, rfl, h⟩
  | arr _ => simp at he
  | obj _ _ => simp at he

/-- A document that starts with a quote is a string. -/
theorem document_quote {D : Dialect F} {l : List Nat} {v : Value F} (h : Document D ((0x22 :: l).map some) v) :
    ∃ u e cps s, l = u ++ e ∧ StrChars u cps ∧ D.store cps = some s ∧ v = .str s := by
  obtain ⟨g, t, e, more, he, hg, hv, _⟩ := h
  have hne := val_ne_nil hv
  cases hg with
  | nil =>
    cases t with
    | nil => exact absurd rfl hne
    | cons x t =>
      simp only [List.nil_append, List.cons_append, List.map_cons, List.cons.injEq, Option.some.injEq] at he
      obtain ⟨rfl, he⟩ := he
      obtain ⟨s, rfl, u, cps, hu, hc, hs⟩ := val_quote hv
      simp at hu
      subst hu
      rw [List.map_append, List.append_assoc] at he
      have : t <+: l := map_some_prefix he.symm
      obtain ⟨r, rfl⟩ := this
      exact ⟨t, r, cps, s, rfl, hc, hs, rfl⟩
  | blank hc _ =>
    simp at he
    obtain ⟨rfl, _⟩ := he
    unfold IsBlank at hc
    omega
  | line _ _ _ => simp at he
  | block _ _ => simp at he

end Configor
