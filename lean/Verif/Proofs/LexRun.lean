import Verif.Proofs.ParseSound
/-! Completeness of the scanner: it accepts the texts of the grammar. -/
namespace Configor
open Lexer Spec

variable {F α β : Type} {C : Cfg CpS F} {l k : List (Option Nat)} {d : Data F}

/-- `m` started on `l` succeeds with `Q`. -/
def Runs (m : L CpS F α) (l : List (Option Nat)) (d : Data F)
    (Q : α → List (Option Nat) → Data F → Prop) : Prop :=
  ∃ a l' d', m (At l d) = (.ok a, At l' d') ∧ Q a l' d'

theorem Runs.imp {m : L CpS F α} {Q Q' : α → List (Option Nat) → Data F → Prop} (h : Runs m l d Q)
    (hq : ∀ a l' d', Q a l' d' → Q' a l' d') : Runs m l d Q' := by
  obtain ⟨a, l', d', h1, h2⟩ := h
  exact ⟨a, l', d', h1, hq _ _ _ h2⟩

theorem Runs.bind {m : L CpS F α} {f : α → L CpS F β} {Q : β → List (Option Nat) → Data F → Prop}
    (h : Runs m l d fun a l' d' => Runs (f a) l' d' Q) : Runs (m >>= f) l d Q := by
  obtain ⟨a, l', d', h1, b, l2, d2, h2, h3⟩ := h
  exact ⟨b, l2, d2, by rw [M.bind_ok h1, h2], h3⟩

theorem Runs.pure {a : α} {Q : α → List (Option Nat) → Data F → Prop} (h : Q a l d) :
    Runs (Pure.pure a : L CpS F α) l d Q := ⟨a, l, d, rfl, h⟩

theorem Runs.cur {Q : Nat → List (Option Nat) → Data F → Prop} (h : Q (hd l) l d) :
    Runs Lexer.cur l d Q := ⟨_, l, d, rfl, h⟩

theorem Runs.eof (H : Canon C) {Q : Bool → List (Option Nat) → Data F → Prop} (h : Q l.isEmpty l d) :
    Runs (Lexer.eof C) l d Q := by
  refine ⟨l.isEmpty, l, d, ?_, h⟩
  unfold Lexer.eof
  rw [H.src]
  rfl

theorem Runs.modify {f : Lex CpS F → Lex CpS F} {d' : Data F} {Q : Unit → List (Option Nat) → Data F → Prop}
    (hf : f (At l d) = At l d') (h : Q () l d') : Runs (M.modify f) l d Q :=
  ⟨(), l, d', by unfold M.modify; rw [hf], h⟩

theorem Runs.gets {f : Lex CpS F → α} {Q : α → List (Option Nat) → Data F → Prop}
    (h : Q (f (At l d)) l d) : Runs (M.gets f) l d Q := ⟨_, l, d, rfl, h⟩

theorem Runs.yes {c : Prop} [Decidable c] {m m' : L CpS F α} {Q : α → List (Option Nat) → Data F → Prop}
    (hc : c) (h : Runs m l d Q) : Runs (if c then m else m') l d Q := by rwa [if_pos hc]

theorem Runs.no {c : Prop} [Decidable c] {m m' : L CpS F α} {Q : α → List (Option Nat) → Data F → Prop}
    (hc : ¬ c) (h : Runs m' l d Q) : Runs (if c then m else m') l d Q := by rwa [if_neg hc]

theorem Runs.readNext (H : Canon C) {Q : Nat → List (Option Nat) → Data F → Prop} (ho : Ok l.tail)
    (h : Q (hd l.tail) l.tail d) : Runs (Lexer.readNext C) l d Q := ⟨_, _, d, readNext_ok H d ho, h⟩

/-- `read_next` past a character. -/
theorem Runs.next (H : Canon C) {c : Nat} {Q : Nat → List (Option Nat) → Data F → Prop} (ho : Ok k)
    (h : Q (hd k) k d) : Runs (Lexer.readNext C) (some c :: k) d Q := Runs.readNext H ho h

/-- A text followed by the input `k`. -/
def txt (t : List Nat) (k : List (Option Nat)) : List (Option Nat) := t.map some ++ k

@[simp] theorem txt_nil : txt [] k = k := rfl
@[simp] theorem txt_cons (c : Nat) (t : List Nat) : txt (c :: t) k = some c :: txt t k := rfl
@[simp] theorem txt_append (s t : List Nat) : txt (s ++ t) k = txt s (txt t k) := by simp [txt]
@[simp] theorem hd_some (c : Nat) : hd (some c :: k) = c := rfl
theorem txt_length (t : List Nat) : (txt t k).length = t.length + k.length := by simp [txt]

theorem Ok.txt (t : List Nat) (ho : Ok k) : Ok (Configor.txt t k) := by
  cases t with
  | nil => exact ho
  | cons c t => exact .cons _ _

/-! ## Gaps -/

theorem run_skipBlanks (H : Canon C) (t : List Nat) (n : Nat) (ht : ∀ c ∈ t, IsBlank c) (ho : Ok k)
    (hk : ¬ IsBlank (hd k)) (hn : t.length + 1 ≤ n) :
    Runs (skipBlanks C n) (txt t k) d fun _ l' d' => l' = k ∧ d' = d := by
  induction t generalizing n with
  | nil =>
    cases n with
    | zero => simp at hn
    | succ n =>
      unfold skipBlanks
      exact .bind (.cur (.no (by rwa [txt_nil, isSpace_iff]) (.pure ⟨rfl, rfl⟩)))
  | cons c t ih =>
    cases n with
    | zero => simp at hn
    | succ n =>
      unfold skipBlanks
      refine .bind (.cur (.yes ?_ (.bind (.next H (ho.txt t) (ih n ?_ ?_)))))
      · rw [isSpace_iff]; exact ht c (by simp)
      · exact fun c hc => ht c (by simp [hc])
      · simpa using hn

theorem run_lineComment (H : Canon C) (x : Nat) (t : List Nat) (nl : Nat) (n : Nat) (ht : Line t)
    (hnl : nl = 0x0A ∨ nl = 0x0D) (hn : t.length + 1 ≤ n) :
    Runs (lineComment C n) (txt (x :: t) (some nl :: k)) d fun b l' d' =>
      b = true ∧ l' = some nl :: k ∧ d' = d := by
  induction t generalizing n x with
  | nil =>
    cases n with
    | zero => simp at hn
    | succ n =>
      unfold lineComment
      refine .bind (.next H (.cons _ _) (.yes (by simpa using hnl) (.pure ⟨rfl, rfl, rfl⟩)))
  | cons c t ih =>
    cases n with
    | zero => simp at hn
    | succ n =>
      unfold lineComment
      refine .bind (.next H (.cons _ _) (.no (by simpa using ht c (by simp)) (.bind (.eof H (.no (by simp) (ih c n ?_ ?_))))))
      · exact fun c hc => ht c (by simp [hc])
      · simpa using hn

theorem run_lineEof (H : Canon C) (x : Nat) (t : List Nat) (n : Nat) (ht : Line t)
    (hn : t.length + 1 ≤ n) :
    Runs (lineComment C n) (txt (x :: t) []) d fun b l' d' => b = false ∧ l' = [] ∧ d' = d := by
  induction t generalizing n x with
  | nil =>
    cases n with
    | zero => simp at hn
    | succ n =>
      unfold lineComment
      exact .bind (.next H Ok.nil (.no (by simp [hd]) (.bind (.eof H (.yes (by simp) (.pure ⟨rfl, rfl, rfl⟩))))))
  | cons c t ih =>
    cases n with
    | zero => simp at hn
    | succ n =>
      unfold lineComment
      refine .bind (.next H (.cons _ _) (.no (by simpa using ht c (by simp)) (.bind (.eof H (.no (by simp) (ih c n ?_ ?_))))))
      · exact fun c hc => ht c (by simp [hc])
      · simpa using hn

theorem run_blockComment (H : Canon C) (x : Nat) {t : List Nat} (n : Nat) (ht : BlockBody t) (ho : Ok k)
    (hn : t.length + 1 ≤ n) :
    Runs (blockComment C n) (txt (x :: t) k) d fun _ l' d' => l' = k ∧ d' = d := by
  induction ht generalizing n x with
  | close =>
    cases n with
    | zero => simp at hn
    | succ n =>
      unfold blockComment
      exact .bind (.next H (.cons _ _) (.yes (by simp) (.bind (.next H (.cons _ _) (.yes (by simp)
        (.bind (.next H ho (.pure ⟨rfl, rfl⟩))))))))
  | @other c t hc ht ih =>
    cases n with
    | zero => simp at hn
    | succ n =>
      unfold blockComment
      refine .bind (.next H (.cons _ _) (.no (by simpa using hc) (.bind (.eof H (.no (by simp) (ih c n ?_))))))
      simpa using hn
  | @star c t hc ht ih =>
    cases n with
    | zero => simp at hn
    | succ n =>
      unfold blockComment
      refine .bind (.next H (.cons _ _) (.yes (by simp) (.bind (.next H (.cons _ _) (.no (by simpa using hc)
        (.bind (.eof H (.no (by simp) (ih c n ?_)))))))))
      simp at hn ⊢; omega

/-- The blanks at the start of a gap. -/
theorem gap_split {g : List Nat} (hg : Gap g) : ∃ bs g', g = bs ++ g' ∧ (∀ c ∈ bs, IsBlank c) ∧
    (g' = [] ∨ (∃ t nl g2, g' = 0x2F :: 0x2F :: t ++ nl :: g2 ∧ Line t ∧ (nl = 0x0A ∨ nl = 0x0D) ∧ Gap g2) ∨
      (∃ t g2, g' = 0x2F :: 0x2A :: t ++ g2 ∧ BlockBody t ∧ Gap g2)) := by
  induction hg with
  | nil => exact ⟨[], [], rfl, by simp, Or.inl rfl⟩
  | @blank c g hc hg ih =>
    obtain ⟨bs, g', rfl, h1, h2⟩ := ih
    refine ⟨c :: bs, g', rfl, ?_, h2⟩
    intro x hx
    rcases List.mem_cons.1 hx with rfl | hx
    · exact hc
    · exact h1 x hx
  | line h1 h2 h3 => exact ⟨[], _, rfl, by simp, Or.inr (Or.inl ⟨_, _, _, rfl, h1, h2, h3⟩)⟩
  | block h1 h2 => exact ⟨[], _, rfl, by simp, Or.inr (Or.inr ⟨_, _, rfl, h1, h2⟩)⟩

/-- What stands behind a gap: something else, or a last line comment. -/
def Behind (k k' : List (Option Nat)) : Prop :=
  (¬ IsBlank (hd k) ∧ hd k ≠ 0x2F ∧ k' = k) ∨ (∃ t, Line t ∧ k = txt (0x2F :: 0x2F :: t) [] ∧ k' = [])

theorem run_skipSpaces (H : Canon C) {g : List Nat} {k' : List (Option Nat)} (n : Nat) (hg : Gap g)
    (ho : Ok k) (hk : Behind k k') (hn : g.length + 1 ≤ n) (hb : g.length + k.length + 1 ≤ C.bound) :
    Runs (skipSpaces C n) (txt g k) d fun _ l' d' => l' = k' ∧ d' = d := by
  induction n generalizing g with
  | zero => simp at hn
  | succ n ih =>
    unfold skipSpaces
    obtain ⟨bs, g', rfl, h1, h2⟩ := gap_split hg
    rw [txt_append]
    have nb : ¬ IsBlank (hd (txt g' k)) := by
      rcases h2 with rfl | ⟨t, nl, g2, rfl, _⟩ | ⟨t, g2, rfl, _⟩
      · rcases hk with ⟨h, _⟩ | ⟨t, _, rfl, _⟩
        · exact h
        · simp [IsBlank]
      · simp [IsBlank]
      · simp [IsBlank]
    simp only [List.length_append] at hn hb
    refine .bind ((run_skipBlanks H bs C.bound h1 (ho.txt _) nb (by omega)).imp ?_)
    rintro _ _ _ ⟨rfl, rfl⟩
    rcases h2 with rfl | ⟨t, nl, g2, rfl, ht, hnl, hg2⟩ | ⟨t, g2, rfl, ht, hg2⟩
    · rcases hk with ⟨_, h, rfl⟩ | ⟨t, ht, rfl, rfl⟩
      · exact .bind (.cur (.no (by simpa using h) (.pure ⟨rfl, rfl⟩)))
      · refine .bind (.cur (.yes (by simp) (.bind (.next H (.cons _ _) (.yes (by simp) (.bind ?_))))))
        refine (run_lineEof H 0x2F t C.bound ht ?_).imp ?_
        · simp [txt_length] at hb; omega
        · rintro _ _ _ ⟨rfl, rfl, rfl⟩
          exact .no (by simp) (.pure ⟨rfl, rfl⟩)
    · simp only [List.cons_append, List.length_cons, List.length_append] at hn hb
      simp only [List.cons_append, txt_cons, txt_append]
      refine .bind (.cur (.yes (by simp) (.bind (.next H (.cons _ _) (.yes (by simp) (.bind ?_))))))
      refine (run_lineComment H 0x2F t nl C.bound ht hnl (by omega)).imp ?_
      rintro _ _ _ ⟨rfl, rfl, rfl⟩
      refine .yes rfl (ih (g := nl :: g2) (.blank ?_ hg2) ?_ ?_)
      · rcases hnl with rfl | rfl <;> simp [IsBlank]
      · simp; omega
      · simp; omega
    · simp only [List.cons_append, List.length_cons, List.length_append] at hn hb
      simp only [List.cons_append, txt_cons, txt_append]
      refine .bind (.cur (.yes (by simp) (.bind (.next H (.cons _ _) (.no (by simp) (.yes (by simp) (.bind ?_)))))))
      refine (run_blockComment H 0x2A C.bound ht (ho.txt _) (by omega)).imp ?_
      rintro _ _ _ ⟨rfl, rfl⟩
      exact ih hg2 (by omega) (by omega)

/-! ## Literals and strings -/

theorem run_scanLiteral (H : Canon C) (t kw : List Nat) (tok : Token) (ho : Ok k)
    (ht : t.map (· % 2 ^ C.w) = kw) :
    Runs (scanLiteral C kw tok) (txt t k) d fun a l' d' => a = tok ∧ l' = k ∧ d' = d := by
  induction t generalizing kw with
  | nil => simp at ht; subst ht; exact .pure ⟨rfl, rfl, rfl⟩
  | cons c t ih =>
    rw [List.map_cons] at ht
    subst ht
    unfold scanLiteral
    refine .bind (.cur (.no ?_ (.bind (.next H (ho.txt _) (ih _ rfl)))))
    simp [toChar]

theorem run_readEscaped (H : Canon C) (x : Nat) {h : List Nat} {u : Nat} (hh : Hex4 h u) :
    Runs (readEscaped C) (txt (x :: h) k) d fun a l' d' => a = u ∧ d' = d ∧ ∃ y, l' = some y :: k := by
  cases hh with
  | @mk a b c e x1 x2 x3 x4 h1 h2 h3 h4 =>
    unfold readEscaped
    have step : ∀ {y z f v : Nat} {fs : List Nat} {code : Nat} {r : List (Option Nat)} {Q},
        hexDigit z = some v →
        Runs (readEscapedLoop C fs (u32 (code + u32 (v <<< f)))) (some z :: r) d Q →
        Runs (readEscapedLoop C (f :: fs) code) (some y :: some z :: r) d Q := by
      intro y z f v fs code r Q hz hr
      unfold readEscapedLoop
      refine .bind (.next H (.cons _ _) ?_)
      simp only [hexVal_eq, hd_some, hz]
      exact hr
    refine step h1 (step h2 (step h3 (step h4 ?_)))
    unfold readEscapedLoop
    refine .pure ⟨?_, rfl, _, rfl⟩
    have := hexDigit_lt h1
    have := hexDigit_lt h2
    have := hexDigit_lt h3
    have := hexDigit_lt h4
    simp only [Nat.shiftLeft_eq, u32]
    simp only [Nat.reducePow]
    omega

/-- The encoder does not clear the failbit. -/
def Sticky (enc : Encoder) : Prop := ∀ o cp, o.failb = true → (enc o cp).failb = true

theorem OStream.put_failb (o : OStream) (c : Nat) : (o.put c).failb = o.failb := by
  unfold OStream.put; split <;> rfl

theorem Enc.sticky (e : Enc) (w : Nat) : Sticky (e.encode w) := by
  intro o cp h
  cases e
  · simp [Enc.encode, ignoreEncode, OStream.put_failb, h]
  · simp only [Enc.encode, utf8Encode]
    split
    · simp [OStream.put_failb, h]
    split
    · simp [OStream.put_failb, h]
    split
    · simp [OStream.put_failb, h]
    split
    · simp [OStream.put_failb, h]
    · rfl
  · simp only [Enc.encode, utf16Encode]
    split
    · simp [OStream.put_failb, h]
    split
    · simp [OStream.put_failb, h]
    · rfl
  · simp only [Enc.encode, utf32Encode]
    rw [OStream.put_failb]
    split
    · rfl
    · exact h

theorem writeAll_sticky {enc : Encoder} (hs : Sticky enc) (cps : List Nat) {o : OStream}
    (h : (writeAll enc o cps).failb = false) : o.failb = false := by
  induction cps generalizing o with
  | nil => exact h
  | cons c cps ih =>
    have := ih (o := enc o c) h
    cases ho : o.failb with
    | false => rfl
    | true => rw [hs o c ho] at this; cases this

theorem run_putCp (cp : Nat) (h : (C.enc d.out cp).failb = false) :
    Runs (putCp C cp) l d fun _ l' d' => l' = l ∧ d' = d.put C cp := by
  unfold putCp
  refine .bind (.modify (d' := d.put C cp) rfl (.bind (.gets (.yes ?_ (.pure ⟨rfl, rfl⟩)))))
  simp [OStream.good, At, Data.put, h]

theorem run_putAscii (H : Canon C) (c : Nat) (hc : c < 128) (ho : d.out.failb = false) :
    Runs (putAscii c) l d fun _ l' d' => l' = l ∧ d' = d.put C c := by
  unfold putAscii
  refine .modify (d' := d.put C c) ?_ ⟨rfl, rfl⟩
  unfold Data.put
  rw [H.ascii _ _ ho hc]
  rfl

theorem simpleEscape_spec {c x : Nat} (h : simpleEscape c = some x) :
    (c = 0x22 ∧ x = 0x22) ∨ (c = 0x5C ∧ x = 0x5C) ∨ (c = 0x2F ∧ x = 0x2F) ∨ (c = 0x62 ∧ x = 0x08) ∨
    (c = 0x66 ∧ x = 0x0C) ∨ (c = 0x6E ∧ x = 0x0A) ∨ (c = 0x72 ∧ x = 0x0D) ∨ (c = 0x74 ∧ x = 0x09) := by
  unfold simpleEscape at h
  repeat' (split at h)
  all_goals simp_all

theorem run_stringLoop (H : Canon C) (hst : Sticky C.enc) (x : Nat) {u cps : List Nat} (n : Nat) (hu : StrChars u cps)
    (ho : Ok k) (hn : u.length + 1 ≤ n) (hw : (writeAll C.enc d.out cps).failb = false) :
    Runs (stringLoop C n) (txt (x :: u) k) d fun _ l' d' => l' = k ∧
      d' = { d with out := writeAll C.enc d.out cps } := by
  have hsu : ∀ {c : Nat} {cps : List Nat} {d : Data F}, (writeAll C.enc d.out (c :: cps)).failb = false →
      (C.enc d.out c).failb = false ∧ d.out.failb = false := fun h =>
    ⟨writeAll_sticky hst _ (o := C.enc _ _) h, writeAll_sticky hst (_ :: _) h⟩
  induction hu generalizing n x d with
  | close =>
    cases n with
    | zero => simp at hn
    | succ n =>
      unfold stringLoop
      exact .bind (.next H (.cons _ _) (.bind (.eof H (.no (by simp) (.yes (by simp) (.bind (.next H ho (.pure ⟨rfl, rfl⟩))))))))
  | @raw c t cps h1 h2 h3 ht ih =>
    cases n with
    | zero => simp at hn
    | succ n =>
      unfold stringLoop
      refine .bind (.next H (.cons _ _) (.bind (.eof H (.no (by simp) (.no (by simpa using h2) (.no (by simp; omega)
        (.no (by simpa using h3) (.bind ((run_putCp c (hsu hw).1).imp ?_)))))))))
      rintro _ _ _ ⟨rfl, rfl⟩
      exact ih c n (by simpa using hn) hw
  | @esc c e t cps h1 ht ih =>
    cases n with
    | zero => simp at hn
    | succ n =>
      unfold stringLoop
      refine .bind (.next H (.cons _ _) (.bind (.eof H (.no (by simp) (.no (by simp) (.no (by simp)
        (.yes (by simp) (.bind ?_))))))))
      refine Runs.imp (Q := fun _ l' d' => l' = txt (c :: t) k ∧ d' = d.put C e) ?_ ?_
      · unfold scanEscape
        refine .bind (.next H (.cons _ _) ?_)
        have hpa := fun hlt => run_putAscii (l := txt (c :: t) k) H e hlt (hsu hw).2
        simp only [txt_cons] at hpa ⊢
        rcases simpleEscape_spec h1 with ⟨rfl, rfl⟩ | ⟨rfl, rfl⟩ | ⟨rfl, rfl⟩ | ⟨rfl, rfl⟩ | ⟨rfl, rfl⟩ | ⟨rfl, rfl⟩ |
          ⟨rfl, rfl⟩ | ⟨rfl, rfl⟩ <;> exact hpa (by decide)
      · rintro _ _ _ ⟨rfl, rfl⟩
        exact ih c n (by simp at hn ⊢; omega) hw
  | @uni h u t cps hh hnl ht ih =>
    cases n with
    | zero => simp at hn
    | succ n =>
      unfold stringLoop
      simp only [List.cons_append, txt_cons, txt_append]
      refine .bind (.next H (.cons _ _) (.bind (.eof H (.no (by simp) (.no (by simp) (.no (by simp)
        (.yes (by simp) (.bind ?_))))))))
      refine Runs.imp (Q := fun _ l' d' => (∃ y, l' = txt (y :: t) k) ∧ d' = d.put C u) ?_ ?_
      · unfold scanEscape
        refine .bind (.next H (.cons _ _) ?_)
        show Runs (scanUnicodeEscape C) _ _ _
        unfold scanUnicodeEscape
        have hre := run_readEscaped (k := txt t k) (d := d) H 0x75 hh
        rw [txt_cons] at hre
        refine .bind (hre.imp ?_)
        rintro _ _ _ ⟨rfl, rfl, y, rfl⟩
        refine .no (by rwa [isLead_iff]) ((run_putCp _ (hsu hw).1).imp ?_)
        rintro _ _ _ ⟨rfl, rfl⟩
        exact ⟨⟨y, rfl⟩, rfl⟩
      · rintro _ _ _ ⟨⟨y, rfl⟩, rfl⟩
        exact ih y n (by simp at hn ⊢; omega) hw
  | @pair h u h' u' t cps hh hld hh' htr ht ih =>
    cases n with
    | zero => simp at hn
    | succ n =>
      unfold stringLoop
      simp only [List.cons_append, txt_cons, txt_append]
      refine .bind (.next H (.cons _ _) (.bind (.eof H (.no (by simp) (.no (by simp) (.no (by simp)
        (.yes (by simp) (.bind ?_))))))))
      refine Runs.imp (Q := fun _ l' d' => (∃ y, l' = txt (y :: t) k) ∧ d' = d.put C (0x10000 + (u - 0xD800) * 0x400 + (u' - 0xDC00))) ?_ ?_
      · unfold scanEscape
        refine .bind (.next H (.cons _ _) ?_)
        show Runs (scanUnicodeEscape C) _ _ _
        unfold scanUnicodeEscape
        have hre := run_readEscaped (k := txt (0x5C :: 0x75 :: h') (txt t k)) (d := d) H 0x75 hh
        rw [txt_cons] at hre
        refine .bind (hre.imp ?_)
        rintro _ _ _ ⟨rfl, rfl, y, rfl⟩
        refine .yes (by rwa [isLead_iff]) (.bind (.next H (.cons _ _) (.no (by simp) (.bind (.next H (.cons _ _) (.no (by simp) (.bind ?_)))))))
        refine (run_readEscaped (k := txt t k) H 0x75 hh').imp ?_
        rintro _ _ _ ⟨rfl, rfl, z, rfl⟩
        have htr' := (isTrail_iff _).2 htr
        rw [decodeSurrogates_eq ((isLead_iff _).2 hld) htr']
        refine .no (by simp [htr']) ?_
        rename_i a1 a2 _
        rw [show (a1 - 55296) * 1024 + (a2 - 56320) + 65536 = 65536 + (a1 - 55296) * 1024 + (a2 - 56320) by omega]
        refine ((run_putCp _ (hsu hw).1).imp ?_)
        rintro _ _ _ ⟨rfl, rfl⟩
        exact ⟨⟨z, rfl⟩, rfl⟩
      · rintro _ _ _ ⟨⟨y, rfl⟩, rfl⟩
        exact ih y n (by simp at hn ⊢; omega) hw

theorem run_scanString (H : Canon C) (hst : Sticky C.enc) {t s : List Nat} (ht : StrLit C.dialect t s) (ho : Ok k)
    (hb : t.length + 1 ≤ C.bound) :
    Runs (scanString C) (txt t k) d fun _ l' d' => l' = k ∧ d'.out.out = s := by
  obtain ⟨u, cps, rfl, hu, hs⟩ := ht
  simp only [Cfg.dialect, storeWith] at hs
  split at hs
  · cases hs
  · rename_i hf
    unfold scanString
    refine .bind (.modify (d' := { d with out := .ofString [] }) rfl ?_)
    refine .bind (.cur ?_)
    rw [assert_true (by simp)]
    refine .bind (.pure ?_)
    refine (run_stringLoop H hst 0x22 _ hu ho (by simp at hb; omega) (by simpa using hf)).imp ?_
    rintro _ _ _ ⟨rfl, rfl⟩
    exact ⟨rfl, by simpa using hs⟩

end Configor
