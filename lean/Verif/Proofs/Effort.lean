import Verif.Proofs.Document
import Verif.Proofs.Sources
import Verif.Spec.Effort
/-!
# The parser asks its source once for each character, and at most twice more
-/
set_option autoImplicit false
namespace Configor
open Lexer Spec

variable {S F α β : Type}

/-- Something that is counted: what is true of the source before the end has been read, after it has been read at most `j` times, and
always. -/
structure Meter (C : Cfg S F) where
  Alive : S → Prop
  Over : Nat → S → Prop
  Bound : S → Prop
  alive_bound : ∀ {s}, Alive s → Bound s
  over_bound : ∀ {s}, Over 2 s → Bound s
  over_mono : ∀ {i j s}, i ≤ j → Over i s → Over j s
  over_eof : ∀ {j s}, Over j s → C.src.eof s = true
  more : ∀ {s}, Alive s → (C.src.decode s).1 = true → Bound (C.src.decode s).2.2 ∧ (C.src.good (C.src.decode s).2.2 = true → Alive (C.src.decode s).2.2)
  fin : ∀ {s}, Alive s → (C.src.decode s).1 = false → Over 1 (C.src.decode s).2.2
  stay : ∀ {s}, Over 1 s → (C.src.decode s).1 = false ∧ Over 2 (C.src.decode s).2.2

namespace Meter
variable {C : Cfg S F} (m : Meter C)

/-- The end has not been read. -/
def Live (s : Lex S F) : Prop := m.Alive s.is

/-- The end has been read, at most `j` times. -/
def End (j : Nat) (s : Lex S F) : Prop := s.cur = 0 ∧ m.Over j s.is

/-- Either. -/
def In (j : Nat) (s : Lex S F) : Prop := m.Live s ∨ m.End j s

/-- The count is within bounds. -/
def Low (s : Lex S F) : Prop := m.Bound s.is

/-- Before, after. -/
def Tr (P : Lex S F → Prop) (p : L S F α) (Q : α → Lex S F → Prop) : Prop :=
  ∀ s, P s → m.Low (p s).2 ∧ ∀ a, (p s).1 = .ok a → Q a (p s).2

variable {m}

theorem Live.low {s : Lex S F} (h : m.Live s) : m.Low s := m.alive_bound h

theorem In.mono {i j : Nat} (hij : i ≤ j) {s : Lex S F} (h : m.In i s) : m.In j s := by
  rcases h with h | ⟨h1, h2⟩
  · exact .inl h
  · exact .inr ⟨h1, m.over_mono hij h2⟩

theorem In.low {s : Lex S F} (h : m.In 2 s) : m.Low s := by
  rcases h with h | h
  · exact h.low
  · exact m.over_bound h.2

theorem In.live {j : Nat} {s : Lex S F} (h : m.In j s) (hc : s.cur ≠ 0) : m.Live s := by
  rcases h with h | h
  · exact h
  · exact absurd h.1 hc

theorem In.live_eof {j : Nat} {s : Lex S F} (h : m.In j s) (hc : C.src.eof s.is = false) : m.Live s := by
  rcases h with h | h
  · exact h
  · rw [m.over_eof h.2] at hc; cases hc

theorem Tr.weaken {P P' : Lex S F → Prop} {p : L S F α} {Q Q' : α → Lex S F → Prop} (h : m.Tr P p Q) (hP : ∀ s, P' s → P s)
    (hQ : ∀ a s, Q a s → Q' a s) : m.Tr P' p Q' := fun s hs => ⟨(h s (hP s hs)).1, fun a ha => hQ a _ ((h s (hP s hs)).2 a ha)⟩

theorem Tr.bind {P : Lex S F → Prop} {p : L S F α} {Q : α → Lex S F → Prop} {f : α → L S F β} {R : β → Lex S F → Prop} (h : m.Tr P p Q)
    (hf : ∀ a, m.Tr (Q a) (f a) R) : m.Tr P (p >>= f) R := by
  intro s hs
  have h1 := h s hs
  simp only [M.bind_def]
  rcases hm : p s with ⟨r, s'⟩
  rw [hm] at h1
  cases r with
  | error e => exact ⟨h1.1, fun a ha => by cases ha⟩
  | ok a => exact hf a s' (h1.2 a rfl)

theorem Tr.pure {P : Lex S F → Prop} {a : α} {Q : α → Lex S F → Prop} (hl : ∀ s, P s → m.Low s) (h : ∀ s, P s → Q a s) : m.Tr P (Pure.pure a) Q :=
  fun s hs => ⟨hl s hs, fun b hb => by cases hb; exact h s hs⟩

theorem Tr.stop {P : Lex S F → Prop} {e : Stop} {Q : α → Lex S F → Prop} (hl : ∀ s, P s → m.Low s) : m.Tr P (M.stop e) Q :=
  fun s hs => ⟨hl s hs, fun b hb => by cases hb⟩

theorem Tr.fail {P : Lex S F → Prop} {Q : α → Lex S F → Prop} (hl : ∀ s, P s → m.Low s) : m.Tr P (Lexer.fail (S := S) (F := F)) Q := Tr.stop hl

theorem Tr.ite {P : Lex S F → Prop} {c : Prop} [Decidable c] {p q : L S F α} {Q : α → Lex S F → Prop} (h1 : c → m.Tr P p Q) (h2 : ¬ c → m.Tr P q Q) :
    m.Tr P (if c then p else q) Q := by
  split
  · next h => exact h1 h
  · next h => exact h2 h

theorem Tr.cur {P : Lex S F → Prop} (hl : ∀ s, P s → m.Low s) : m.Tr P Lexer.cur fun a s => P s ∧ a = s.cur :=
  fun s hs => ⟨hl s hs, fun b hb => by cases hb; exact ⟨hs, rfl⟩⟩

theorem Tr.eof {P : Lex S F → Prop} (hl : ∀ s, P s → m.Low s) : m.Tr P (Lexer.eof C) fun a s => P s ∧ a = C.src.eof s.is :=
  fun s hs => ⟨hl s hs, fun b hb => by cases hb; exact ⟨hs, rfl⟩⟩

theorem Tr.modify {f : Lex S F → Lex S F} {P : Lex S F → Prop} (hl : ∀ s, P s → m.Low s) (hf : ∀ s, P s → P (f s)) : m.Tr P (M.modify f) fun _ s => P s :=
  fun s hs => ⟨hl _ (hf s hs), fun _ _ => hf s hs⟩

theorem Tr.assert {P : Lex S F → Prop} (hl : ∀ s, P s → m.Low s) (b : Bool) : m.Tr P (Lexer.assert C b) fun _ s => P s :=
  .ite (fun _ => .stop hl) fun _ => .pure hl fun _ h => h

/-- A read before the end. -/
theorem Tr.read : m.Tr m.Live (readNext C) fun a s => s.cur = a ∧ m.In 1 s := by
  intro s hs
  unfold readNext
  simp only
  cases hf : (C.src.decode s.is).1 with
  | true =>
    obtain ⟨h1, h2⟩ := m.more hs hf
    simp only [if_pos]
    cases hgd : C.src.good (C.src.decode s.is).2.2 with
    | true => exact ⟨h1, fun a ha => by cases ha; exact ⟨rfl, .inl (h2 hgd)⟩⟩
    | false => exact ⟨h1, fun a ha => by cases ha⟩
  | false =>
    have he := m.fin hs hf
    simp only [Bool.false_eq_true, if_false]
    exact ⟨m.over_bound (m.over_mono (by decide) he), fun a ha => by cases ha; exact ⟨rfl, .inr ⟨rfl, he⟩⟩⟩

/-- A read when the end has been read at most once. -/
theorem Tr.read_again : m.Tr (m.In 1) (readNext C) fun a s => s.cur = a ∧ m.In 2 s := by
  rintro s (h | ⟨_, h⟩)
  · exact ⟨(Tr.read s h).1, fun a ha => ⟨((Tr.read s h).2 a ha).1, ((Tr.read s h).2 a ha).2.mono (by decide)⟩⟩
  · obtain ⟨hf, he⟩ := m.stay h
    unfold readNext
    simp only [hf, Bool.false_eq_true, if_false]
    exact ⟨m.over_bound he, fun a ha => by cases ha; exact ⟨rfl, .inr ⟨rfl, he⟩⟩⟩

theorem low1 {P : Lex S F → Prop} (s : Lex S F) (h : P s ∧ m.In 1 s) : m.Low s := (h.2.mono (by decide)).low
theorem low2 {P : Lex S F → Prop} (s : Lex S F) (h : P s ∧ m.In 2 s) : m.Low s := h.2.low
theorem in1 (s : Lex S F) (h : m.In 1 s) : m.Low s := (h.mono (by decide)).low
theorem in2 (s : Lex S F) (h : m.In 2 s) : m.Low s := h.low
theorem inL (s : Lex S F) (h : m.Live s) : m.Low s := h.low

/-! ## The scanner -/

theorem isSpace_ne {c : Nat} (h : isSpace c = true) : c ≠ 0 := by
  rintro rfl; exact absurd h (by decide)

theorem isDigit_ne {c : Nat} (h : isDigit C c = true) : c ≠ 0 := by
  rintro rfl
  simp [isDigit, toChar] at h

theorem skipBlanks : ∀ n, m.Tr (m.In 2) (Lexer.skipBlanks C n) fun _ => m.In 2
  | 0 => .stop in2
  | n + 1 => by
    refine .bind (.cur in2) fun c => .ite (fun hc => ?_) fun _ => .pure (fun _ h => h.1.low) fun _ h => h.1
    refine .bind (Q := fun _ => m.In 2) (Tr.read.weaken (fun s h => h.1.live (h.2 ▸ isSpace_ne hc)) fun _ _ h => h.2.mono (by decide)) fun _ => skipBlanks n

theorem lineComment : ∀ n, m.Tr m.Live (Lexer.lineComment C n) fun _ => m.In 2
  | 0 => .stop inL
  | n + 1 => by
    refine .bind Tr.read fun c => .ite (fun _ => .pure low1 fun _ h => h.2.mono (by decide)) fun _ => ?_
    refine .bind (.eof low1) fun b => .ite (fun _ => .pure (fun _ h => in1 _ h.1.2) fun _ h => h.1.2.mono (by decide)) fun hb => ?_
    exact (lineComment n).weaken (fun s h => h.1.2.live_eof (by rw [← h.2]; simpa using hb)) fun _ _ h => h

theorem blockComment : ∀ n, m.Tr m.Live (Lexer.blockComment C n) fun _ => m.In 2
  | 0 => .stop inL
  | n + 1 => by
    have rest : ∀ P : Lex S F → Prop, m.Tr (fun s => P s ∧ m.In 1 s) (do if (← Lexer.eof C) then Lexer.fail else Lexer.blockComment C n) fun _ => m.In 2 := by
      intro P
      refine .bind (.eof low1) fun b => .ite (fun _ => .fail fun _ h => in1 _ h.1.2) fun hb => ?_
      exact (blockComment n).weaken (fun s h => h.1.2.live_eof (by rw [← h.2]; simpa using hb)) fun _ _ h => h
    refine .bind Tr.read fun c => .ite (fun hc => ?_) fun _ => rest _
    refine .bind (Tr.read.weaken (fun s h => h.2.live (by rw [h.1]; rintro rfl; exact absurd hc (by decide))) fun _ _ h => h) fun d => .ite (fun hd => ?_) fun _ => rest _
    refine .bind (Q := fun _ => m.In 2) (Tr.read.weaken (fun s h => h.2.live (by rw [h.1]; rintro rfl; exact absurd hd (by decide))) fun _ _ h => h.2.mono (by decide)) fun _ =>
      .pure in2 fun _ h => h

theorem skipSpaces : ∀ n, m.Tr (m.In 2) (Lexer.skipSpaces C n) fun _ => m.In 2
  | 0 => .stop in2
  | n + 1 => by
    refine .bind (skipBlanks _) fun _ => .bind (.cur in2) fun c => .ite (fun hc => ?_) fun _ => .pure (fun _ h => h.1.low) fun _ h => h.1
    refine .bind (Tr.read.weaken (fun s h => h.1.live (by rw [← h.2]; rintro rfl; exact absurd hc (by decide))) fun _ _ h => h) fun d => .ite (fun hd => ?_) fun _ =>
      .ite (fun hd => ?_) fun _ => .fail low1
    · refine .bind (Q := fun _ => m.In 2) ((lineComment _).weaken (fun s h => h.2.live (by rw [h.1]; rintro rfl; exact absurd hd (by decide))) fun _ _ h => h) fun b =>
        .ite (fun _ => skipSpaces n) fun _ => .pure in2 fun _ h => h
    · exact .bind (Q := fun _ => m.In 2) ((blockComment _).weaken (fun s h => h.2.live (by rw [h.1]; rintro rfl; exact absurd hd (by decide))) fun _ _ h => h) fun b => skipSpaces n

theorem scanLiteral (t : Token) : ∀ text : List Nat, (∀ c ∈ text, c ≠ 0) → m.Tr (m.In 2) (Lexer.scanLiteral C text t) fun a s => m.In 2 s ∧ a = t
  | [], _ => .pure in2 fun _ h => ⟨h, rfl⟩
  | ch :: text, hne => by
    refine .bind (.cur in2) fun c => .ite (fun _ => .fail fun _ h => h.1.low) fun hc => ?_
    refine .bind (Q := fun _ => m.In 2) (Tr.read.weaken (fun s h => h.1.live ?_) fun _ _ h => h.2.mono (by decide)) fun _ =>
      scanLiteral t text fun c hc => hne c (List.mem_cons_of_mem _ hc)
    rw [← h.2]
    rintro rfl
    apply hne ch List.mem_cons_self
    simpa [toChar] using hc

theorem hexVal_ne {c d : Nat} (h : hexVal c = some d) : c ≠ 0 := by
  rintro rfl
  simp [hexVal] at h

theorem readEscapedLoop : ∀ (fs : List Nat) (code : Nat), m.Tr m.Live (Lexer.readEscapedLoop C fs code) fun _ => m.Live
  | [], _ => .pure inL fun _ h => h
  | f :: fs, code => by
    refine .bind Tr.read fun ch => ?_
    cases e : hexVal ch with
    | none => exact .fail low1
    | some d => exact (readEscapedLoop fs _).weaken (fun s h => h.2.live (by rw [h.1]; exact hexVal_ne e)) fun _ _ h => h

theorem putCp (cp : Nat) : m.Tr m.Live (Lexer.putCp C cp) fun _ => m.Live :=
  .bind (.modify inL fun _ h => h) fun _ => .bind (Q := fun _ => m.Live) (fun _ hs => ⟨hs.low, fun _ _ => hs⟩) fun _ =>
    .ite (fun _ => .pure inL fun _ h => h) fun _ => .fail inL

theorem putAscii (c : Nat) : m.Tr m.Live (Lexer.putAscii (S := S) (F := F) c) fun _ => m.Live := .modify inL fun _ h => h

theorem scanUnicodeEscape : m.Tr m.Live (Lexer.scanUnicodeEscape C) fun _ => m.Live := by
  refine .bind (readEscapedLoop _ _) fun cp => .ite (fun _ => ?_) fun _ => putCp _
  refine .bind Tr.read fun a => .ite (fun _ => .fail low1) fun ha => ?_
  refine .bind (Tr.read.weaken (fun s h => h.2.live (by rw [h.1]; rintro rfl; exact absurd ha (by decide))) fun _ _ h => h) fun b => .ite (fun _ => .fail low1) fun hb => ?_
  refine .bind ((readEscapedLoop _ _).weaken (fun s h => h.2.live (by rw [h.1]; rintro rfl; exact absurd hb (by decide))) fun _ _ h => h) fun tr =>
    .ite (fun _ => .fail inL) fun _ => putCp _

theorem scanEscape : m.Tr m.Live (Lexer.scanEscape C) fun _ => m.Live := by
  have go : ∀ (c x : Nat) (p q : L S F Unit), x ≠ 0 → m.Tr m.Live p (fun _ => m.Live) → m.Tr (fun s => s.cur = c ∧ m.In 1 s) q (fun _ => m.Live) →
      m.Tr (fun s => s.cur = c ∧ m.In 1 s) (if c == x then p else q) fun _ => m.Live := by
    intro c x p q hx hp hq
    refine .ite (fun hc => hp.weaken (fun s h => h.2.live ?_) fun _ _ h => h) fun _ => hq
    rw [h.1, beq_iff_eq.1 hc]; exact hx
  refine .bind Tr.read fun c => ?_
  refine go _ _ _ _ (by decide) (putAscii _) ?_
  refine go _ _ _ _ (by decide) (putAscii _) ?_
  refine go _ _ _ _ (by decide) (putAscii _) ?_
  refine go _ _ _ _ (by decide) (putAscii _) ?_
  refine go _ _ _ _ (by decide) (putAscii _) ?_
  refine go _ _ _ _ (by decide) (putAscii _) ?_
  refine go _ _ _ _ (by decide) (putAscii _) ?_
  refine go _ _ _ _ (by decide) (putAscii _) ?_
  exact go _ _ _ _ (by decide) scanUnicodeEscape (.fail low1)

theorem stringLoop : ∀ n, m.Tr m.Live (Lexer.stringLoop C n) fun _ => m.In 2
  | 0 => .stop inL
  | n + 1 => by
    refine .bind Tr.read fun c => .bind (.eof low1) fun b => .ite (fun _ => .fail fun _ h => in1 _ h.1.2) fun hb => ?_
    have hl : ∀ s, ((s.cur = c ∧ m.In 1 s) ∧ b = C.src.eof s.is) → m.Live s := fun s h => h.1.2.live_eof (by rw [← h.2]; simpa using hb)
    refine .ite (fun _ => ?_) fun _ => .ite (fun _ => .fail fun _ h => in1 _ h.1.2) fun _ => .ite (fun _ => ?_) fun _ => ?_
    · exact .bind (Q := fun _ => m.In 2) (Tr.read.weaken hl fun _ _ h => h.2.mono (by decide)) fun _ => .pure in2 fun _ h => h
    · exact .bind (scanEscape.weaken hl fun _ _ h => h) fun _ => stringLoop n
    · exact .bind ((putCp _).weaken hl fun _ _ h => h) fun _ => stringLoop n

theorem scanString : m.Tr m.Live (Lexer.scanString C) fun _ => m.In 2 :=
  .bind (.modify inL fun _ h => h) fun _ => .bind (.cur inL) fun _ => .bind (.assert (fun _ h => h.1.low) _) fun _ =>
    (stringLoop _).weaken (fun _ h => h.1) fun _ _ h => h

theorem setF (f : F → F) {P : Lex S F → Prop} (hl : ∀ s, P s → m.Low s) (hP : ∀ s x, P s → P { s with numF := x }) :
    m.Tr P (Lexer.setF f) fun _ s => P s := .modify hl fun s h => hP s _ h

theorem exponentDigits : ∀ n e, m.Tr (m.In 1) (Lexer.exponentDigits C n e) fun _ => m.In 2
  | 0, _ => .stop in1
  | n + 1, e => .bind Tr.read_again fun _ => .ite
      (fun hc => (exponentDigits n _).weaken (fun _ h => .inl (h.2.live (by rw [h.1]; exact isDigit_ne hc))) fun _ _ h => h)
      fun _ => .pure low2 fun _ h => h.2

theorem exponentValue (b : Bool) : m.Tr (m.In 1) (Lexer.exponentValue C b) fun t s => m.In 2 s ∧ t ≠ .valueString :=
  .bind (.cur in1) fun _ => .bind ((exponentDigits _ _).weaken (fun _ h => h.1) fun _ _ h => h) fun _ => .bind (setF _ in2 fun _ _ h => h) fun _ =>
    .pure in2 fun _ h => ⟨h, by simp⟩

theorem scanExponent : m.Tr m.Live (Lexer.scanExponent C) fun t s => m.In 2 s ∧ t ≠ .valueString := by
  refine .bind (.cur inL) fun _ => .bind (.assert (fun _ h => h.1.low) _) fun _ => .bind (Tr.read.weaken (fun _ h => h.1) fun _ _ h => h) fun c =>
    .ite (fun _ => .fail low1) fun _ => .ite (fun hc => ?_) fun _ => (exponentValue _).weaken (fun _ h => h.2) fun _ _ h => h
  refine .bind (Tr.read.weaken (fun s h => h.2.live (by rw [h.1]; rintro rfl; exact absurd hc (by decide))) fun _ _ h => h) fun _ =>
    (exponentValue _).weaken (fun _ h => h.2) fun _ _ h => h

theorem fractionLoop : ∀ n x, m.Tr m.Live (Lexer.fractionLoop C n x) fun t s => m.In 2 s ∧ t ≠ .valueString
  | 0, _ => .stop inL
  | n + 1, x => by
    refine .bind Tr.read fun c => .ite (fun hc => ?_) fun _ => .ite (fun hc => ?_) fun _ => .pure low1 fun _ h => ⟨h.2.mono (by decide), by simp⟩
    · exact scanExponent.weaken (fun s h => h.2.live (by rw [h.1]; rintro rfl; exact absurd hc (by decide))) fun _ _ h => h
    · refine .bind (Q := fun _ => m.Live) ((setF _ inL fun _ _ h => h).weaken (fun s h => h.2.live (by rw [h.1]; exact isDigit_ne hc)) fun _ _ h => h) fun _ =>
        fractionLoop n _

theorem scanFloat : m.Tr m.Live (Lexer.scanFloat C) fun t s => m.In 2 s ∧ t ≠ .valueString := by
  refine .bind (.modify inL fun _ h => h) fun _ => .bind (.cur inL) fun _ => .ite (fun _ => scanExponent.weaken (fun _ h => h.1) fun _ _ h => h) fun _ => ?_
  refine .bind (.assert (fun _ h => h.1.low) _) fun _ => .bind (Tr.read.weaken (fun _ h => h.1) fun _ _ h => h) fun c => .ite (fun _ => .fail low1) fun hc => ?_
  refine .bind (Q := fun _ => m.Live) ((setF _ inL fun _ _ h => h).weaken (fun s h => h.2.live (by rw [h.1]; exact isDigit_ne (C := C) (by simpa using hc))) fun _ _ h => h) fun _ =>
    fractionLoop _ _

theorem integerLoop : ∀ n, m.Tr (m.In 1) (Lexer.integerLoop C n) fun t s => m.In 2 s ∧ t ≠ .valueString
  | 0 => .stop in1
  | n + 1 => by
    refine .bind Tr.read_again fun c => .ite (fun hc => ?_) fun _ => .ite (fun hc => ?_) fun _ => .pure low2 fun _ h => ⟨h.2, by simp⟩
    · exact scanFloat.weaken (fun s h => h.2.live (by rw [h.1]; rintro rfl; exact absurd hc (by decide))) fun _ _ h => h
    · refine .bind (Q := fun _ => m.Live) (fun s h => ⟨h.2.low, fun _ _ => h.2.live (by rw [h.1]; exact isDigit_ne hc)⟩) fun _ => .ite (fun _ => .stop inL) fun _ => ?_
      exact .bind (.modify inL fun _ h => h) fun _ => (integerLoop n).weaken (fun _ h => .inl h) fun _ _ h => h

theorem scanInteger : m.Tr (m.In 1) (Lexer.scanInteger C) fun t s => m.In 2 s ∧ t ≠ .valueString :=
  .bind (.cur in1) fun _ => .bind (.assert (fun _ h => in1 _ h.1) _) fun _ => .bind (Q := fun _ => m.In 1)
    (fun _ h => ⟨in1 _ h.1, fun _ _ => h.1⟩) fun _ => integerLoop _

theorem numberBody : m.Tr (m.In 1) (Lexer.numberBody C) fun t s => m.In 2 s ∧ t ≠ .valueString := by
  refine .bind (.cur in1) fun c => .ite (fun hc => ?_) fun _ => scanInteger.weaken (fun _ h => h.1) fun _ _ h => h
  refine .bind (Tr.read.weaken (fun s h => h.1.live (by rw [← h.2]; rintro rfl; exact absurd hc (by decide))) fun _ _ h => h) fun d => .ite (fun hd => ?_) fun _ =>
    .ite (fun _ => .fail low1) fun _ => .pure low1 fun _ h => ⟨h.2.mono (by decide), by simp⟩
  exact scanFloat.weaken (fun s h => h.2.live (by rw [h.1]; rintro rfl; exact absurd hd (by decide))) fun _ _ h => h

theorem scanNumber : m.Tr m.Live (Lexer.scanNumber C) fun t s => m.In 2 s ∧ t ≠ .valueString := by
  refine .bind (.modify inL fun _ h => h) fun _ => .bind (.cur inL) fun c => .ite (fun _ => ?_) fun _ => numberBody.weaken (fun _ h => .inl h.1) fun _ _ h => h
  refine .bind (Q := fun _ => m.Live) (fun _ h => ⟨h.1.low, fun _ _ => h.1⟩) fun _ => .bind (Q := fun _ => m.In 1) (Tr.read.weaken (fun _ h => h) fun _ _ h => h.2) fun _ => numberBody

theorem scan : m.Tr (m.In 2) (Lexer.scan C) fun t s => m.In 2 s ∧ (t = .valueString → m.Live s) := by
  refine .bind (skipSpaces _) fun _ => .bind (.eof in2) fun b => .ite (fun _ => .pure (fun _ h => h.1.low) fun _ h => ⟨h.1, by simp⟩) fun hb => ?_
  refine .bind (Q := fun a s => m.Live s ∧ a = s.cur) ((Tr.cur inL).weaken (fun s h => h.1.live_eof (by rw [← h.2]; simpa using hb)) fun _ _ h => h) fun c => ?_
  have one : ∀ t, t ≠ .valueString → m.Tr (fun s => m.Live s ∧ c = s.cur) (single C t) fun t s => m.In 2 s ∧ (t = .valueString → m.Live s) := fun t ht =>
    .bind (Q := fun _ => m.In 2) (Tr.read.weaken (fun _ h => h.1) fun _ _ h => h.2.mono (by decide)) fun _ => .pure in2 fun _ h => ⟨h, fun e => absurd e ht⟩
  have lit : ∀ t text, t ≠ .valueString → (∀ c ∈ text, c ≠ 0) → m.Tr (fun s => m.Live s ∧ c = s.cur) (Lexer.scanLiteral C text t) fun t s => m.In 2 s ∧ (t = .valueString → m.Live s) :=
    fun t text ht hne => (scanLiteral t text hne).weaken (fun _ h => .inl h.1) fun _ _ h => ⟨h.1, fun e => absurd (h.2 ▸ e) ht⟩
  refine .ite (fun _ => one _ (by simp)) fun _ => ?_
  refine .ite (fun _ => one _ (by simp)) fun _ => ?_
  refine .ite (fun _ => one _ (by simp)) fun _ => ?_
  refine .ite (fun _ => one _ (by simp)) fun _ => ?_
  refine .ite (fun _ => one _ (by simp)) fun _ => ?_
  refine .ite (fun _ => one _ (by simp)) fun _ => ?_
  refine .ite (fun _ => lit _ _ (by simp) (by simp)) fun _ => ?_
  refine .ite (fun _ => lit _ _ (by simp) (by simp)) fun _ => ?_
  refine .ite (fun _ => lit _ _ (by simp) (by simp)) fun _ => ?_
  refine .ite (fun _ => .pure (fun _ h => h.1.low) fun _ h => ⟨.inl h.1, fun _ => h.1⟩) fun _ => ?_
  refine .ite (fun _ => scanNumber.weaken (fun _ h => h.1) fun _ _ h => ⟨h.1, fun e => absurd e h.2⟩) fun _ => ?_
  exact .ite (fun _ => .pure (fun _ h => h.1.low) fun _ h => ⟨.inl h.1, by simp⟩) fun _ => .fail fun _ h => h.1.low

/-! ## The parser -/

/-- What is true after a function of the parser. -/
def Done (m : Meter C) (r : PRes S F) : Prop := m.Low r.2.1 ∧ (r.1 = .ok () → m.In 2 r.2.1)

theorem Tr.scan_at {s : Lex S F} (h : m.In 2 s) {r s'} (e : Lexer.scan C s = (r, s')) : m.Low s' ∧ ∀ t, r = .ok t → m.In 2 s' ∧ (t = .valueString → m.Live s') := by
  have := Meter.scan s h
  rw [e] at this
  exact this

theorem parser (n : Nat) :
    (∀ c tok s, m.In 2 s → (tok = some .valueString → m.Live s) → m.Done (doParse C n c tok s)) ∧
    (∀ xs s, m.In 2 s → m.Done (parseArray C n xs s)) ∧
    (∀ ms s, m.In 2 s → m.Done (parseObject C n ms s)) := by
  have bad : ∀ {s : Lex S F} {e : Stop} {v : Value F}, m.Low s → m.Done (.error e, s, v) := fun h => ⟨h, fun h => by cases h⟩
  have good : ∀ {s : Lex S F} {v : Value F}, m.In 2 s → m.Done (.ok (), s, v) := fun h => ⟨h.low, fun _ => h⟩
  induction n with
  | zero => exact ⟨fun c tok s h _ => bad h.low, fun xs s h => bad h.low, fun ms s h => bad h.low⟩
  | succ n ih =>
    obtain ⟨ih1, ih2, ih3⟩ := ih
    refine ⟨?_, ?_, ?_⟩
    · intro c tok s h ht
      have go : ∀ (t : Token) (s : Lex S F), m.In 2 s → (t = .valueString → m.Live s) → m.Done (match t with
          | .literalTrue => (.ok (), s, .bool true)
          | .literalFalse => (.ok (), s, .bool false)
          | .literalNull => (.ok (), s, .null)
          | .valueString => let r := Lexer.scanString C s; (r.1, r.2, .str r.2.out.out)
          | .valueInteger => (.ok (), s, .int (getInteger s))
          | .valueFloat => (.ok (), s, .flt (getFloat C s))
          | .beginArray => parseArray C n [] s
          | .beginObject => parseObject C n [] s
          | _ => (.error (.exn .deserialization), s, c)) := by
        intro t s h ht
        cases t <;> simp only <;> first
          | exact good h
          | exact bad h.low
          | exact ih2 _ _ h
          | exact ih3 _ _ h
          | skip
        have := scanString s (ht rfl)
        exact ⟨this.1, fun e => this.2 () e⟩
      unfold doParse
      cases tok with
      | some t => exact go t s h fun e => ht (by rw [e])
      | none =>
        simp only
        rcases e : Lexer.scan C s with ⟨r, s'⟩
        obtain ⟨h1, h2⟩ := Tr.scan_at h e
        cases r with
        | error e => exact bad h1
        | ok t => exact go t s' (h2 t rfl).1 (h2 t rfl).2
    · intro xs s h
      rw [parseArray]
      rcases e : Lexer.scan C s with ⟨r, s'⟩
      obtain ⟨h1, h2⟩ := Tr.scan_at h e
      cases r with
      | error e => exact bad h1
      | ok t =>
        obtain ⟨h3, h4⟩ := h2 t rfl
        simp only
        split
        · have h5 := ih1 .null (some t) s' h3 fun e => h4 (Option.some.inj e)
          rcases e' : doParse C n .null (some t) s' with ⟨r, s1, v⟩
          rw [e'] at h5
          cases r with
          | error e => exact bad h5.1
          | ok u =>
            simp only
            rcases e : Lexer.scan C s1 with ⟨r, s2⟩
            obtain ⟨h6, h7⟩ := Tr.scan_at (h5.2 rfl) e
            cases r with
            | error e => exact bad h6
            | ok t =>
              simp only
              split
              · exact ih2 _ _ (h7 t rfl).1
              · split
                · exact good (h7 t rfl).1
                · exact bad h6
        · split
          · exact good h3
          · exact bad h1
    · intro ms s h
      rw [parseObject]
      rcases e : Lexer.scan C s with ⟨r, s'⟩
      obtain ⟨h1, h2⟩ := Tr.scan_at h e
      cases r with
      | error e => exact bad h1
      | ok t =>
        obtain ⟨h3, h4⟩ := h2 t rfl
        simp only
        split
        · next ht =>
          have h5 := scanString s' (h4 ht)
          rcases e' : Lexer.scanString C s' with ⟨r, s1⟩
          rw [e'] at h5
          cases r with
          | error e => exact bad h5.1
          | ok u =>
            simp only
            rcases e : Lexer.scan C s1 with ⟨r, s2⟩
            obtain ⟨h6, h7⟩ := Tr.scan_at (h5.2 _ rfl) e
            cases r with
            | error e => exact bad h6
            | ok t =>
              simp only
              split
              · have h8 := ih1 .null none s2 (h7 t rfl).1 fun e => by cases e
                rcases e' : doParse C n .null none s2 with ⟨r, s3, v⟩
                rw [e'] at h8
                cases r with
                | error e => exact bad h8.1
                | ok u =>
                  simp only
                  rcases e : Lexer.scan C s3 with ⟨r, s4⟩
                  obtain ⟨h9, h10⟩ := Tr.scan_at (h8.2 rfl) e
                  cases r with
                  | error e => exact bad h9
                  | ok t =>
                    simp only
                    split
                    · exact ih3 _ _ (h10 t rfl).1
                    · split
                      · exact good (h10 t rfl).1
                      · exact bad h9
              · split
                · exact good (h7 t rfl).1
                · exact bad h6
        · split
          · exact good h3
          · exact bad h1

theorem parse (n : Nat) (h : Option Handler) (c : Value F) (s : Lex S F) (hs : m.Live s) : m.Low (Configor.parse C n h c s).2.1 := by
  unfold Configor.parse
  rcases e : readNext C s with ⟨r, s1⟩
  have h1 := Tr.read s hs
  rw [e] at h1
  cases r with
  | error e => exact h1.1
  | ok a =>
    have h2 : m.In 2 s1 := (h1.2 a rfl).2.mono (by decide)
    have h3 : m.Low (parseBody C n c s1).2.1 := by
      unfold parseBody
      have h3 := (parser (m := m) n).1 c none s1 h2 fun e => by cases e
      rcases e' : doParse C n c none s1 with ⟨r, s2, v⟩
      rw [e'] at h3
      cases r with
      | error e => exact h3.1
      | ok u =>
        simp only
        rcases e : Lexer.scan C s2 with ⟨r, s3⟩
        obtain ⟨h4, _⟩ := Tr.scan_at (h3.2 rfl) e
        cases r with
        | error e => exact h4
        | ok t =>
          simp only
          split <;> exact h4
    simp only [handled]
    rcases e' : parseBody C n c s1 with ⟨r, s2, v⟩
    rw [e'] at h3
    split
    · split <;> rename_i heq <;> first | (cases heq; exact h3) | (rename_i h' ; cases h'; exact h3)
    · exact h3

end Meter

/-! ## What is counted -/

/-- The state of a stream before its end, of which `l` is left. -/
def Ahead {σ : Type} (R : σ → List Int → Prop) (s : IStream σ) (l : List Int) : Prop := s = ⟨s.sb, false, false⟩ ∧ R s.sb l

/-- A read before the end. -/
theorem ahead {σ : Type} {B : SBuf σ} {R : σ → List Int → Prop} (V : View B R) (e : Enc) (w : Nat) {s : IStream σ} {l : List Int} (h : Ahead R s l) :
    ((e.decode w B s).1 = true → l ≠ [] ∧ ((e.decode w B s).2.2.good = true → ∃ rest, rest.length < l.length ∧ Ahead R (e.decode w B s).2.2 rest)) ∧
    ((e.decode w B s).1 = false → (e.decode w B s).2.2.eofb = true) := by
  have hf := e.follows w V
  obtain ⟨hs, h3⟩ := h
  rw [hs]
  cases l with
  | nil =>
    obtain ⟨h1, h2⟩ := hf.nil h3
    exact ⟨fun h => (by rw [h1] at h; cases h), fun _ => h2⟩
  | cons u us =>
    cases hst : e.step w (u :: us) with
    | none => exact absurd hst (hf.stepcons u us)
    | some p =>
      obtain ⟨o, rest⟩ := p
      cases o with
      | none =>
        obtain ⟨h1, h2⟩ := hf.bad h3 hst
        exact ⟨fun _ => ⟨by simp, fun h => (by rw [h2] at h; cases h)⟩, fun h => (by rw [h1] at h; cases h)⟩
      | some cp =>
        obtain ⟨s', e1, e2⟩ := hf.good h3 hst
        rw [e1]
        exact ⟨fun _ => ⟨by simp, fun _ => ⟨rest, e.shrinks w _ _ _ hst, rfl, e2⟩⟩, fun h => by cases h⟩

variable {σ : Type} {B : SBuf σ} {R : σ → List Int → Prop}

/-- The number of calls of the decoder. -/
def callMeter (V : View B R) (A : ParseArgs F) (n N : Nat) : Meter { A.cfg B n with src := countingCalls (A.cfg B n).src } where
  Alive s := ∃ l, Ahead R s.1 l ∧ s.2 + l.length ≤ N
  Over j s := s.1.eofb = true ∧ s.2 ≤ N + j
  Bound s := s.2 ≤ N + 2
  alive_bound := by rintro s ⟨l, _, h⟩; omega
  over_bound h := h.2
  over_mono hij h := ⟨h.1, by have := h.2; omega⟩
  over_eof h := h.1
  more := by
    rintro s ⟨l, h1, h2⟩ hd
    obtain ⟨h3, h4⟩ := (ahead V A.se A.sw h1).1 hd
    have : 1 ≤ l.length := List.length_pos_iff.2 h3
    refine ⟨by show s.2 + 1 ≤ _; omega, fun hg => ?_⟩
    obtain ⟨rest, h5, h6⟩ := h4 hg
    exact ⟨rest, h6, by show s.2 + 1 + _ ≤ _; omega⟩
  fin := by
    rintro s ⟨l, h1, h2⟩ hd
    exact ⟨(ahead V A.se A.sw h1).2 hd, by show s.2 + 1 ≤ _; omega⟩
  stay := by
    rintro s ⟨h1, h2⟩
    obtain ⟨h3, h4⟩ := (A.se.follows A.sw V).eof h1
    exact ⟨h3, h4, by show s.2 + 1 ≤ _; omega⟩

theorem asked_le (V : View B R) {b : σ} {l : List Int} (hb : R b l) (A : ParseArgs F) (n : Nat) (h : Option Handler) (c : Value F) :
    calls A B n h c b ≤ l.length + 2 :=
  Meter.parse (m := callMeter V A n l.length) n h c (Lex.init (.ofBuf b, 0) (A.fo.ofInt 0)) ⟨l, ⟨rfl, hb⟩, by show 0 + _ ≤ _; omega⟩

/-! ## What is taken -/

theorem counting_view (V : View B R) (K : Nat) : View (counting B) fun s l => R s.1 l ∧ s.2.2 + l.length = K where
  nil h := V.nil h.1
  cons := by
    rintro s u us ⟨h, hk⟩
    obtain ⟨h1, h2, h3, h4, h5⟩ := V.cons h
    exact ⟨h1, h2, ⟨h3, hk⟩, h4, h5, by simp only [List.length_cons] at hk; show s.2.2 + 1 + us.length = K; omega⟩
  calm h := V.calm h.1

/-- No more than one character is looked at in addition. -/
def Grows (s t : IStream (σ × Nat × Nat)) (p : Nat) : Prop := t.sb.2.1 ≤ s.sb.2.1 + p

/-- While the stream is good, what is taken and what is left make up the text; afterwards one more may have been taken. -/
def Taken (R : σ → List Int → Prop) (N : Nat) (s : IStream (σ × Nat × Nat)) : Prop :=
  s.sb.2.2 ≤ N + 1 ∧ (s.good = true → ∃ l, R s.sb.1 l ∧ s.sb.2.2 + l.length = N)

theorem Taken.fail {N : Nat} {s : IStream (σ × Nat × Nat)} (h : Taken R N s) : Taken R N s.setFail :=
  ⟨h.1, fun hg => by simp [IStream.good, IStream.setFail] at hg⟩

theorem Taken.get {V : View B R} {N : Nat} {s : IStream (σ × Nat × Nat)} (h : Taken R N s) :
    Grows s (s.get (counting B)).2 0 ∧ Taken R N (s.get (counting B)).2 := by
  unfold IStream.get
  split
  · next hg =>
    obtain ⟨l, hr, hl⟩ := h.2 hg
    have hc : (counting B).throws s.sb = false := V.calm hr
    rw [if_neg (by simp [hc])]
    dsimp only
    cases l with
    | nil =>
      have h1 : ((counting B).sbumpc s.sb).1 = -1 := (V.nil hr).2
      rw [if_pos h1]
      refine ⟨Nat.le_refl _, ?_, fun hg => by simp [IStream.good] at hg⟩
      simp only [List.length_nil] at hl
      show s.sb.2.2 + 1 ≤ N + 1
      omega
    | cons u us =>
      obtain ⟨h1, _, _, h2, h3⟩ := V.cons hr
      have h4 : ((counting B).sbumpc s.sb).1 ≠ -1 := by rw [show ((counting B).sbumpc s.sb).1 = u from h2]; exact h1
      rw [if_neg h4]
      simp only [List.length_cons] at hl
      refine ⟨Nat.le_refl _, ?_, fun _ => ⟨us, h3, ?_⟩⟩
      · show s.sb.2.2 + 1 ≤ N + 1
        omega
      · show s.sb.2.2 + 1 + us.length = N
        omega
  · exact ⟨Nat.le_refl _, h.fail⟩

theorem Taken.peek {V : View B R} {N : Nat} {s : IStream (σ × Nat × Nat)} (h : Taken R N s) :
    Grows s (s.peek (counting B)).2 1 ∧ Taken R N (s.peek (counting B)).2 := by
  unfold IStream.peek
  split
  · next hg =>
    obtain ⟨l, hr, hl⟩ := h.2 hg
    have hc : (counting B).throws s.sb = false := V.calm hr
    rw [if_neg (by simp [hc])]
    dsimp only
    refine ⟨Nat.le_refl _, h.1, fun hg' => ?_⟩
    cases l with
    | nil =>
      have h1 : ((counting B).sgetc s.sb).1 = -1 := (V.nil hr).1
      simp [IStream.good, h1] at hg'
    | cons u us => exact ⟨u :: us, (V.cons hr).2.2.1, hl⟩
  · exact ⟨Nat.le_succ _, h.fail⟩

theorem Taken.utf8Read {V : View B R} {N : Nat} : ∀ (n cp : Nat) {s : IStream (σ × Nat × Nat)}, Taken R N s →
    Grows s (utf8Read (counting B) n cp s).2 0 ∧ Taken R N (utf8Read (counting B) n cp s).2
  | 0, _, _, h => h.get (V := V)
  | n + 1, cp, s, h => by
    simp only [Configor.utf8Read]
    have h1 := h.get (V := V)
    have h2 := Taken.utf8Read (V := V) n (u32 (u32 (cp + castU 8 (s.get (counting B)).1) <<< 6)) h1.2
    exact ⟨Nat.le_trans h2.1 h1.1, h2.2⟩

theorem Taken.decode {V : View B R} {N : Nat} (e : Enc) (w : Nat) {s : IStream (σ × Nat × Nat)} (h : Taken R N s) :
    Grows s (e.decode w (counting B) s).2.2 1 ∧ Taken R N (e.decode w (counting B) s).2.2 := by
  have g := h.get (V := V)
  have g' := g.2.get (V := V)
  have k : Grows s (s.get (counting B)).2 1 := Nat.le_trans g.1 (Nat.le_succ _)
  have k' : Grows s ((s.get (counting B)).2.get (counting B)).2 1 := Nat.le_trans g'.1 k
  cases e with
  | ignore =>
    simp only [Enc.decode, ignoreDecode]
    repeat' split
    all_goals first | exact ⟨k, g.2⟩ | exact ⟨k, g.2.fail⟩
  | utf8 =>
    have p := h.peek (V := V)
    simp only [Enc.decode, utf8Decode]
    split
    · exact p
    · have r := Taken.utf8Read (V := V) (utf8ExtraTable.getD (castU 8 (s.peek (counting B)).1) 0) 0 p.2
      have kr := Nat.le_trans r.1 p.1
      simp only
      split
      · exact ⟨kr, r.2.fail⟩
      · exact ⟨kr, r.2⟩
  | utf16 =>
    simp only [Enc.decode, utf16Decode]
    repeat' split
    all_goals first | exact ⟨k, g.2⟩ | exact ⟨k, g.2.fail⟩ | exact ⟨k', g'.2⟩ | exact ⟨k', g'.2.fail⟩
  | utf32 =>
    simp only [Enc.decode, utf32Decode]
    repeat' split
    all_goals first | exact ⟨k, g.2⟩ | exact ⟨k, g.2.fail⟩

theorem decode_over (B : SBuf σ) (e : Enc) (w : Nat) (s : IStream σ) (h : s.eofb = true) : (e.decode w B s).2.2.sb = s.sb := by
  have hg : s.good = false := notgood_of_eof h
  have g : s.get B = (-1, { s with failb := true }) := by simp [IStream.get, hg]
  have p : s.peek B = (-1, { s with failb := true }) := by simp [IStream.peek, hg]
  cases e
  · simp only [Enc.decode, ignoreDecode, g, h] <;> rfl
  · simp only [Enc.decode, utf8Decode, p, h]; rfl
  · simp only [Enc.decode, utf16Decode, g, h]; rfl
  · simp only [Enc.decode, utf32Decode, g, h]; rfl

/-- The numbers of characters looked at and taken. -/
def takeMeter (V : View B R) (A : ParseArgs F) (n N : Nat) : Meter (A.cfg (counting B) n) where
  Alive s := ∃ l, Ahead (fun s l => R s.1 l ∧ s.2.2 + l.length = N) s l ∧ s.sb.2.1 + l.length ≤ N
  Over _ s := s.eofb = true ∧ s.sb.2.1 ≤ N + 1 ∧ s.sb.2.2 ≤ N + 1
  Bound s := s.sb.2.1 ≤ N + 1 ∧ s.sb.2.2 ≤ N + 1
  alive_bound := by rintro s ⟨l, ⟨_, _, h'⟩, h⟩; omega
  over_bound h := h.2
  over_mono _ h := h
  over_eof h := h.1
  more := by
    rintro s ⟨l, h1, h2⟩ hd
    obtain ⟨h3, h4⟩ := (ahead (counting_view V N) A.se A.sw h1).1 hd
    have h5 : 1 ≤ l.length := List.length_pos_iff.2 h3
    have h6 := h1.2.2
    obtain ⟨g1, g2, _⟩ := Taken.decode (V := V) A.se A.sw (N := N) (s := s) ⟨by omega, fun _ => ⟨l, h1.2⟩⟩
    refine ⟨⟨Nat.le_trans g1 (by omega), g2⟩, fun hg => ?_⟩
    obtain ⟨rest, h7, h8⟩ := h4 hg
    exact ⟨rest, h8, Nat.le_trans (Nat.add_le_add_right g1 _) (by omega)⟩
  fin := by
    rintro s ⟨l, h1, h2⟩ hd
    have h6 := h1.2.2
    obtain ⟨g1, g2, _⟩ := Taken.decode (V := V) A.se A.sw (N := N) (s := s) ⟨by omega, fun _ => ⟨l, h1.2⟩⟩
    exact ⟨(ahead (counting_view V N) A.se A.sw h1).2 hd, Nat.le_trans g1 (by omega), g2⟩
  stay := by
    rintro s ⟨h1, h2⟩
    obtain ⟨h3, h4⟩ := (A.se.follows A.sw (counting_view V N)).eof h1
    refine ⟨h3, h4, ?_⟩
    have := decode_over (counting B) A.se A.sw s h1
    simp only [ParseArgs.cfg, istreamSrc, this]
    exact h2

theorem accesses_le (V : View B R) {b : σ} {l : List Int} (hb : R b l) (A : ParseArgs F) (n : Nat) (h : Option Handler) (c : Value F) :
    (accesses A B n h c b).1 ≤ l.length + 1 ∧ (accesses A B n h c b).2 ≤ l.length + 1 :=
  Meter.parse (m := takeMeter V A n l.length) n h c (Lex.init (.ofBuf (b, 0, 0)) (A.fo.ofInt 0))
    ⟨l, ⟨rfl, hb, Nat.zero_add _⟩, Nat.le_of_eq (Nat.zero_add _)⟩

end Configor
