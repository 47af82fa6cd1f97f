import Verif.Model.ParseHeap
import Verif.Proofs.LexRun
/-!
# The scanner does not look at the string it has read
-/
namespace Configor
open Lexer

variable {S F α β : Type} {C : Cfg S F}

/-- What is read last does not matter for `m`, and `m` leaves it as it is. -/
def Blind (m : L S F α) : Prop := ∀ s o, m { s with out := o } = ((m s).1, { (m s).2 with out := o })

namespace Blind

theorem pure (a : α) : Blind (S := S) (F := F) (Pure.pure a) := fun _ _ => rfl

theorem stop (e : Stop) : Blind (S := S) (F := F) (α := α) (M.stop e) := fun _ _ => rfl

theorem throw (e : Err) : Blind (S := S) (F := F) (α := α) (M.throw e) := fun _ _ => rfl

theorem fail : Blind (S := S) (F := F) (α := α) Lexer.fail := fun _ _ => rfl

theorem bind {m : L S F α} {f : α → L S F β} (hm : Blind m) (hf : ∀ a, Blind (f a)) : Blind (m >>= f) := by
  intro s o
  have h := hm s o
  cases e : m s with
  | mk r s' =>
    rw [e] at h
    cases r with
    | ok a => rw [M.bind_ok e, M.bind_ok h]; exact hf a s' o
    | error x => rw [M.bind_error e, M.bind_error h]

theorem ite {c : Prop} [Decidable c] {m k : L S F α} (hm : Blind m) (hk : Blind k) : Blind (if c then m else k) := by
  split <;> assumption

theorem gets {g : Lex S F → α} (h : ∀ s o, g { s with out := o } = g s) : Blind (M.gets g) := fun s o => by
  simp only [M.gets]; rw [h]

theorem modify {g : Lex S F → Lex S F} (h : ∀ s o, g { s with out := o } = { g s with out := o }) : Blind (M.modify g) := fun s o => by
  simp only [M.modify]; rw [h]

theorem cur : Blind (S := S) (F := F) Lexer.cur := gets fun _ _ => rfl

theorem eof : Blind (Lexer.eof C) := gets fun _ _ => rfl

theorem readNext : Blind (Lexer.readNext C) := fun s o => by
  simp only [Lexer.readNext]
  split
  · split <;> rfl
  · rfl

theorem assert (b : Bool) : Blind (Lexer.assert C b) := by
  unfold Lexer.assert; exact ite (stop _) (pure _)

theorem skipBlanks (n : Nat) : Blind (Lexer.skipBlanks C n) := by
  induction n with
  | zero => exact stop _
  | succ n ih =>
    unfold Lexer.skipBlanks
    exact bind cur fun _ => ite (bind readNext fun _ => ih) (pure _)

theorem lineComment (n : Nat) : Blind (Lexer.lineComment C n) := by
  induction n with
  | zero => exact stop _
  | succ n ih =>
    unfold Lexer.lineComment
    exact bind readNext fun _ => ite (pure _) (bind eof fun _ => ite (pure _) ih)

theorem blockComment (n : Nat) : Blind (Lexer.blockComment C n) := by
  induction n with
  | zero => exact stop _
  | succ n ih =>
    unfold Lexer.blockComment
    exact bind readNext fun _ => ite (bind readNext fun _ => ite (bind readNext fun _ => pure _)
      (bind eof fun _ => ite fail ih)) (bind eof fun _ => ite fail ih)

theorem skipSpaces (n : Nat) : Blind (Lexer.skipSpaces C n) := by
  induction n with
  | zero => exact stop _
  | succ n ih =>
    unfold Lexer.skipSpaces
    exact bind (skipBlanks _) fun _ => bind cur fun _ => ite (bind readNext fun _ =>
      ite (bind (lineComment _) fun _ => ite ih (pure _)) (ite (bind (blockComment _) fun _ => ih) fail)) (pure _)

theorem scanLiteral (t : Token) (l : List Nat) : Blind (Lexer.scanLiteral C l t) := by
  induction l with
  | nil => exact pure _
  | cons c l ih =>
    unfold Lexer.scanLiteral
    exact bind cur fun _ => ite fail (bind readNext fun _ => ih)

theorem setF (f : F → F) : Blind (S := S) (Lexer.setF f) := modify fun _ _ => rfl

theorem exponentDigits (n : Nat) (e : Nat) : Blind (Lexer.exponentDigits C n e) := by
  induction n generalizing e with
  | zero => exact stop _
  | succ n ih =>
    unfold Lexer.exponentDigits
    exact bind readNext fun _ => ite (ih _) (pure _)

theorem exponentValue (b : Bool) : Blind (Lexer.exponentValue C b) := by
  unfold Lexer.exponentValue
  exact bind cur fun _ => bind (exponentDigits _ _) fun _ => bind (setF _) fun _ => pure _

theorem scanExponent : Blind (Lexer.scanExponent C) := by
  unfold Lexer.scanExponent
  exact bind cur fun _ => bind (assert _) fun _ => bind readNext fun _ => ite fail
    (ite (bind readNext fun _ => exponentValue _) (exponentValue _))

theorem fractionLoop (n : Nat) (f : F) : Blind (Lexer.fractionLoop C n f) := by
  induction n generalizing f with
  | zero => exact stop _
  | succ n ih =>
    unfold Lexer.fractionLoop
    exact bind readNext fun _ => ite scanExponent (ite (bind (setF _) fun _ => ih _) (pure _))

theorem scanFloat : Blind (Lexer.scanFloat C) := by
  unfold Lexer.scanFloat
  exact bind (modify fun _ _ => rfl) fun _ => bind cur fun _ => ite scanExponent (bind (assert _) fun _ =>
    bind readNext fun _ => ite fail (bind (setF _) fun _ => fractionLoop _ _))

theorem integerLoop (n : Nat) : Blind (Lexer.integerLoop C n) := by
  induction n with
  | zero => exact stop _
  | succ n ih =>
    unfold Lexer.integerLoop
    exact bind readNext fun _ => ite scanFloat (ite (bind (gets fun _ _ => rfl) fun _ => ite (stop _)
      (bind (modify fun _ _ => rfl) fun _ => ih)) (pure _))

theorem scanInteger : Blind (Lexer.scanInteger C) := by
  unfold Lexer.scanInteger
  exact bind cur fun _ => bind (assert _) fun _ => bind (modify fun _ _ => rfl) fun _ => integerLoop _

theorem numberBody : Blind (Lexer.numberBody C) := by
  unfold Lexer.numberBody
  exact bind cur fun _ => ite (bind readNext fun _ => ite scanFloat (ite fail (pure _))) scanInteger

theorem scanNumber : Blind (Lexer.scanNumber C) := by
  unfold Lexer.scanNumber
  exact bind (modify fun _ _ => rfl) fun _ => bind cur fun _ => ite (bind (modify fun _ _ => rfl) fun _ => bind readNext fun _ => numberBody)
    numberBody

theorem single (t : Token) : Blind (Lexer.single C t) := by
  unfold Lexer.single
  exact bind readNext fun _ => pure _

theorem scan : Blind (Lexer.scan C) := by
  unfold Lexer.scan
  exact bind (skipSpaces _) fun _ => bind eof fun _ => ite (pure _) (bind cur fun _ =>
    ite (single _) <| ite (single _) <| ite (single _) <| ite (single _) <| ite (single _) <| ite (single _) <|
    ite (scanLiteral _ _) <| ite (scanLiteral _ _) <| ite (scanLiteral _ _) <| ite (pure _) <| ite scanNumber <| ite (pure _) fail)

theorem readEscapedLoop (l : List Nat) (c : Nat) : Blind (Lexer.readEscapedLoop C l c) := by
  induction l generalizing c with
  | nil => exact pure _
  | cons f l ih =>
    unfold Lexer.readEscapedLoop
    refine bind readNext fun ch => ?_
    cases hexVal ch with
    | none => exact fail
    | some d => exact ih _

theorem readEscaped : Blind (Lexer.readEscaped C) := readEscapedLoop _ _

end Blind

/-! ## Strings with limited room -/

/-- The scanners differ at most in the string read last. -/
def Like (s t : Lex S F) : Prop := ∃ o, s = { t with out := o }

theorem Like.refl (s : Lex S F) : Like s s := ⟨s.out, rfl⟩

theorem Blind.like {m : L S F α} (hm : Blind m) {s t : Lex S F} (h : Like s t) : (m s).1 = (m t).1 ∧ Like (m s).2 (m t).2 := by
  obtain ⟨o, rfl⟩ := h
  rw [hm t o]
  exact ⟨rfl, o, rfl⟩

/-- With limited room: the same strings so far, or the stream behind the limited one has failed. -/
def Short (s t : Lex S F) : Prop := Like s t ∧ (s.out = t.out ∨ s.out.failb = true)

/-- With limited room: an error, or the same except for the string. -/
def ShortRes (r q : Except Stop α × Lex S F) : Prop :=
  r.1 = .error (.exn .deserialization) ∨ (r.1 = q.1 ∧ Short r.2 q.2)

/-- Scanning with limited room and without. -/
def ShortSim (m k : L S F α) : Prop := ∀ s t, Short s t → ShortRes (m s) (k t)

theorem ShortSim.bind {m m' : L S F α} {f f' : α → L S F β} (hm : ShortSim m m') (hf : ∀ a, ShortSim (f a) (f' a)) :
    ShortSim (m >>= f) (m' >>= f') := by
  intro s t h
  rcases hm s t h with h1 | ⟨h1, h2⟩
  · cases e : m s with
    | mk r s' =>
      rw [e] at h1
      simp only at h1
      subst h1
      rw [M.bind_error e]
      exact .inl rfl
  · cases e : m s with
    | mk r s' =>
      cases e' : m' t with
      | mk r' t' =>
        rw [e, e'] at h1 h2
        simp only at h1 h2
        subst h1
        cases r with
        | ok a => rw [M.bind_ok e, M.bind_ok e']; exact hf a _ _ h2
        | error x => rw [M.bind_error e, M.bind_error e']; exact .inr ⟨rfl, h2⟩

theorem ShortSim.ite {c : Prop} [Decidable c] {m k m' k' : L S F α} (hm : ShortSim m m') (hk : ShortSim k k') :
    ShortSim (if c then m else k) (if c then m' else k') := by
  split <;> assumption

theorem Blind.short {m : L S F α} (hm : Blind m) : ShortSim m m := by
  intro s t h
  obtain ⟨⟨o, rfl⟩, h2⟩ := h
  rw [hm t o]
  refine .inr ⟨rfl, ⟨o, rfl⟩, ?_⟩
  have ht := hm t t.out
  rcases h2 with h2 | h2
  · left
    simp only at h2 ⊢
    rw [h2]
    have : ({ t with out := t.out } : Lex S F) = t := rfl
    rw [this] at ht
    have := congrArg (fun z => z.2.out) ht
    exact this.symm
  · right; exact h2

theorem within_failb {room : Option Nat} {o : OStream} (h : o.failb = true) : (o.within room).failb = true := by
  cases room with
  | none => exact h
  | some k => simp only [OStream.within]; split
              · exact h
              · rfl

theorem within_cases (room : Option Nat) (o : OStream) : o.within room = o ∨ (o.within room).failb = true := by
  cases room with
  | none => exact .inl rfl
  | some k => simp only [OStream.within]; split
              · exact .inl rfl
              · exact .inr rfl

theorem ShortSim.putCp (hs : Sticky C.enc) (room : Option Nat) (cp : Nat) : ShortSim (putCpIn C room cp) (Lexer.putCp C cp) := by
  intro s t h
  obtain ⟨⟨o, rfl⟩, h2⟩ := h
  simp only at h2
  have key : (C.enc o cp).within room = C.enc t.out cp ∨ ((C.enc o cp).within room).failb = true := by
    rcases h2 with rfl | h2
    · exact within_cases _ _
    · exact .inr (within_failb (hs _ _ h2))
  by_cases hg : ((C.enc o cp).within room).failb = true
  · left
    simp [putCpIn, M.modify, M.bind_def, M.gets, OStream.good, hg, Lexer.fail, M.throw, M.stop]
  · have e : (C.enc o cp).within room = C.enc t.out cp := by
      rcases key with k | k
      · exact k
      · exact absurd k hg
    simp only [Bool.not_eq_true] at hg
    have hg' : (C.enc t.out cp).failb = false := e ▸ hg
    right
    simp [putCpIn, Lexer.putCp, M.modify, M.bind_def, M.gets, OStream.good, hg, hg', M.pure_def]
    exact ⟨⟨_, rfl⟩, .inl e⟩

theorem ShortSim.putAscii (room : Option Nat) (c : Nat) : ShortSim (S := S) (F := F) (putAsciiIn room c) (Lexer.putAscii c) := by
  intro s t h
  obtain ⟨⟨o, rfl⟩, h2⟩ := h
  simp only at h2
  refine .inr ⟨rfl, ⟨_, rfl⟩, ?_⟩
  simp only [putAsciiIn, Lexer.putAscii, M.modify]
  rcases h2 with rfl | h2
  · exact within_cases _ _
  · exact .inr (within_failb (by rw [OStream.put_failb]; exact h2))

theorem ShortSim.stringLoop (hs : Sticky C.enc) (room : Option Nat) (n : Nat) :
    ShortSim (stringLoopIn C room n) (Lexer.stringLoop C n) := by
  induction n with
  | zero => exact (Blind.stop _).short
  | succ n ih =>
    unfold stringLoopIn Lexer.stringLoop
    have hu : ShortSim (scanUnicodeEscapeIn C room) (scanUnicodeEscape C) := by
      unfold scanUnicodeEscapeIn scanUnicodeEscape
      exact .bind Blind.readEscaped.short fun cp => .ite (.bind Blind.readNext.short fun a => .ite Blind.fail.short <|
        .bind Blind.readNext.short fun b => .ite Blind.fail.short <| .bind Blind.readEscaped.short fun tr => .ite Blind.fail.short <|
        .putCp hs _ _) (.putCp hs _ _)
    have he : ShortSim (scanEscapeIn C room) (scanEscape C) := by
      unfold scanEscapeIn scanEscape
      exact .bind Blind.readNext.short fun c => .ite (.putAscii _ _) <| .ite (.putAscii _ _) <| .ite (.putAscii _ _) <|
        .ite (.putAscii _ _) <| .ite (.putAscii _ _) <| .ite (.putAscii _ _) <| .ite (.putAscii _ _) <| .ite (.putAscii _ _) <|
        .ite hu Blind.fail.short
    exact .bind Blind.readNext.short fun c => .bind Blind.eof.short fun b => .ite Blind.fail.short <|
      .ite (.bind Blind.readNext.short fun _ => (Blind.pure _).short) <| .ite Blind.fail.short <|
      .ite (.bind he fun _ => ih) (.bind (.putCp hs _ _) fun _ => ih)

/-- `scan_string` does not depend on what was read before. -/
theorem scanString_out (s : Lex S F) (o : OStream) : scanString C { s with out := o } = scanString C s := rfl

theorem scanStringIn_out (room : Option Nat) (s : Lex S F) (o : OStream) : scanStringIn C room { s with out := o } = scanStringIn C room s := rfl

theorem scanStringIn_short (hs : Sticky C.enc) (room : Option Nat) (s : Lex S F) : ShortRes (scanStringIn C room s) (scanString C s) := by
  unfold scanStringIn scanString
  have h1 : ShortSim (S := S) (F := F) (M.modify fun s => { s with out := .ofString [] }) (M.modify fun s => { s with out := .ofString [] }) := by
    rintro s t ⟨⟨o, rfl⟩, _⟩
    exact .inr ⟨rfl, .refl _, .inl rfl⟩
  exact ShortSim.bind h1 (fun _ => .bind Blind.cur.short fun _ => .bind (Blind.assert _).short fun _ => .stringLoop hs _ _) s s
    ⟨.refl _, .inl rfl⟩

/-- Enough room makes no difference. -/
theorem scanStringIn_none : scanStringIn C none = scanString C := by
  have hl : ∀ n, stringLoopIn C none n = stringLoop C n := by
    intro n
    induction n with
    | zero => rfl
    | succ n ih => unfold stringLoopIn stringLoop; rw [ih]; rfl
  unfold scanStringIn scanString
  rw [hl]

end Configor
