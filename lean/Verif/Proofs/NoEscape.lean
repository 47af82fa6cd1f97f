import Verif.Proofs.ParseHeap
import Verif.Proofs.Document
/-!
# Texts without backslashes
-/
namespace Configor
open Lexer

variable {S F α β : Type} {C : Cfg S F} {J : S → Prop}

/-- As long as reading goes well the source delivers no backslash. -/
structure Silent (src : Src S) (J : S → Prop) : Prop where
  next : ∀ s, J s → (src.decode s).1 = true → src.good (src.decode s).2.2 = true → (src.decode s).2.1 ≠ 0x5C ∧ J (src.decode s).2.2
  fin : ∀ s, J s → (src.decode s).1 = false → J (src.decode s).2.2

/-- What holds of the stream holds after `m` has ended well. -/
def LexInv (J : S → Prop) (m : L S F α) : Prop := ∀ s a s', J s.is → m s = (.ok a, s') → J s'.is

namespace LexInv

theorem pure (a : α) : LexInv (F := F) J (Pure.pure a) := by
  intro s b s' h e
  simp only [M.pure_def, Prod.mk.injEq] at e
  rw [← e.2]; exact h

theorem stop (x : Stop) : LexInv (F := F) (α := α) J (M.stop x) := by
  intro s b s' h e
  simp [M.stop] at e

theorem fail : LexInv (F := F) (α := α) J Lexer.fail := by
  intro s b s' h e
  simp [Lexer.fail, M.throw, M.stop] at e

theorem bind {m : L S F α} {f : α → L S F β} (hm : LexInv J m) (hf : ∀ a, LexInv J (f a)) : LexInv J (m >>= f) := by
  intro s b s' h e
  rcases e1 : m s with ⟨x | a, s1⟩
  · rw [M.bind_error e1] at e; simp at e
  · rw [M.bind_ok e1] at e
    exact hf a _ _ _ (hm _ _ _ h e1) e

theorem ite {c : Prop} [Decidable c] {m k : L S F α} (hm : LexInv J m) (hk : LexInv J k) : LexInv J (if c then m else k) := by
  split <;> assumption

theorem gets {g : Lex S F → α} : LexInv J (M.gets g) := by
  intro s b s' h e
  simp only [M.gets, Prod.mk.injEq] at e
  rw [← e.2]; exact h

theorem modify {g : Lex S F → Lex S F} (hg : ∀ s, (g s).is = s.is) : LexInv J (M.modify g) := by
  intro s b s' h e
  simp only [M.modify, Prod.mk.injEq] at e
  rw [← e.2, hg]; exact h

theorem cur : LexInv (F := F) J Lexer.cur := gets

theorem eof : LexInv J (Lexer.eof C) := gets

theorem assert (b : Bool) : LexInv J (Lexer.assert C b) := by
  unfold Lexer.assert; exact ite (stop _) (pure _)

variable (hS : Silent C.src J)
include hS

theorem readNext : LexInv J (Lexer.readNext C) := by
  intro s a s' h e
  simp only [Lexer.readNext] at e
  split at e
  · next hf =>
    split at e
    · next hg => simp only [Prod.mk.injEq] at e; rw [← e.2]; exact (hS.next _ h hf hg).2
    · simp at e
  · next hf => simp only [Prod.mk.injEq] at e; rw [← e.2]; exact hS.fin _ h (by simpa using hf)

theorem skipBlanks (n : Nat) : LexInv J (Lexer.skipBlanks C n) := by
  induction n with
  | zero => exact stop _
  | succ n ih =>
    unfold Lexer.skipBlanks
    exact bind cur fun _ => ite (bind (readNext hS) fun _ => ih) (pure _)

theorem lineComment (n : Nat) : LexInv J (Lexer.lineComment C n) := by
  induction n with
  | zero => exact stop _
  | succ n ih =>
    unfold Lexer.lineComment
    exact bind (readNext hS) fun _ => ite (pure _) (bind eof fun _ => ite (pure _) ih)

theorem blockComment (n : Nat) : LexInv J (Lexer.blockComment C n) := by
  induction n with
  | zero => exact stop _
  | succ n ih =>
    unfold Lexer.blockComment
    exact bind (readNext hS) fun _ => ite (bind (readNext hS) fun _ => ite (bind (readNext hS) fun _ => pure _)
      (bind eof fun _ => ite fail ih)) (bind eof fun _ => ite fail ih)

theorem skipSpaces (n : Nat) : LexInv J (Lexer.skipSpaces C n) := by
  induction n with
  | zero => exact stop _
  | succ n ih =>
    unfold Lexer.skipSpaces
    exact bind (skipBlanks hS _) fun _ => bind cur fun _ => ite (bind (readNext hS) fun _ =>
      ite (bind (lineComment hS _) fun _ => ite ih (pure _)) (ite (bind (blockComment hS _) fun _ => ih) fail)) (pure _)

theorem scanLiteral (t : Token) (l : List Nat) : LexInv J (Lexer.scanLiteral C l t) := by
  induction l with
  | nil => exact pure _
  | cons c l ih =>
    unfold Lexer.scanLiteral
    exact bind cur fun _ => ite fail (bind (readNext hS) fun _ => ih)

omit hS in
theorem setF (f : F → F) : LexInv J (Lexer.setF (S := S) f) := modify fun _ => rfl

theorem exponentDigits (n : Nat) (e : Nat) : LexInv J (Lexer.exponentDigits C n e) := by
  induction n generalizing e with
  | zero => exact stop _
  | succ n ih =>
    unfold Lexer.exponentDigits
    exact bind (readNext hS) fun _ => ite (ih _) (pure _)

theorem exponentValue (b : Bool) : LexInv J (Lexer.exponentValue C b) := by
  unfold Lexer.exponentValue
  exact bind cur fun _ => bind (exponentDigits hS _ _) fun _ => bind (setF _) fun _ => pure _

theorem scanExponent : LexInv J (Lexer.scanExponent C) := by
  unfold Lexer.scanExponent
  exact bind cur fun _ => bind (assert _) fun _ => bind (readNext hS) fun _ => ite fail
    (ite (bind (readNext hS) fun _ => (exponentValue hS) _) (exponentValue hS _))

theorem fractionLoop (n : Nat) (f : F) : LexInv J (Lexer.fractionLoop C n f) := by
  induction n generalizing f with
  | zero => exact stop _
  | succ n ih =>
    unfold Lexer.fractionLoop
    exact bind (readNext hS) fun _ => ite (scanExponent hS) (ite (bind (setF _) fun _ => ih _) (pure _))

theorem scanFloat : LexInv J (Lexer.scanFloat C) := by
  unfold Lexer.scanFloat
  exact bind (modify fun _ => rfl) fun _ => bind cur fun _ => ite (scanExponent hS) (bind (assert _) fun _ =>
    bind (readNext hS) fun _ => ite fail (bind (setF _) fun _ => (fractionLoop hS) _ _))

theorem integerLoop (n : Nat) : LexInv J (Lexer.integerLoop C n) := by
  induction n with
  | zero => exact stop _
  | succ n ih =>
    unfold Lexer.integerLoop
    exact bind (readNext hS) fun _ => ite (scanFloat hS) (ite (bind (gets) fun _ => ite (stop _)
      (bind (modify fun _ => rfl) fun _ => ih)) (pure _))

theorem scanInteger : LexInv J (Lexer.scanInteger C) := by
  unfold Lexer.scanInteger
  exact bind cur fun _ => bind (assert _) fun _ => bind (modify fun _ => rfl) fun _ => (integerLoop hS) _

theorem numberBody : LexInv J (Lexer.numberBody C) := by
  unfold Lexer.numberBody
  exact bind cur fun _ => ite (bind (readNext hS) fun _ => ite (scanFloat hS) (ite fail (pure _))) (scanInteger hS)

theorem scanNumber : LexInv J (Lexer.scanNumber C) := by
  unfold Lexer.scanNumber
  exact bind (modify fun _ => rfl) fun _ => bind cur fun _ => ite (bind (modify fun _ => rfl) fun _ => bind (readNext hS) fun _ => (numberBody hS))
    (numberBody hS)

theorem single (t : Token) : LexInv J (Lexer.single C t) := by
  unfold Lexer.single
  exact bind (readNext hS) fun _ => pure _

theorem scan : LexInv J (Lexer.scan C) := by
  unfold Lexer.scan
  exact bind (skipSpaces hS _) fun _ => bind eof fun _ => ite (pure _) (bind cur fun _ =>
    ite (single hS _) <| ite (single hS _) <| ite (single hS _) <| ite (single hS _) <| ite (single hS _) <| ite (single hS _) <|
    ite (scanLiteral hS _ _) <| ite (scanLiteral hS _ _) <| ite (scanLiteral hS _ _) <| ite (pure _) <| ite (scanNumber hS) <| ite (pure _) fail)

theorem readEscapedLoop (l : List Nat) (c : Nat) : LexInv J (Lexer.readEscapedLoop C l c) := by
  induction l generalizing c with
  | nil => exact pure _
  | cons f l ih =>
    unfold Lexer.readEscapedLoop
    refine bind (readNext hS) fun ch => ?_
    cases hexVal ch with
    | none => exact fail
    | some d => exact ih _

theorem readEscaped : LexInv J (Lexer.readEscaped C) := readEscapedLoop hS _ _


omit hS in
theorem putCp (room : Option Nat) (cp : Nat) : LexInv J (putCpIn C room cp) := by
  unfold putCpIn
  exact bind (modify fun _ => rfl) fun _ => bind gets fun _ => ite (pure _) fail

omit hS in
theorem putAscii (room : Option Nat) (cp : Nat) : LexInv J (putAsciiIn (S := S) (F := F) room cp) := modify fun _ => rfl

theorem stringLoop (room : Option Nat) (n : Nat) : LexInv J (stringLoopIn C room n) := by
  induction n with
  | zero => exact stop _
  | succ n ih =>
    unfold stringLoopIn
    have hu : LexInv J (scanUnicodeEscapeIn C room) := by
      unfold scanUnicodeEscapeIn
      exact bind (readEscaped hS) fun cp => ite (bind (readNext hS) fun a => ite fail <|
        bind (readNext hS) fun b => ite fail <| bind (readEscaped hS) fun tr => ite fail <| putCp _ _) (putCp _ _)
    have he : LexInv J (scanEscapeIn C room) := by
      unfold scanEscapeIn
      exact bind (readNext hS) fun c => ite (putAscii _ _) <| ite (putAscii _ _) <| ite (putAscii _ _) <|
        ite (putAscii _ _) <| ite (putAscii _ _) <| ite (putAscii _ _) <| ite (putAscii _ _) <| ite (putAscii _ _) <|
        ite hu fail
    exact bind (readNext hS) fun c => bind eof fun b => ite fail <|
      ite (bind (readNext hS) fun _ => pure _) <| ite fail <|
      ite (bind he fun _ => ih) (bind (putCp _ _) fun _ => ih)

theorem scanString : LexInv J (Lexer.scanString C) := by
  rw [← scanStringIn_none]
  unfold scanStringIn
  exact bind (modify fun _ => rfl) fun _ => bind cur fun _ => bind (assert _) fun _ => stringLoop hS _ _

end LexInv

theorem putCp_cases (room c : Nat) (s : Lex S F) :
    (∃ s2, putCpIn C (some room) c s = (.error (.exn .deserialization), s2)) ∨ putCpIn C (some room) c s = Lexer.putCp C c s := by
  have e1 : putCpIn C (some room) c s = (if ((C.enc s.out c).within (some room)).good then Pure.pure () else Lexer.fail : L S F Unit)
      { s with out := (C.enc s.out c).within (some room) } := rfl
  have e2 : Lexer.putCp C c s = (if (C.enc s.out c).good then Pure.pure () else Lexer.fail : L S F Unit) { s with out := C.enc s.out c } := rfl
  rw [e1, e2]
  rcases within_cases (some room) (C.enc s.out c) with hw | hw
  · right; rw [hw]
  · left; simp [OStream.good, hw, Lexer.fail, M.throw, M.stop]

/-- Without backslashes a string that cannot grow is noticed, wherever the loop is. -/
theorem silent_loop (hS : Silent C.src J) (room : Nat) (n : Nat) : ∀ s, J s.is →
    (stringLoopIn C (some room) n s).1 = .error (.exn .deserialization) ∨ stringLoopIn C (some room) n s = Lexer.stringLoop C n s := by
  induction n with
  | zero => intro s _; exact .inr rfl
  | succ n ih =>
    intro s h
    unfold stringLoopIn Lexer.stringLoop
    rcases e1 : readNext C s with ⟨x | c, s1⟩
    · rw [M.bind_error e1, M.bind_error e1]; exact .inr rfl
    · rw [M.bind_ok e1, M.bind_ok e1]
      have h1 := LexInv.readNext hS _ _ _ h e1
      have hc : c ≠ 0x5C := by
        simp only [readNext] at e1
        split at e1
        · next hf =>
          split at e1
          · next hg =>
            simp only [Prod.mk.injEq, Except.ok.injEq] at e1
            rw [← e1.1]; exact (hS.next _ h hf hg).1
          · simp at e1
        · simp only [Prod.mk.injEq, Except.ok.injEq] at e1
          omega
      have e2 : Lexer.eof C s1 = (.ok (C.src.eof s1.is), s1) := rfl
      rw [M.bind_ok e2, M.bind_ok e2]
      split
      · exact .inr rfl
      · split
        · exact .inr rfl
        · split
          · exact .inr rfl
          · split
            · next h5 => exact absurd (by simpa using h5) hc
            · rcases putCp_cases (C := C) room c s1 with ⟨s2, e3⟩ | e3
              · rw [M.bind_error e3]; exact .inl rfl
              · rcases e4 : Lexer.putCp C c s1 with ⟨x | _, s2⟩
                · rw [M.bind_error e4, M.bind_error (e3.trans e4)]; exact .inr rfl
                · rw [M.bind_ok e4, M.bind_ok (e3.trans e4)]
                  exact ih s2 (LexInv.putCp (some room) c _ _ _ h1 (e3.trans e4))

theorem silent_calm (hS : Silent C.src J) : Spec.Calm C (fun s => J s.is) where
  next s a s' := LexInv.readNext hS s a s'
  scan s a s' := LexInv.scan hS s a s'
  string s a s' := LexInv.scanString hS s a s'
  exact s k h := by
    unfold scanStringIn scanString
    have e1 : ∀ f : Unit → L S F Unit, (M.modify (fun s : Lex S F => { s with out := .ofString [] }) >>= f) s = f () { s with out := .ofString [] } := fun _ => rfl
    have e2 : ∀ (f : Nat → L S F Unit) (s : Lex S F), (Lexer.cur >>= f) s = f s.cur s := fun _ _ => rfl
    rw [e1, e1, e2, e2]
    rcases e3 : Lexer.assert C (s.cur == 0x22) { s with out := .ofString [] } with ⟨x | a, s1⟩
    · rw [M.bind_error e3, M.bind_error e3]; exact .inr rfl
    · rw [M.bind_ok e3, M.bind_ok e3]
      refine silent_loop hS k C.bound s1 (LexInv.assert (C := C) (s.cur == 0x22) _ a s1 ?_ e3)
      exact h

theorem silent_canon {σ : Type} {B : SBuf σ} {R : σ → List Int → Prop} {e : Enc} {w : Nat} (V : View B R) :
    Silent (istreamSrc e w B) fun s => ∃ c, CanonRel R (e.step w) s c ∧ some 0x5C ∉ c.rest where
  next s h hf hg := by
    obtain ⟨c, hr, hc⟩ := h
    have H := canon_src (e := e) (w := w) V
    have hf' := (H.flag hr).symm.trans hf
    obtain ⟨h1, h2⟩ := H.cp hr hf hg
    have hg' := (H.good hr hf).symm.trans hg
    obtain ⟨rest, ended, dead⟩ := c
    cases ended with
    | true => simp [canonSrc] at hf'
    | false =>
      cases rest with
      | nil => simp [canonSrc] at hf'
      | cons o r =>
        cases o with
        | none => simp [canonSrc] at hg'
        | some cp =>
          simp only [canonSrc, Bool.false_eq_true, if_false] at h1 h2
          rw [h1]
          simp only [List.mem_cons, not_or] at hc
          exact ⟨fun e => hc.1 (by rw [e]), _, h2, hc.2⟩
  fin s h hf := by
    obtain ⟨c, hr, hc⟩ := h
    have H := canon_src (e := e) (w := w) V
    refine ⟨_, H.fin hr hf, ?_⟩
    have hf' := (H.flag hr).symm.trans hf
    obtain ⟨rest, ended, dead⟩ := c
    cases ended with
    | true => simpa [canonSrc] using hc
    | false =>
      cases rest with
      | nil => simp [canonSrc]
      | cons o r => cases o <;> simp [canonSrc] at hf'

end Configor
