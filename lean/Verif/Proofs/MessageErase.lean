import Verif.Model.Message
import Verif.Proofs.Sim
/-! Without the messages, the functions of `Model/Message` are those of `Model/Lexer` and `Model/Parser`. -/
set_option autoImplicit false
namespace Configor
open Lexer

variable {S F α β σ : Type}

/-- The end of a computation without its message. -/
def unsaid : Except (Stop × List Nat) α → Except Stop α
  | .error e => .error e.1
  | .ok a => .ok a

/-- `k` is `m` with messages. -/
def Erases (k : MM σ α) (m : M σ α) : Prop := ∀ s, (unsaid (k s).1, (k s).2) = m s

theorem Erases.pure (a : α) : Erases (σ := σ) (Pure.pure a) (Pure.pure a) := fun _ => rfl

theorem Erases.stop (e : Stop) : Erases (σ := σ) (α := α) (MM.stop e) (M.stop e) := fun _ => rfl

theorem Erases.gets (f : σ → α) : Erases (MM.gets f) (M.gets f) := fun _ => rfl

theorem Erases.modify (f : σ → σ) : Erases (MM.modify f) (M.modify f) := fun _ => rfl

theorem Erases.bind {k : MM σ α} {m : M σ α} {g : α → MM σ β} {f : α → M σ β}
    (h : Erases k m) (hf : ∀ a, Erases (g a) (f a)) : Erases (k >>= g) (m >>= f) := by
  intro s
  have h1 := h s
  rw [MM.bind_def, M.bind_def, ← h1]
  rcases k s with ⟨e | a, s'⟩
  · rfl
  · exact hf a s'

theorem Erases.ite {c : Prop} [Decidable c] {k k' : MM σ α} {m m' : M σ α}
    (h : Erases k m) (h' : Erases k' m') : Erases (if c then k else k') (if c then m else m') := by
  split
  · exact h
  · exact h'

theorem Erases.fail (msg : List Nat) : Erases (α := α) (Msg.fail (S := S) (F := F) msg) Lexer.fail := fun _ => rfl

theorem Erases.failCode (msg : List Nat) (c : Nat) :
    Erases (α := α) (Msg.failCode (S := S) (F := F) msg c) Lexer.fail := fun _ => rfl

theorem Erases.cur : Erases (Msg.cur (S := S) (F := F)) Lexer.cur := fun _ => rfl

variable (C : Cfg S F)

theorem Erases.eof : Erases (Msg.eof C) (Lexer.eof C) := fun _ => rfl

theorem Erases.readNext : Erases (Msg.readNext C) (Lexer.readNext C) := by
  intro s
  unfold Msg.readNext Lexer.readNext
  simp only
  split
  · split <;> rfl
  · rfl

theorem Erases.skipBlanks (n : Nat) : Erases (Msg.skipBlanks C n) (Lexer.skipBlanks C n) := by
  induction n with
  | zero => exact Erases.stop _
  | succ n ih =>
    unfold Msg.skipBlanks Lexer.skipBlanks
    exact Erases.bind Erases.cur fun c => Erases.ite (Erases.bind (Erases.readNext C) fun _ => ih) (Erases.pure _)

theorem Erases.lineComment (n : Nat) : Erases (Msg.lineComment C n) (Lexer.lineComment C n) := by
  induction n with
  | zero => exact Erases.stop _
  | succ n ih =>
    unfold Msg.lineComment Lexer.lineComment
    exact Erases.bind (Erases.readNext C) fun c => Erases.ite (Erases.pure _)
      (Erases.bind (Erases.eof C) fun b => Erases.ite (Erases.pure _) ih)

theorem Erases.blockComment (n : Nat) : Erases (Msg.blockComment C n) (Lexer.blockComment C n) := by
  induction n with
  | zero => exact Erases.stop _
  | succ n ih =>
    unfold Msg.blockComment Lexer.blockComment
    refine Erases.bind (Erases.readNext C) fun c => Erases.ite ?_ ?_
    · exact Erases.bind (Erases.readNext C) fun d => Erases.ite (Erases.bind (Erases.readNext C) fun _ => Erases.pure _)
        (Erases.bind (Erases.eof C) fun b => Erases.ite (Erases.fail _) ih)
    · exact Erases.bind (Erases.eof C) fun b => Erases.ite (Erases.fail _) ih

theorem Erases.skipSpaces (n : Nat) : Erases (Msg.skipSpaces C n) (Lexer.skipSpaces C n) := by
  induction n with
  | zero => exact Erases.stop _
  | succ n ih =>
    unfold Msg.skipSpaces Lexer.skipSpaces
    exact Erases.bind (Erases.skipBlanks C _) fun _ => Erases.bind Erases.cur fun c => Erases.ite
      (Erases.bind (Erases.readNext C) fun c => Erases.ite
        (Erases.bind (Erases.lineComment C _) fun b => Erases.ite ih (Erases.pure _))
        (Erases.ite (Erases.bind (Erases.blockComment C _) fun _ => ih) (Erases.fail _)))
      (Erases.pure _)

theorem Erases.literalLoop (whole text : List Nat) (t : Token) :
    Erases (Msg.literalLoop C whole text t) (Lexer.scanLiteral C text t) := by
  induction text with
  | nil => exact Erases.pure _
  | cons ch text ih =>
    unfold Msg.literalLoop Lexer.scanLiteral
    exact Erases.bind Erases.cur fun c => Erases.ite (Erases.fail _) (Erases.bind (Erases.readNext C) fun _ => ih)

theorem Erases.assert (b : Bool) : Erases (Msg.assert C b) (Lexer.assert C b) := by
  unfold Msg.assert Lexer.assert
  exact Erases.ite (Erases.stop _) (Erases.pure _)

theorem Erases.readEscapedLoop (fs : List Nat) (code : Nat) :
    Erases (Msg.readEscapedLoop C fs code) (Lexer.readEscapedLoop C fs code) := by
  induction fs generalizing code with
  | nil => exact Erases.pure _
  | cons f fs ih =>
    unfold Msg.readEscapedLoop Lexer.readEscapedLoop
    refine Erases.bind (Erases.readNext C) fun c => ?_
    cases hexVal c with
    | none => exact Erases.failCode _ _
    | some d => exact ih _

theorem Erases.putCp (cp : Nat) : Erases (Msg.putCp C cp) (Lexer.putCp C cp) := by
  unfold Msg.putCp Lexer.putCp
  exact Erases.bind (Erases.modify _) fun _ => Erases.bind (Erases.gets _) fun b =>
    Erases.ite (Erases.pure _) (Erases.failCode _ _)

theorem Erases.putAscii (c : Nat) : Erases (Msg.putAscii (S := S) (F := F) c) (Lexer.putAscii c) := Erases.modify _

theorem Erases.scanUnicodeEscape : Erases (Msg.scanUnicodeEscape C) (Lexer.scanUnicodeEscape C) := by
  unfold Msg.scanUnicodeEscape Lexer.scanUnicodeEscape Msg.readEscaped Lexer.readEscaped
  exact Erases.bind (Erases.readEscapedLoop C _ _) fun cp => Erases.ite
    (Erases.bind (Erases.readNext C) fun a => Erases.ite (Erases.failCode _ _)
      (Erases.bind (Erases.readNext C) fun b => Erases.ite (Erases.failCode _ _)
        (Erases.bind (Erases.readEscapedLoop C _ _) fun tr => Erases.ite (Erases.failCode _ _) (Erases.putCp C _))))
    (Erases.putCp C _)

theorem Erases.scanEscape : Erases (Msg.scanEscape C) (Lexer.scanEscape C) := by
  unfold Msg.scanEscape Lexer.scanEscape
  exact Erases.bind (Erases.readNext C) fun c =>
    Erases.ite (Erases.putAscii _) <| Erases.ite (Erases.putAscii _) <| Erases.ite (Erases.putAscii _) <|
    Erases.ite (Erases.putAscii _) <| Erases.ite (Erases.putAscii _) <| Erases.ite (Erases.putAscii _) <|
    Erases.ite (Erases.putAscii _) <| Erases.ite (Erases.putAscii _) <|
    Erases.ite (Erases.scanUnicodeEscape C) (Erases.failCode _ _)

theorem Erases.stringLoop (n : Nat) : Erases (Msg.stringLoop C n) (Lexer.stringLoop C n) := by
  induction n with
  | zero => exact Erases.stop _
  | succ n ih =>
    unfold Msg.stringLoop Lexer.stringLoop
    exact Erases.bind (Erases.readNext C) fun c => Erases.bind (Erases.eof C) fun b => Erases.ite (Erases.fail _) <|
      Erases.ite (Erases.bind (Erases.readNext C) fun _ => Erases.pure _) <| Erases.ite (Erases.failCode _ _) <|
      Erases.ite (Erases.bind (Erases.scanEscape C) fun _ => ih) (Erases.bind (Erases.putCp C _) fun _ => ih)

theorem Erases.scanString : Erases (Msg.scanString C) (Lexer.scanString C) := by
  unfold Msg.scanString Lexer.scanString
  exact Erases.bind (Erases.modify _) fun _ => Erases.bind Erases.cur fun c => Erases.bind (Erases.assert C _) fun _ =>
    Erases.stringLoop C _

theorem Erases.setF (f : F → F) : Erases (Msg.setF (S := S) f) (Lexer.setF f) := Erases.modify _

theorem Erases.exponentDigits (n e : Nat) : Erases (Msg.exponentDigits C n e) (Lexer.exponentDigits C n e) := by
  induction n generalizing e with
  | zero => exact Erases.stop _
  | succ n ih =>
    unfold Msg.exponentDigits Lexer.exponentDigits
    exact Erases.bind (Erases.readNext C) fun c => Erases.ite (ih _) (Erases.pure _)

theorem Erases.exponentValue (neg : Bool) : Erases (Msg.exponentValue C neg) (Lexer.exponentValue C neg) := by
  unfold Msg.exponentValue Lexer.exponentValue
  exact Erases.bind Erases.cur fun c => Erases.bind (Erases.exponentDigits C _ _) fun e =>
    Erases.bind (Erases.setF _) fun _ => Erases.pure _

theorem Erases.scanExponent : Erases (Msg.scanExponent C) (Lexer.scanExponent C) := by
  unfold Msg.scanExponent Lexer.scanExponent
  exact Erases.bind Erases.cur fun c0 => Erases.bind (Erases.assert C _) fun _ => Erases.bind (Erases.readNext C) fun c =>
    Erases.ite (Erases.failCode _ _) <| Erases.ite
      (Erases.bind (Erases.readNext C) fun _ => Erases.exponentValue C _) (Erases.exponentValue C _)

theorem Erases.fractionLoop (n : Nat) (f : F) : Erases (Msg.fractionLoop C n f) (Lexer.fractionLoop C n f) := by
  induction n generalizing f with
  | zero => exact Erases.stop _
  | succ n ih =>
    unfold Msg.fractionLoop Lexer.fractionLoop
    exact Erases.bind (Erases.readNext C) fun c => Erases.ite (Erases.scanExponent C) <|
      Erases.ite (Erases.bind (Erases.setF _) fun _ => ih _) (Erases.pure _)

theorem Erases.scanFloat : Erases (Msg.scanFloat C) (Lexer.scanFloat C) := by
  unfold Msg.scanFloat Lexer.scanFloat
  exact Erases.bind (Erases.modify _) fun _ => Erases.bind Erases.cur fun c0 => Erases.ite (Erases.scanExponent C) <|
    Erases.bind (Erases.assert C _) fun _ => Erases.bind (Erases.readNext C) fun c => Erases.ite (Erases.failCode _ _) <|
    Erases.bind (Erases.setF _) fun _ => Erases.fractionLoop C _ _

theorem Erases.integerLoop (n : Nat) : Erases (Msg.integerLoop C n) (Lexer.integerLoop C n) := by
  induction n with
  | zero => exact Erases.stop _
  | succ n ih =>
    unfold Msg.integerLoop Lexer.integerLoop
    exact Erases.bind (Erases.readNext C) fun c => Erases.ite (Erases.scanFloat C) <|
      Erases.ite (Erases.bind (Erases.gets _) fun i => Erases.ite (Erases.stop _) <|
        Erases.bind (Erases.modify _) fun _ => ih) (Erases.pure _)

theorem Erases.scanInteger : Erases (Msg.scanInteger C) (Lexer.scanInteger C) := by
  unfold Msg.scanInteger Lexer.scanInteger
  exact Erases.bind Erases.cur fun c => Erases.bind (Erases.assert C _) fun _ => Erases.bind (Erases.modify _) fun _ =>
    Erases.integerLoop C _

theorem Erases.numberBody : Erases (Msg.numberBody C) (Lexer.numberBody C) := by
  unfold Msg.numberBody Lexer.numberBody
  exact Erases.bind Erases.cur fun c => Erases.ite (Erases.bind (Erases.readNext C) fun d => Erases.ite (Erases.scanFloat C) <|
    Erases.ite (Erases.fail _) (Erases.pure _)) (Erases.scanInteger C)

theorem Erases.scanNumber : Erases (Msg.scanNumber C) (Lexer.scanNumber C) := by
  unfold Msg.scanNumber Lexer.scanNumber
  exact Erases.bind (Erases.modify _) fun _ => Erases.bind Erases.cur fun c => Erases.ite
    (Erases.bind (Erases.modify _) fun _ => Erases.bind (Erases.readNext C) fun _ => Erases.numberBody C) (Erases.numberBody C)

theorem Erases.single (t : Token) : Erases (Msg.single C t) (Lexer.single C t) :=
  Erases.bind (Erases.readNext C) fun _ => Erases.pure _

theorem Erases.scan : Erases (Msg.scan C) (Lexer.scan C) := by
  unfold Msg.scan Lexer.scan
  exact Erases.bind (Erases.skipSpaces C _) fun _ => Erases.bind (Erases.eof C) fun b => Erases.ite (Erases.pure _) <|
    Erases.bind Erases.cur fun c => Erases.ite (Erases.single C _) <| Erases.ite (Erases.single C _) <|
    Erases.ite (Erases.single C _) <| Erases.ite (Erases.single C _) <| Erases.ite (Erases.single C _) <|
    Erases.ite (Erases.single C _) <| Erases.ite (Erases.literalLoop C _ _ _) <| Erases.ite (Erases.literalLoop C _ _ _) <|
    Erases.ite (Erases.literalLoop C _ _ _) <| Erases.ite (Erases.pure _) <| Erases.ite (Erases.scanNumber C) <|
    Erases.ite (Erases.pure _) (Erases.failCode _ _)

/-- The same for `do_parse`. -/
def ErasesP (k : Msg.PRes S F) (r : PRes S F) : Prop := (unsaid k.1, k.2) = r

theorem erases_scan (s : Lex S F) : Lexer.scan C s = (unsaid (Msg.scan C s).1, (Msg.scan C s).2) := (Erases.scan C s).symm

theorem erases_scanString (s : Lex S F) :
    Lexer.scanString C s = (unsaid (Msg.scanString C s).1, (Msg.scanString C s).2) := (Erases.scanString C s).symm

theorem erases_parse (n : Nat) :
    (∀ (c : Value F) (tok : Option Token) (s : Lex S F), ErasesP (Msg.doParse C n c tok s) (doParse C n c tok s)) ∧
    (∀ (xs : List (Value F)) (s : Lex S F), ErasesP (Msg.parseArray C n xs s) (parseArray C n xs s)) ∧
    (∀ (ms : Map.T (Value F)) (s : Lex S F), ErasesP (Msg.parseObject C n ms s) (parseObject C n ms s)) := by
  induction n with
  | zero => exact ⟨fun _ _ _ => by rw [Msg.doParse, doParse]; rfl, fun _ _ => by rw [Msg.parseArray, parseArray]; rfl, fun _ _ => by rw [Msg.parseObject, parseObject]; rfl⟩
  | succ n ih =>
    obtain ⟨ih1, ih2, ih3⟩ := ih
    refine ⟨?_, ?_, ?_⟩
    · intro c tok s
      unfold Msg.doParse doParse
      have key : ∀ (t : Token) (s : Lex S F), ErasesP
          (match t with
            | .literalTrue => (.ok (), s, .bool true)
            | .literalFalse => (.ok (), s, .bool false)
            | .literalNull => (.ok (), s, .null)
            | .valueString => let r := Msg.scanString C s; (r.1, r.2, .str r.2.out.out)
            | .valueInteger => (.ok (), s, .int (getInteger s))
            | .valueFloat => (.ok (), s, .flt (getFloat C s))
            | .beginArray => Msg.parseArray C n [] s
            | .beginObject => Msg.parseObject C n [] s
            | t => (.error (Msg.unexpected t), s, c))
          (match t with
            | .literalTrue => (.ok (), s, .bool true)
            | .literalFalse => (.ok (), s, .bool false)
            | .literalNull => (.ok (), s, .null)
            | .valueString => let r := Lexer.scanString C s; (r.1, r.2, .str r.2.out.out)
            | .valueInteger => (.ok (), s, .int (getInteger s))
            | .valueFloat => (.ok (), s, .flt (getFloat C s))
            | .beginArray => parseArray C n [] s
            | .beginObject => parseObject C n [] s
            | _ => (.error (.exn .deserialization), s, c)) := by
        intro t s
        cases t <;> try rfl
        · simp only [erases_scanString]; rfl
        · exact ih2 _ _
        · exact ih3 _ _
      cases tok with
      | some t => exact key t s
      | none =>
        simp only [erases_scan]
        rcases Msg.scan C s with ⟨e | t, s'⟩
        · rfl
        · exact key t s'
    · intro xs s
      rw [Msg.parseArray, parseArray, erases_scan]
      rcases Msg.scan C s with ⟨e | t, s⟩
      · rfl
      simp only [unsaid]
      split
      · have := ih1 .null (some t) s
        rw [← this]
        rcases Msg.doParse C n .null (some t) s with ⟨e | u, s, v⟩
        · rfl
        simp only [unsaid, erases_scan]
        rcases Msg.scan C s with ⟨e | t, s⟩
        · rfl
        simp only
        split
        · exact ih2 _ _
        · split <;> rfl
      · split <;> rfl
    · intro ms s
      rw [Msg.parseObject, parseObject, erases_scan]
      rcases Msg.scan C s with ⟨e | t, s⟩
      · rfl
      simp only [unsaid]
      split
      · rw [erases_scanString]
        rcases Msg.scanString C s with ⟨e | u, s⟩
        · rfl
        simp only [unsaid, erases_scan]
        rcases Msg.scan C s with ⟨e | t, s⟩
        · rfl
        simp only
        split
        · have := ih1 .null none s
          rw [← this]
          rcases Msg.doParse C n .null none s with ⟨e | u, s, v⟩
          · rfl
          simp only [unsaid, erases_scan]
          rcases Msg.scan C s with ⟨e | t, s⟩
          · rfl
          simp only
          split
          · exact ih3 _ _
          · split <;> rfl
        · split <;> rfl
      · split <;> rfl

theorem erases_parseBody (n : Nat) (c : Value F) (s : Lex S F) : ErasesP (Msg.parseBody C n c s) (parseBody C n c s) := by
  unfold Msg.parseBody parseBody
  rw [← (erases_parse C n).1 c none s]
  rcases Msg.doParse C n c none s with ⟨e | u, s, v⟩
  · rfl
  simp only [unsaid, erases_scan]
  rcases Msg.scan C s with ⟨e | t, s⟩
  · rfl
  simp only
  split <;> rfl

theorem handled_none (r : PRes S F) : handled none r = r := by
  obtain ⟨e | u, s, v⟩ := r
  · cases e <;> rfl
  · rfl

theorem erases_parseAll (n : Nat) (c : Value F) (s : Lex S F) : ErasesP (Msg.parse C n c s) (parse C n none c s) := by
  unfold Msg.parse parse
  rw [← Erases.readNext C s]
  rcases Msg.readNext C s with ⟨e | u, s⟩
  · rfl
  simp only [unsaid, handled_none]
  exact erases_parseBody C n c s

end Configor
