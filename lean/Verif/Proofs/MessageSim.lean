import Verif.Model.Message
import Verif.Proofs.Sim
/-!
Simulation between two parses of the same code points, from different sources: they end in the same way and say the same, except
about a malformed character, of which the code shown may differ.
-/
set_option autoImplicit false
namespace Configor
open Lexer

variable {S T F α β : Type} {C : Cfg S F} {D : Cfg T F} {R : S → T → Prop} {Q : Nat → Prop}

/-- Not a message about a malformed character: it does not begin with `d`. -/
def OtherMsg (m : List Nat) : Prop := m = [] ∨ ∃ i, m = deserializationText i ∧ i.head? ≠ some 0x64

/-- The same message, not about a malformed character, or the right one shows the code `c` of a malformed character, with `Q c`. -/
def MsgSim (Q : Nat → Prop) (m m' : List Nat) : Prop :=
  (m = m' ∧ OtherMsg m) ∨
    ∃ c, Q c ∧ m' = deserializationText (text! "decoding failed with codepoint" ++ text! " '" ++ hexText 4 c ++ text! "'")

/-- Related results. -/
def ResSimM (R : S → T → Prop) (Q : Nat → Prop) (r : Except (Stop × List Nat) α × Lex S F) (q : Except (Stop × List Nat) α × Lex T F) :
    Prop :=
  (∃ e m m' s t, r = (.error (e, m), s) ∧ q = (.error (e, m'), t) ∧ MsgSim Q m m') ∨
    ∃ a s t, r = (.ok a, s) ∧ q = (.ok a, t) ∧ LexSim (fun _ => R) s t

/-- Related computations. -/
def SimM (R : S → T → Prop) (Q : Nat → Prop) (m : MM (Lex S F) α) (k : MM (Lex T F) α) : Prop :=
  ∀ s t, LexSim (fun _ => R) s t → ResSimM R Q (m s) (k t)

/-- Configurations that differ only in the source; `Q` holds of the code that the right one gives for a malformed character. -/
structure SaySim (C : Cfg S F) (D : Cfg T F) (R : S → T → Prop) (Q : Nat → Prop) : Prop where
  src : SrcSim C.src D.src R
  bad : ∀ {a b}, R a b → (C.src.decode a).1 = true → C.src.good (C.src.decode a).2.2 = false → Q (D.src.decode b).2.1
  enc : C.enc = D.enc
  w : C.w = D.w
  debug : C.debug = D.debug
  fo : C.fo = D.fo
  bound : C.bound = D.bound

theorem SimM.pure (a : α) : SimM (F := F) R Q (Pure.pure a) (Pure.pure a) :=
  fun s t h => Or.inr ⟨a, s, t, rfl, rfl, h⟩

theorem SimM.stop (e : Stop) : SimM (F := F) (α := α) R Q (MM.stop e) (MM.stop e) :=
  fun s t _ => Or.inl ⟨e, [], [], s, t, rfl, rfl, Or.inl ⟨rfl, Or.inl rfl⟩⟩

theorem SimM.fail (m : List Nat) (hm : m.head? ≠ some 0x64 := by intro h; cases h) :
    SimM (F := F) (α := α) R Q (Msg.fail m) (Msg.fail m) :=
  fun s t _ => Or.inl ⟨_, _, _, s, t, rfl, rfl, Or.inl ⟨rfl, Or.inr ⟨m, rfl, hm⟩⟩⟩

theorem SimM.bind {m : MM (Lex S F) α} {k : MM (Lex T F) α} {f : α → MM (Lex S F) β} {g : α → MM (Lex T F) β}
    (h : SimM R Q m k) (hf : ∀ a, SimM R Q (f a) (g a)) : SimM R Q (m >>= f) (k >>= g) := by
  intro s t hs
  rw [MM.bind_def, MM.bind_def]
  rcases h s t hs with ⟨e, a, b, s', t', h1, h2, h3⟩ | ⟨a, s', t', h1, h2, h3⟩
  · rw [h1, h2]
    exact Or.inl ⟨e, a, b, s', t', rfl, rfl, h3⟩
  · rw [h1, h2]
    exact hf a s' t' h3

theorem SimM.gets {f : Lex S F → α} {g : Lex T F → α} (h : ∀ s t, LexSim (fun _ => R) s t → f s = g t) :
    SimM R Q (MM.gets f) (MM.gets g) :=
  fun s t hs => Or.inr ⟨f s, s, t, rfl, by unfold MM.gets; rw [h s t hs], hs⟩

theorem SimM.modify {f : Lex S F → Lex S F} {g : Lex T F → Lex T F}
    (h : ∀ s t, LexSim (fun _ => R) s t → LexSim (fun _ => R) (f s) (g t)) : SimM R Q (MM.modify f) (MM.modify g) :=
  fun s t hs => Or.inr ⟨(), f s, g t, rfl, rfl, h s t hs⟩

theorem SimM.cur : SimM (F := F) R Q Msg.cur Msg.cur := SimM.gets fun _ _ h => h.2.1

theorem SimM.ite {c : Prop} [Decidable c] {m m' : MM (Lex S F) α} {k k' : MM (Lex T F) α} (h : SimM R Q m k) (h' : SimM R Q m' k') :
    SimM R Q (if c then m else m') (if c then k else k') := by
  split
  · exact h
  · exact h'

theorem SimM.eof (H : SaySim C D R Q) : SimM R Q (Msg.eof C) (Msg.eof D) := SimM.gets fun _ _ h => H.src.eof h.1

theorem SimM.readNext (H : SaySim C D R Q) : SimM R Q (Msg.readNext C) (Msg.readNext D) := by
  intro s t h
  unfold Msg.readNext
  simp only
  have hf := H.src.flag h.1
  cases hc : (C.src.decode s.is).1 with
  | false =>
    rw [hc] at hf
    rw [← hf]
    simp only [Bool.false_eq_true, if_false]
    exact Or.inr ⟨0, _, _, rfl, rfl, H.src.fin h.1 hc, rfl, h.2.2⟩
  | true =>
    rw [hc] at hf
    rw [← hf]
    simp only [if_true]
    have hg := H.src.good h.1 hc
    cases hgd : C.src.good (C.src.decode s.is).2.2 with
    | false =>
      rw [hgd] at hg
      rw [← hg]
      simp only [Bool.false_eq_true, if_false]
      exact Or.inl ⟨_, _, _, _, _, rfl, rfl, Or.inr ⟨_, H.bad h.1 hc hgd, rfl⟩⟩
    | true =>
      rw [hgd] at hg
      rw [← hg]
      have hcp := H.src.cp h.1 hc hgd
      simp only [if_true]
      rw [hcp.1]
      exact Or.inr ⟨_, _, _, rfl, rfl, hcp.2, rfl, h.2.2⟩

theorem SimM.skipBlanks (H : SaySim C D R Q) (n m : Nat) (hn : n = m) :
    SimM R Q (Msg.skipBlanks C n) (Msg.skipBlanks D m) := by
  subst hn
  induction n with
  | zero => exact SimM.stop _
  | succ n ih =>
    unfold Msg.skipBlanks
    exact SimM.bind SimM.cur fun c => SimM.ite (SimM.bind (SimM.readNext H) fun _ => ih) (SimM.pure _)

theorem SimM.lineComment (H : SaySim C D R Q) (n m : Nat) (hn : n = m) :
    SimM R Q (Msg.lineComment C n) (Msg.lineComment D m) := by
  subst hn
  induction n with
  | zero => exact SimM.stop _
  | succ n ih =>
    unfold Msg.lineComment
    exact SimM.bind (SimM.readNext H) fun c => SimM.ite (SimM.pure _)
      (SimM.bind (SimM.eof H) fun b => SimM.ite (SimM.pure _) ih)

theorem SimM.blockComment (H : SaySim C D R Q) (n m : Nat) (hn : n = m) :
    SimM R Q (Msg.blockComment C n) (Msg.blockComment D m) := by
  subst hn
  induction n with
  | zero => exact SimM.stop _
  | succ n ih =>
    unfold Msg.blockComment
    have ht : SimM R Q (do if (← Msg.eof C) then Msg.fail (text! "unexpected eof while reading comment") else Msg.blockComment C n)
        (do if (← Msg.eof D) then Msg.fail (text! "unexpected eof while reading comment") else Msg.blockComment D n) :=
      SimM.bind (SimM.eof H) fun b => SimM.ite (SimM.fail _) ih
    exact SimM.bind (SimM.readNext H) fun c => SimM.ite
      (SimM.bind (SimM.readNext H) fun d => SimM.ite (SimM.bind (SimM.readNext H) fun _ => SimM.pure _) ht) ht

theorem SimM.skipSpaces (H : SaySim C D R Q) (n m : Nat) (hn : n = m) :
    SimM R Q (Msg.skipSpaces C n) (Msg.skipSpaces D m) := by
  subst hn
  induction n with
  | zero => exact SimM.stop _
  | succ n ih =>
    unfold Msg.skipSpaces
    have hi := ih
    exact SimM.bind (SimM.skipBlanks H _ _ H.bound) fun _ => SimM.bind SimM.cur fun c => SimM.ite
      (SimM.bind (SimM.readNext H) fun c => SimM.ite
        (SimM.bind (SimM.lineComment H _ _ H.bound) fun b => SimM.ite hi (SimM.pure _))
        (SimM.ite (SimM.bind (SimM.blockComment H _ _ H.bound) fun _ => hi) (SimM.fail _)))
      (SimM.pure _)

theorem SimM.literalLoop (H : SaySim C D R Q) (w text : List Nat) (tok : Token) :
    SimM R Q (Msg.literalLoop C w text tok) (Msg.literalLoop D w text tok) := by
  induction text with
  | nil => exact SimM.pure _
  | cons ch text ih =>
    unfold Msg.literalLoop
    rw [H.w]
    exact SimM.bind SimM.cur fun c => SimM.ite (SimM.fail _) (SimM.bind (SimM.readNext H) fun _ => ih)

theorem SimM.scanLiteral (H : SaySim C D R Q) (text : List Nat) (tok : Token) :
    SimM R Q (Msg.scanLiteral C text tok) (Msg.scanLiteral D text tok) := SimM.literalLoop H _ _ _

theorem SimM.assert (H : SaySim C D R Q) (b : Bool) : SimM R Q (Msg.assert C b) (Msg.assert D b) := by
  unfold Msg.assert
  rw [H.debug]
  exact SimM.ite (SimM.stop _) (SimM.pure _)

theorem isDigit_say (H : SaySim C D R Q) (c : Nat) : Lexer.isDigit C c = Lexer.isDigit D c := by
  unfold Lexer.isDigit; rw [H.w]

theorem SimM.readEscapedLoop (H : SaySim C D R Q) (fs : List Nat) (code : Nat) :
    SimM R Q (Msg.readEscapedLoop C fs code) (Msg.readEscapedLoop D fs code) := by
  induction fs generalizing code with
  | nil => exact SimM.pure _
  | cons f fs ih =>
    unfold Msg.readEscapedLoop
    refine SimM.bind (SimM.readNext H) fun c => ?_
    cases hexVal c with
    | none => exact (SimM.fail _)
    | some d => exact ih _

theorem SimM.putCp (H : SaySim C D R Q) (cp : Nat) : SimM R Q (Msg.putCp C cp) (Msg.putCp D cp) := by
  unfold Msg.putCp
  rw [H.enc]
  refine SimM.bind (SimM.modify fun s t h => ?_) fun _ => SimM.bind (SimM.gets fun s t h => ?_) fun b =>
    SimM.ite (SimM.pure _) (SimM.fail _)
  · obtain ⟨h1, h2, h3, h4, h5, h6⟩ := h
    exact ⟨h1, h2, h3, h4, h5, by simp only; rw [h6]⟩
  · rw [h.2.2.2.2.2]

theorem SimM.putAscii (c : Nat) : SimM (F := F) R Q (Msg.putAscii c) (Msg.putAscii c) := by
  refine SimM.modify fun s t h => ?_
  obtain ⟨h1, h2, h3, h4, h5, h6⟩ := h
  exact ⟨h1, h2, h3, h4, h5, by simp only; rw [h6]⟩

theorem SimM.scanUnicodeEscape (H : SaySim C D R Q) :
    SimM R Q (Msg.scanUnicodeEscape C) (Msg.scanUnicodeEscape D) := by
  unfold Msg.scanUnicodeEscape Msg.readEscaped
  exact SimM.bind (SimM.readEscapedLoop H _ _) fun cp => SimM.ite
    (SimM.bind (SimM.readNext H) fun a => SimM.ite (SimM.fail _)
      (SimM.bind (SimM.readNext H) fun b => SimM.ite (SimM.fail _)
        (SimM.bind (SimM.readEscapedLoop H _ _) fun tr => SimM.ite (SimM.fail _) (SimM.putCp H _))))
    (SimM.putCp H _)

theorem SimM.scanEscape (H : SaySim C D R Q) : SimM R Q (Msg.scanEscape C) (Msg.scanEscape D) := by
  unfold Msg.scanEscape
  exact SimM.bind (SimM.readNext H) fun c =>
    SimM.ite (SimM.putAscii _) <| SimM.ite (SimM.putAscii _) <| SimM.ite (SimM.putAscii _) <|
    SimM.ite (SimM.putAscii _) <| SimM.ite (SimM.putAscii _) <| SimM.ite (SimM.putAscii _) <|
    SimM.ite (SimM.putAscii _) <| SimM.ite (SimM.putAscii _) <|
    SimM.ite (SimM.scanUnicodeEscape H) (SimM.fail _)

theorem SimM.stringLoop (H : SaySim C D R Q) (n m : Nat) (hn : n = m) :
    SimM R Q (Msg.stringLoop C n) (Msg.stringLoop D m) := by
  subst hn
  induction n with
  | zero => exact SimM.stop _
  | succ n ih =>
    unfold Msg.stringLoop
    exact SimM.bind (SimM.readNext H) fun c => SimM.bind (SimM.eof H) fun b => SimM.ite (SimM.fail _) <|
      SimM.ite (SimM.bind (SimM.readNext H) fun _ => SimM.pure _) <| SimM.ite (SimM.fail _) <|
      SimM.ite (SimM.bind (SimM.scanEscape H) fun _ => ih) (SimM.bind (SimM.putCp H _) fun _ => ih)

theorem SimM.scanString (H : SaySim C D R Q) : SimM R Q (Msg.scanString C) (Msg.scanString D) := by
  unfold Msg.scanString
  refine SimM.bind (SimM.modify fun s t h => ?_) fun _ => SimM.bind SimM.cur fun c => SimM.bind (SimM.assert H _) fun _ =>
    SimM.stringLoop H _ _ H.bound
  obtain ⟨h1, h2, h3, h4, h5, h6⟩ := h
  exact ⟨h1, h2, h3, h4, h5, rfl⟩

theorem SimM.setF (f : F → F) : SimM R Q (Msg.setF f) (Msg.setF f) := by
  refine SimM.modify fun s t h => ?_
  obtain ⟨h1, h2, h3, h4, h5, h6⟩ := h
  exact ⟨h1, h2, h3, h4, by simp only; rw [h5], h6⟩

theorem SimM.exponentDigits (H : SaySim C D R Q) (n m : Nat) (hn : n = m) (e : Nat) :
    SimM R Q (Msg.exponentDigits C n e) (Msg.exponentDigits D m e) := by
  subst hn
  induction n generalizing e with
  | zero => exact SimM.stop _
  | succ n ih =>
    unfold Msg.exponentDigits
    refine SimM.bind (SimM.readNext H) fun c => ?_
    rw [isDigit_say H]
    exact SimM.ite (ih _) (SimM.pure _)

theorem powLoop_say (H : SaySim C D R Q) (n e : Nat) (b p : F) :
    Lexer.powLoop C n e b p = Lexer.powLoop D n e b p := by
  induction n generalizing e b p with
  | zero => rfl
  | succ n ih => unfold Lexer.powLoop; rw [H.fo]; split <;> simp [ih]

theorem SimM.exponentValue (H : SaySim C D R Q) (neg : Bool) :
    SimM R Q (Msg.exponentValue C neg) (Msg.exponentValue D neg) := by
  unfold Msg.exponentValue
  refine SimM.bind SimM.cur fun c' => SimM.bind (SimM.exponentDigits H _ _ H.bound _) fun e => ?_
  simp only [powLoop_say H, H.fo]
  exact SimM.bind (SimM.setF _) fun _ => SimM.pure _

theorem SimM.scanExponent (H : SaySim C D R Q) : SimM R Q (Msg.scanExponent C) (Msg.scanExponent D) := by
  unfold Msg.scanExponent
  refine SimM.bind SimM.cur fun c0 => SimM.bind (SimM.assert H _) fun _ =>
    SimM.bind (SimM.readNext H) fun c => ?_
  rw [isDigit_say H]
  exact SimM.ite (SimM.fail _) (SimM.ite (SimM.bind (SimM.readNext H) fun _ => SimM.exponentValue H _)
    (SimM.exponentValue H _))

theorem SimM.fractionLoop (H : SaySim C D R Q) (n m : Nat) (hn : n = m) (f : F) :
    SimM R Q (Msg.fractionLoop C n f) (Msg.fractionLoop D m f) := by
  subst hn
  induction n generalizing f with
  | zero => exact SimM.stop _
  | succ n ih =>
    unfold Msg.fractionLoop
    refine SimM.bind (SimM.readNext H) fun c => SimM.ite (SimM.scanExponent H) ?_
    rw [isDigit_say H, H.fo]
    exact SimM.ite (SimM.bind (SimM.setF _) fun _ => ih _) (SimM.pure _)

theorem SimM.scanFloat (H : SaySim C D R Q) : SimM R Q (Msg.scanFloat C) (Msg.scanFloat D) := by
  unfold Msg.scanFloat
  refine SimM.bind (SimM.modify fun s t h => ?_) fun _ => SimM.bind SimM.cur fun c0 =>
    SimM.ite (SimM.scanExponent H) (SimM.bind (SimM.assert H _) fun _ => SimM.bind (SimM.readNext H) fun c => ?_)
  · obtain ⟨h1, h2, h3, h4, h5, h6⟩ := h
    exact ⟨h1, h2, h3, h4, by simp only; rw [h4, H.fo], h6⟩
  · rw [isDigit_say H, H.fo]
    exact SimM.ite (SimM.fail _) (SimM.bind (SimM.setF _) fun _ => SimM.fractionLoop H _ _ H.bound _)

theorem SimM.integerLoop (H : SaySim C D R Q) (n m : Nat) (hn : n = m) :
    SimM R Q (Msg.integerLoop C n) (Msg.integerLoop D m) := by
  subst hn
  induction n with
  | zero => exact SimM.stop _
  | succ n ih =>
    unfold Msg.integerLoop
    refine SimM.bind (SimM.readNext H) fun c => SimM.ite (SimM.scanFloat H) ?_
    rw [isDigit_say H]
    refine SimM.ite (SimM.bind (SimM.gets fun s t h => h.2.2.2.1) fun v => SimM.ite (SimM.stop _)
      (SimM.bind (SimM.modify fun s t h => ?_) fun _ => ih)) (SimM.pure _)
    obtain ⟨h1, h2, h3, h4, h5, h6⟩ := h
    exact ⟨h1, h2, h3, rfl, h5, h6⟩

theorem SimM.scanInteger (H : SaySim C D R Q) : SimM R Q (Msg.scanInteger C) (Msg.scanInteger D) := by
  unfold Msg.scanInteger
  refine SimM.bind SimM.cur fun c => ?_
  rw [isDigit_say H]
  refine SimM.bind (SimM.assert H _) fun _ => SimM.bind (SimM.modify fun s t h => ?_) fun _ =>
    SimM.integerLoop H _ _ H.bound
  obtain ⟨h1, h2, h3, h4, h5, h6⟩ := h
  exact ⟨h1, h2, h3, rfl, h5, h6⟩

theorem SimM.numberBody (H : SaySim C D R Q) : SimM R Q (Msg.numberBody C) (Msg.numberBody D) := by
  unfold Msg.numberBody
  exact SimM.bind SimM.cur fun c => SimM.ite
      (SimM.bind (SimM.readNext H) fun d => SimM.ite (SimM.scanFloat H) (SimM.ite (SimM.fail _) (SimM.pure _)))
      (SimM.scanInteger H)

theorem SimM.scanNumber (H : SaySim C D R Q) : SimM R Q (Msg.scanNumber C) (Msg.scanNumber D) := by
  unfold Msg.scanNumber
  refine SimM.bind (SimM.modify fun s t h => ?_) fun _ => SimM.bind SimM.cur fun c => SimM.ite
    (SimM.bind (SimM.modify fun s t h => ?_) fun _ => SimM.bind (SimM.readNext H) fun _ => SimM.numberBody H)
    (SimM.numberBody H)
  · obtain ⟨h1, h2, h3, h4, h5, h6⟩ := h
    exact ⟨h1, h2, rfl, rfl, h5, h6⟩
  · obtain ⟨h1, h2, h3, h4, h5, h6⟩ := h
    exact ⟨h1, h2, rfl, h4, h5, h6⟩

theorem SimM.single (H : SaySim C D R Q) (t : Token) : SimM R Q (Msg.single C t) (Msg.single D t) :=
  SimM.bind (SimM.readNext H) fun _ => SimM.pure _

theorem SimM.scan (H : SaySim C D R Q) : SimM R Q (Msg.scan C) (Msg.scan D) := by
  unfold Msg.scan
  exact SimM.bind (SimM.skipSpaces H _ _ H.bound) fun _ => SimM.bind (SimM.eof H) fun b => SimM.ite (SimM.pure _) <|
    SimM.bind SimM.cur fun _ =>
    SimM.ite (SimM.single H _) <| SimM.ite (SimM.single H _) <| SimM.ite (SimM.single H _) <|
    SimM.ite (SimM.single H _) <| SimM.ite (SimM.single H _) <| SimM.ite (SimM.single H _) <|
    SimM.ite (SimM.scanLiteral H _ _) <| SimM.ite (SimM.scanLiteral H _ _) <|
    SimM.ite (SimM.scanLiteral H _ _) <| SimM.ite (SimM.pure _) <| SimM.ite (SimM.scanNumber H) <|
    SimM.ite (SimM.pure _) (SimM.fail _)

/-! ## The parser -/

/-- Related results of `do_parse`. -/
def PSimM (R : S → T → Prop) (Q : Nat → Prop) (r : Msg.PRes S F) (q : Msg.PRes T F) : Prop :=
  (∃ e m m' s t v v', r = (.error (e, m), s, v) ∧ q = (.error (e, m'), t, v') ∧ MsgSim Q m m') ∨
    ∃ s t v, r = (.ok (), s, v) ∧ q = (.ok (), t, v) ∧ LexSim (fun _ => R) s t

theorem PSimM.error {e : Stop × List Nat} {s : Lex S F} {t : Lex T F} {v v' : Value F}
    (h : OtherMsg e.2 := by first | exact Or.inl rfl | exact Or.inr ⟨_, rfl, fun h => by cases h⟩) :
    PSimM R Q (.error e, s, v) (.error e, t, v') :=
  Or.inl ⟨e.1, e.2, e.2, s, t, v, v', rfl, rfl, Or.inl ⟨rfl, h⟩⟩

theorem PSimM.error' {e : Stop} {m m' : List Nat} {s : Lex S F} {t : Lex T F} {v v' : Value F} (h : MsgSim Q m m') :
    PSimM R Q (.error (e, m), s, v) (.error (e, m'), t, v') :=
  Or.inl ⟨e, m, m', s, t, v, v', rfl, rfl, h⟩

theorem PSimM.ok {s : Lex S F} {t : Lex T F} {v : Value F} (h : LexSim (fun _ => R) s t) :
    PSimM R Q (.ok (), s, v) (.ok (), t, v) :=
  Or.inr ⟨s, t, v, rfl, rfl, h⟩

theorem msg_doParse_scan (C : Cfg S F) (n : Nat) (c : Value F) (s : Lex S F) :
    Msg.doParse C (n + 1) c none s = match Msg.scan C s with
      | (.error e, s) => (.error e, s, c)
      | (.ok t, s) => Msg.doParse C (n + 1) c (some t) s := by
  unfold Msg.doParse
  simp only
  rcases hs : Msg.scan C s with ⟨_ | t, s'⟩
  · rfl
  · simp only

theorem parser_says (H : SaySim C D R Q) (n : Nat) :
    (∀ c tok s t, LexSim (fun _ => R) s t → PSimM R Q (Msg.doParse C n c tok s) (Msg.doParse D n c tok t)) ∧
    (∀ xs s t, LexSim (fun _ => R) s t → PSimM R Q (Msg.parseArray C n xs s) (Msg.parseArray D n xs t)) ∧
    (∀ ms s t, LexSim (fun _ => R) s t → PSimM R Q (Msg.parseObject C n ms s) (Msg.parseObject D n ms t)) := by
  induction n with
  | zero =>
    refine ⟨fun _ _ _ _ _ => ?_, fun _ _ _ _ => ?_, fun _ _ _ _ => ?_⟩
    · unfold Msg.doParse; exact PSimM.error
    · unfold Msg.parseArray; exact PSimM.error
    · unfold Msg.parseObject; exact PSimM.error
  | succ n ih =>
    obtain ⟨ih1, ih2, ih3⟩ := ih
    refine ⟨?_, ?_, ?_⟩
    · intro c tok s t h
      have step : ∀ tk s t, LexSim (fun _ => R) s t →
          PSimM R Q (Msg.doParse C (n + 1) c (some tk) s) (Msg.doParse D (n + 1) c (some tk) t) := by
        intro tk s t h
        have hi : getInteger s = getInteger t := by
          unfold getInteger; rw [h.2.2.1, h.2.2.2.1]
        have hfl : getFloat C s = getFloat D t := by
          unfold getFloat; rw [h.2.2.1, h.2.2.2.2.1, H.fo]
        unfold Msg.doParse
        cases tk <;> simp only
        case literalTrue => exact PSimM.ok h
        case literalFalse => exact PSimM.ok h
        case literalNull => exact PSimM.ok h
        case valueInteger => rw [hi]; exact PSimM.ok h
        case valueFloat => rw [hfl]; exact PSimM.ok h
        case beginArray => exact ih2 [] s t h
        case beginObject => exact ih3 [] s t h
        case valueString =>
          rcases SimM.scanString H s t h with ⟨e, m, m', s', t', hr, hq, hm⟩ | ⟨a, s', t', hr, hq, hl⟩
          · rw [hr, hq]; exact PSimM.error' hm
          · rw [hr, hq]; simp only; rw [hl.2.2.2.2.2]; exact PSimM.ok hl
        all_goals exact PSimM.error
      cases tok with
      | some tk => exact step tk s t h
      | none =>
        rw [msg_doParse_scan, msg_doParse_scan]
        rcases SimM.scan H s t h with ⟨e, m, m', s', t', hr, hq, hm⟩ | ⟨a, s', t', hr, hq, hl⟩
        · rw [hr, hq]; exact PSimM.error' hm
        · rw [hr, hq]; exact step a s' t' hl
    · intro xs s t h
      unfold Msg.parseArray
      rcases SimM.scan H s t h with ⟨e, m, m', s', t', hr, hq, hm⟩ | ⟨a, s', t', hr, hq, hl⟩
      · rw [hr, hq]; exact PSimM.error' hm
      rw [hr, hq]; simp only
      split
      · rcases ih1 .null (some a) s' t' hl with ⟨e, m, m', s', t', v, v', hr, hq, hm⟩ | ⟨s', t', v, hr, hq, hl⟩
        · rw [hr, hq]; exact PSimM.error' hm
        rw [hr, hq]; simp only
        rcases SimM.scan H s' t' hl with ⟨e, m, m', s', t', hr, hq, hm⟩ | ⟨a, s', t', hr, hq, hl⟩
        · rw [hr, hq]; exact PSimM.error' hm
        rw [hr, hq]; simp only
        split
        · exact ih2 _ s' t' hl
        split
        · exact PSimM.ok hl
        · exact PSimM.error
      split
      · exact PSimM.ok hl
      · exact PSimM.error
    · intro ms s t h
      unfold Msg.parseObject
      rcases SimM.scan H s t h with ⟨e, m, m', s', t', hr, hq, hm⟩ | ⟨a, s', t', hr, hq, hl⟩
      · rw [hr, hq]; exact PSimM.error' hm
      rw [hr, hq]; simp only
      split
      · rcases SimM.scanString H s' t' hl with ⟨e, m, m', s', t', hr, hq, hm⟩ | ⟨_, s', t', hr, hq, hl⟩
        · rw [hr, hq]; exact PSimM.error' hm
        rw [hr, hq]; simp only
        have hout : s'.out = t'.out := hl.2.2.2.2.2
        rw [hout]
        rcases SimM.scan H s' t' hl with ⟨e, m, m', s', t', hr, hq, hm⟩ | ⟨a, s'', t'', hr, hq, hl⟩
        · rw [hr, hq]; exact PSimM.error' hm
        rw [hr, hq]; simp only
        split
        · rcases ih1 .null none s'' t'' hl with ⟨e, m, m', s', t', v, v', hr, hq, hm⟩ | ⟨s', t', v, hr, hq, hl⟩
          · rw [hr, hq]; exact PSimM.error' hm
          rw [hr, hq]; simp only
          rcases SimM.scan H s' t' hl with ⟨e, m, m', s', t', hr, hq, hm⟩ | ⟨a, s', t', hr, hq, hl⟩
          · rw [hr, hq]; exact PSimM.error' hm
          rw [hr, hq]; simp only
          split
          · exact ih3 _ s' t' hl
          split
          · exact PSimM.ok hl
          · exact PSimM.error
        split
        · exact PSimM.ok hl
        · exact PSimM.error
      split
      · exact PSimM.ok hl
      · exact PSimM.error

theorem parseBody_says (H : SaySim C D R Q) (n : Nat) (c : Value F) {s : Lex S F} {t : Lex T F} (h : LexSim (fun _ => R) s t) :
    PSimM R Q (Msg.parseBody C n c s) (Msg.parseBody D n c t) := by
  unfold Msg.parseBody
  rcases (parser_says H n).1 c none s t h with ⟨e, m, m', s', t', v, v', hr, hq, hm⟩ | ⟨s', t', v, hr, hq, hl⟩
  · rw [hr, hq]; exact PSimM.error' hm
  rw [hr, hq]; simp only
  rcases SimM.scan H s' t' hl with ⟨e, m, m', s', t', hr, hq, hm⟩ | ⟨a, s', t', hr, hq, hl⟩
  · rw [hr, hq]; exact PSimM.error' hm
  rw [hr, hq]; simp only
  split
  · exact PSimM.ok hl
  · exact PSimM.error

theorem parse_says (H : SaySim C D R Q) (n : Nat) (c : Value F) {s : Lex S F} {t : Lex T F} (h : LexSim (fun _ => R) s t) :
    PSimM R Q (Msg.parse C n c s) (Msg.parse D n c t) := by
  unfold Msg.parse
  rcases SimM.readNext H s t h with ⟨e, m, m', s', t', hr, hq, hm⟩ | ⟨a, s', t', hr, hq, hl⟩
  · rw [hr, hq]; exact PSimM.error' hm
  rw [hr, hq]; simp only
  exact parseBody_says H n c hl

end Configor
