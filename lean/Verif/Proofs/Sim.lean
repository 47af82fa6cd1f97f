import Verif.Model.Parser
/-!
Simulation between two parses of the same code points, from different sources and with
different loop bounds: if the left one does not run out of its bound, the right one does the
same.
-/
namespace Configor
open Lexer

variable {S T F α β : Type}

/-- Sources that deliver the same code points. -/
structure SrcSim (A : Src S) (B : Src T) (R : S → T → Prop) : Prop where
  eof : ∀ {a b}, R a b → A.eof a = B.eof b
  flag : ∀ {a b}, R a b → (A.decode a).1 = (B.decode b).1
  good : ∀ {a b}, R a b → (A.decode a).1 = true →
    A.good (A.decode a).2.2 = B.good (B.decode b).2.2
  cp : ∀ {a b}, R a b → (A.decode a).1 = true → A.good (A.decode a).2.2 = true →
    (A.decode a).2.1 = (B.decode b).2.1 ∧ R (A.decode a).2.2 (B.decode b).2.2
  fin : ∀ {a b}, R a b → (A.decode a).1 = false → R (A.decode a).2.2 (B.decode b).2.2

/-- Equal up to the stream. -/
def DataEq (s : Lex S F) (t : Lex T F) : Prop :=
  s.neg = t.neg ∧ s.numI = t.numI ∧ s.numF = t.numF ∧ s.out = t.out

/-- Related scanner states; how the streams are related may depend on the current character. -/
def LexSim (R : Nat → S → T → Prop) (s : Lex S F) (t : Lex T F) : Prop :=
  R s.cur s.is t.is ∧ s.cur = t.cur ∧ DataEq s t

/-- Related results: the left one ran out of its bound, or the right one did for the reason `E`,
or both are the same. -/
def ResSim (R : Nat → S → T → Prop) (E : Prop) (r : Except Stop α × Lex S F) (q : Except Stop α × Lex T F) : Prop :=
  r.1 = .error .fuel ∨ (E ∧ q.1 = .error .fuel) ∨
    (r.1 = q.1 ∧ DataEq r.2 q.2 ∧ ((∃ a, r.1 = .ok a) → LexSim R r.2 q.2))

/-- Related computations. -/
def Sim (R : Nat → S → T → Prop) (E : Prop) (m : L S F α) (k : L T F α) : Prop :=
  ∀ s t, LexSim R s t → ResSim R E (m s) (k t)

variable {R : Nat → S → T → Prop} {E : Prop}

theorem Sim.pure (a : α) : Sim (F := F) R E (Pure.pure a) (Pure.pure a) := by
  intro s t h
  exact Or.inr (Or.inr ⟨rfl, h.2.2, fun _ => h⟩)

theorem Sim.stop (e : Stop) : Sim (F := F) (α := α) R E (M.stop e) (M.stop e) := by
  intro s t h
  exact Or.inr (Or.inr ⟨rfl, h.2.2, fun ⟨a, h⟩ => by simp [M.stop] at h⟩)

theorem Sim.fuel (k : L T F α) : Sim (F := F) R E (M.stop .fuel) k := by
  intro s t _
  exact Or.inl rfl

theorem Sim.fail : Sim (F := F) (α := α) R E fail fail := Sim.stop _

theorem Sim.bind {m : L S F α} {k : L T F α} {f : α → L S F β} {g : α → L T F β}
    (h : Sim R E m k) (hf : ∀ a, Sim R E (f a) (g a)) : Sim R E (m >>= f) (k >>= g) := by
  intro s t hs
  have h1 := h s t hs
  simp only [M.bind_def]
  rcases hm : m s with ⟨r, s'⟩
  rcases hk : k t with ⟨q, t'⟩
  rw [hm, hk] at h1
  rcases h1 with h1 | ⟨hE, h1⟩ | ⟨h1, h2, h3⟩
  · simp only at h1; subst h1; exact Or.inl rfl
  · simp only at h1; subst h1; exact Or.inr (Or.inl ⟨hE, rfl⟩)
  · simp only at h1 h2 h3; subst h1
    cases r with
    | error e => exact Or.inr (Or.inr ⟨rfl, h2, fun ⟨a, h⟩ => by simp at h⟩)
    | ok a => exact hf a s' t' (h3 ⟨a, rfl⟩)

theorem Sim.gets {f : Lex S F → α} {g : Lex T F → α} (h : ∀ s t, LexSim R s t → f s = g t) :
    Sim R E (M.gets f) (M.gets g) := by
  intro s t hs
  exact Or.inr (Or.inr ⟨by simp [M.gets, h s t hs], hs.2.2, fun _ => hs⟩)

theorem Sim.modify {f : Lex S F → Lex S F} {g : Lex T F → Lex T F}
    (h : ∀ s t, LexSim R s t → LexSim R (f s) (g t)) :
    Sim R E (M.modify f) (M.modify g) := by
  intro s t hs
  exact Or.inr (Or.inr ⟨rfl, (h s t hs).2.2, fun _ => h s t hs⟩)

theorem Sim.cur : Sim (F := F) R E Lexer.cur Lexer.cur := Sim.gets fun _ _ h => h.2.1

theorem Sim.ite {c : Prop} [Decidable c] {m m' : L S F α} {k k' : L T F α}
    (h : Sim R E m k) (h' : Sim R E m' k') :
    Sim R E (if c then m else m') (if c then k else k') := by
  split
  · exact h
  · exact h'

/-- Configurations that differ only in the source and the bound. -/
structure CfgSim (C : Cfg S F) (D : Cfg T F) (R : S → T → Prop) : Prop where
  src : SrcSim C.src D.src R
  enc : C.enc = D.enc
  w : C.w = D.w
  debug : C.debug = D.debug
  fo : C.fo = D.fo
  bound : C.bound ≤ D.bound

/-- Configurations whose reads are related. -/
structure NextSim (C : Cfg S F) (D : Cfg T F) (R : Nat → S → T → Prop) (E : Prop) : Prop where
  next : Sim R E (Lexer.readNext C) (Lexer.readNext D)
  enc : C.enc = D.enc
  w : C.w = D.w
  debug : C.debug = D.debug
  fo : C.fo = D.fo
  bound : C.bound ≤ D.bound

/-- And that see the end of the input at the same time. -/
structure EofSim (C : Cfg S F) (D : Cfg T F) (R : Nat → S → T → Prop) (E : Prop) : Prop extends
    NextSim C D R E where
  atEof : Sim R E (Lexer.eof C) (Lexer.eof D)

variable {C : Cfg S F} {D : Cfg T F}

theorem CfgSim.eofSim {R : S → T → Prop} (H : CfgSim C D R) : EofSim C D (fun _ => R) E where
  next := by
    intro s t h
    unfold Lexer.readNext
    simp only
    have hf := H.src.flag h.1
    cases hc : (C.src.decode s.is).1 with
    | false =>
      rw [hc] at hf
      rw [← hf]
      simp only [Bool.false_eq_true, if_false]
      exact Or.inr (Or.inr ⟨rfl, h.2.2, fun _ => ⟨H.src.fin h.1 hc, rfl, h.2.2⟩⟩)
    | true =>
      rw [hc] at hf
      rw [← hf]
      simp only [if_true]
      have hg := H.src.good h.1 hc
      cases hgd : C.src.good (C.src.decode s.is).2.2 with
      | false =>
        rw [hgd] at hg
        rw [← hg]
        simp only [Bool.false_eq_true, if_false]
        exact Or.inr (Or.inr ⟨rfl, h.2.2, fun ⟨a, h⟩ => by simp at h⟩)
      | true =>
        rw [hgd] at hg
        rw [← hg]
        have hcp := H.src.cp h.1 hc hgd
        simp only [if_true]
        exact Or.inr (Or.inr ⟨by rw [hcp.1], h.2.2, fun _ => ⟨hcp.2, hcp.1, h.2.2⟩⟩)
  enc := H.enc
  w := H.w
  debug := H.debug
  fo := H.fo
  bound := H.bound
  atEof := Sim.gets fun _ _ h => H.src.eof h.1

theorem Sim.eof (H : EofSim C D R E) : Sim R E (Lexer.eof C) (Lexer.eof D) := H.atEof

theorem Sim.readNext (H : NextSim C D R E) : Sim R E (Lexer.readNext C) (Lexer.readNext D) := H.next

theorem Sim.skipBlanks (H : NextSim C D R E) (n m : Nat) (hn : n ≤ m) :
    Sim R E (Lexer.skipBlanks C n) (Lexer.skipBlanks D m) := by
  induction n generalizing m with
  | zero => exact Sim.fuel _
  | succ n ih =>
    obtain ⟨m, rfl⟩ : ∃ k, m = k + 1 := ⟨m - 1, by omega⟩
    unfold Lexer.skipBlanks
    exact Sim.bind Sim.cur fun c => Sim.ite (Sim.bind (Sim.readNext H) fun _ => ih m (by omega)) (Sim.pure _)

theorem Sim.lineComment (H : EofSim C D R E) (n m : Nat) (hn : n ≤ m) :
    Sim R E (Lexer.lineComment C n) (Lexer.lineComment D m) := by
  induction n generalizing m with
  | zero => exact Sim.fuel _
  | succ n ih =>
    obtain ⟨m, rfl⟩ : ∃ k, m = k + 1 := ⟨m - 1, by omega⟩
    unfold Lexer.lineComment
    exact Sim.bind (Sim.readNext H.toNextSim) fun c => Sim.ite (Sim.pure _)
      (Sim.bind (Sim.eof H) fun b => Sim.ite (Sim.pure _) (ih m (by omega)))

theorem Sim.blockComment (H : EofSim C D R E) (n m : Nat) (hn : n ≤ m) :
    Sim R E (Lexer.blockComment C n) (Lexer.blockComment D m) := by
  induction n generalizing m with
  | zero => exact Sim.fuel _
  | succ n ih =>
    obtain ⟨m, rfl⟩ : ∃ k, m = k + 1 := ⟨m - 1, by omega⟩
    unfold Lexer.blockComment
    have hi := ih m (by omega)
    have ht : Sim R E (do if (← Lexer.eof C) then Lexer.fail else Lexer.blockComment C n)
        (do if (← Lexer.eof D) then Lexer.fail else Lexer.blockComment D m) :=
      Sim.bind (Sim.eof H) fun b => Sim.ite Sim.fail hi
    exact Sim.bind (Sim.readNext H.toNextSim) fun c => Sim.ite
      (Sim.bind (Sim.readNext H.toNextSim) fun d => Sim.ite (Sim.bind (Sim.readNext H.toNextSim) fun _ => Sim.pure _) ht) ht

theorem Sim.skipSpaces (H : EofSim C D R E) (n m : Nat) (hn : n ≤ m) :
    Sim R E (Lexer.skipSpaces C n) (Lexer.skipSpaces D m) := by
  induction n generalizing m with
  | zero => exact Sim.fuel _
  | succ n ih =>
    obtain ⟨m, rfl⟩ : ∃ k, m = k + 1 := ⟨m - 1, by omega⟩
    unfold Lexer.skipSpaces
    have hi := ih m (by omega)
    exact Sim.bind (Sim.skipBlanks H.toNextSim _ _ H.bound) fun _ => Sim.bind Sim.cur fun c => Sim.ite
      (Sim.bind (Sim.readNext H.toNextSim) fun c => Sim.ite
        (Sim.bind (Sim.lineComment H _ _ H.bound) fun b => Sim.ite hi (Sim.pure _))
        (Sim.ite (Sim.bind (Sim.blockComment H _ _ H.bound) fun _ => hi) Sim.fail))
      (Sim.pure _)

theorem Sim.scanLiteral (H : NextSim C D R E) (text : List Nat) (tok : Token) :
    Sim R E (Lexer.scanLiteral C text tok) (Lexer.scanLiteral D text tok) := by
  induction text with
  | nil => exact Sim.pure _
  | cons ch text ih =>
    unfold Lexer.scanLiteral
    rw [H.w]
    exact Sim.bind Sim.cur fun c => Sim.ite Sim.fail (Sim.bind (Sim.readNext H) fun _ => ih)

theorem Sim.assert (H : NextSim C D R E) (b : Bool) : Sim R E (Lexer.assert C b) (Lexer.assert D b) := by
  unfold Lexer.assert
  rw [H.debug]
  exact Sim.ite (Sim.stop _) (Sim.pure _)

theorem isDigit_congr (H : NextSim C D R E) (c : Nat) : Lexer.isDigit C c = Lexer.isDigit D c := by
  unfold Lexer.isDigit; rw [H.w]

theorem Sim.readEscapedLoop (H : NextSim C D R E) (fs : List Nat) (code : Nat) :
    Sim R E (Lexer.readEscapedLoop C fs code) (Lexer.readEscapedLoop D fs code) := by
  induction fs generalizing code with
  | nil => exact Sim.pure _
  | cons f fs ih =>
    unfold Lexer.readEscapedLoop
    refine Sim.bind (Sim.readNext H) fun c => ?_
    cases hexVal c with
    | none => exact Sim.fail
    | some d => exact ih _

theorem Sim.putCp (H : NextSim C D R E) (cp : Nat) : Sim R E (Lexer.putCp C cp) (Lexer.putCp D cp) := by
  unfold Lexer.putCp
  rw [H.enc]
  refine Sim.bind (Sim.modify fun s t h => ?_) fun _ => Sim.bind (Sim.gets fun s t h => ?_) fun b =>
    Sim.ite (Sim.pure _) Sim.fail
  · obtain ⟨h1, h2, h3, h4, h5, h6⟩ := h
    exact ⟨h1, h2, h3, h4, h5, by simp only; rw [h6]⟩
  · rw [h.2.2.2.2.2]

theorem Sim.putAscii (c : Nat) : Sim (F := F) R E (Lexer.putAscii c) (Lexer.putAscii c) := by
  refine Sim.modify fun s t h => ?_
  obtain ⟨h1, h2, h3, h4, h5, h6⟩ := h
  exact ⟨h1, h2, h3, h4, h5, by simp only; rw [h6]⟩

theorem Sim.scanUnicodeEscape (H : NextSim C D R E) :
    Sim R E (Lexer.scanUnicodeEscape C) (Lexer.scanUnicodeEscape D) := by
  unfold Lexer.scanUnicodeEscape Lexer.readEscaped
  exact Sim.bind (Sim.readEscapedLoop H _ _) fun cp => Sim.ite
    (Sim.bind (Sim.readNext H) fun a => Sim.ite Sim.fail
      (Sim.bind (Sim.readNext H) fun b => Sim.ite Sim.fail
        (Sim.bind (Sim.readEscapedLoop H _ _) fun tr => Sim.ite Sim.fail (Sim.putCp H _))))
    (Sim.putCp H _)

theorem Sim.scanEscape (H : NextSim C D R E) : Sim R E (Lexer.scanEscape C) (Lexer.scanEscape D) := by
  unfold Lexer.scanEscape
  exact Sim.bind (Sim.readNext H) fun c =>
    Sim.ite (Sim.putAscii _) <| Sim.ite (Sim.putAscii _) <| Sim.ite (Sim.putAscii _) <|
    Sim.ite (Sim.putAscii _) <| Sim.ite (Sim.putAscii _) <| Sim.ite (Sim.putAscii _) <|
    Sim.ite (Sim.putAscii _) <| Sim.ite (Sim.putAscii _) <|
    Sim.ite (Sim.scanUnicodeEscape H) Sim.fail

/-- One character `c` of a string literal, given the loop that reads the others. -/
def stringTail (C : Cfg S F) (loop : L S F Unit) (c : Nat) : L S F Unit := do
  if c == 0x22 then
    let _ ← Lexer.readNext C
    pure ()
  else if c ≤ 0x1F then Lexer.fail
  else if c == 0x5C then
    Lexer.scanEscape C
    loop
  else
    Lexer.putCp C c
    loop

theorem stringLoop_succ (C : Cfg S F) (n : Nat) :
    Lexer.stringLoop C (n + 1) = (do
      let c ← Lexer.readNext C
      if (← Lexer.eof C) then Lexer.fail else stringTail C (Lexer.stringLoop C n) c) := rfl

theorem Sim.stringTail (H : NextSim C D R E) {m : L S F Unit} {k : L T F Unit} (h : Sim R E m k) (c : Nat) :
    Sim R E (Configor.stringTail C m c) (Configor.stringTail D k c) :=
  Sim.ite (Sim.bind (Sim.readNext H) fun _ => Sim.pure _) <| Sim.ite Sim.fail <|
    Sim.ite (Sim.bind (Sim.scanEscape H) fun _ => h) (Sim.bind (Sim.putCp H _) fun _ => h)

theorem Sim.stringLoop (H : EofSim C D R E) (n m : Nat) (hn : n ≤ m) :
    Sim R E (Lexer.stringLoop C n) (Lexer.stringLoop D m) := by
  induction n generalizing m with
  | zero => exact Sim.fuel _
  | succ n ih =>
    obtain ⟨m, rfl⟩ : ∃ k, m = k + 1 := ⟨m - 1, by omega⟩
    rw [stringLoop_succ, stringLoop_succ]
    exact Sim.bind (Sim.readNext H.toNextSim) fun c => Sim.bind (Sim.eof H) fun b => Sim.ite Sim.fail <|
      Sim.stringTail H.toNextSim (ih m (by omega)) c

theorem Sim.scanString (H : NextSim C D R E)
    (hl : Sim R E (Lexer.stringLoop C C.bound) (Lexer.stringLoop D D.bound)) : Sim R E (Lexer.scanString C) (Lexer.scanString D) := by
  unfold Lexer.scanString
  refine Sim.bind (Sim.modify fun s t h => ?_) fun _ => Sim.bind Sim.cur fun c => Sim.bind (Sim.assert H _) fun _ => hl
  obtain ⟨h1, h2, h3, h4, h5, h6⟩ := h
  exact ⟨h1, h2, h3, h4, h5, rfl⟩

theorem Sim.setF (f : F → F) : Sim R E (Lexer.setF f) (Lexer.setF f) := by
  refine Sim.modify fun s t h => ?_
  obtain ⟨h1, h2, h3, h4, h5, h6⟩ := h
  exact ⟨h1, h2, h3, h4, by simp only; rw [h5], h6⟩

theorem Sim.exponentDigits (H : NextSim C D R E) (n m : Nat) (hn : n ≤ m) (e : Nat) :
    Sim R E (Lexer.exponentDigits C n e) (Lexer.exponentDigits D m e) := by
  induction n generalizing m e with
  | zero => exact Sim.fuel _
  | succ n ih =>
    obtain ⟨m, rfl⟩ : ∃ k, m = k + 1 := ⟨m - 1, by omega⟩
    unfold Lexer.exponentDigits
    refine Sim.bind (Sim.readNext H) fun c => ?_
    rw [isDigit_congr H]
    exact Sim.ite (ih m (by omega) _) (Sim.pure _)

theorem powLoop_congr (H : NextSim C D R E) (n e : Nat) (b p : F) :
    Lexer.powLoop C n e b p = Lexer.powLoop D n e b p := by
  induction n generalizing e b p with
  | zero => rfl
  | succ n ih => unfold Lexer.powLoop; rw [H.fo]; split <;> simp [ih]

theorem Sim.exponentValue (H : NextSim C D R E) (neg : Bool) :
    Sim R E (Lexer.exponentValue C neg) (Lexer.exponentValue D neg) := by
  unfold Lexer.exponentValue
  refine Sim.bind Sim.cur fun c' => Sim.bind (Sim.exponentDigits H _ _ H.bound _) fun e => ?_
  simp only [powLoop_congr H, H.fo]
  exact Sim.bind (Sim.setF _) fun _ => Sim.pure _

theorem Sim.scanExponent (H : NextSim C D R E) : Sim R E (Lexer.scanExponent C) (Lexer.scanExponent D) := by
  unfold Lexer.scanExponent
  refine Sim.bind Sim.cur fun c0 => Sim.bind (Sim.assert H _) fun _ =>
    Sim.bind (Sim.readNext H) fun c => ?_
  rw [isDigit_congr H]
  exact Sim.ite Sim.fail (Sim.ite (Sim.bind (Sim.readNext H) fun _ => Sim.exponentValue H _)
    (Sim.exponentValue H _))

theorem Sim.fractionLoop (H : NextSim C D R E) (n m : Nat) (hn : n ≤ m) (f : F) :
    Sim R E (Lexer.fractionLoop C n f) (Lexer.fractionLoop D m f) := by
  induction n generalizing m f with
  | zero => exact Sim.fuel _
  | succ n ih =>
    obtain ⟨m, rfl⟩ : ∃ k, m = k + 1 := ⟨m - 1, by omega⟩
    unfold Lexer.fractionLoop
    refine Sim.bind (Sim.readNext H) fun c => Sim.ite (Sim.scanExponent H) ?_
    rw [isDigit_congr H, H.fo]
    exact Sim.ite (Sim.bind (Sim.setF _) fun _ => ih m (by omega) _) (Sim.pure _)

theorem Sim.scanFloat (H : NextSim C D R E) : Sim R E (Lexer.scanFloat C) (Lexer.scanFloat D) := by
  unfold Lexer.scanFloat
  refine Sim.bind (Sim.modify fun s t h => ?_) fun _ => Sim.bind Sim.cur fun c0 =>
    Sim.ite (Sim.scanExponent H) (Sim.bind (Sim.assert H _) fun _ => Sim.bind (Sim.readNext H) fun c => ?_)
  · obtain ⟨h1, h2, h3, h4, h5, h6⟩ := h
    exact ⟨h1, h2, h3, h4, by simp only; rw [h4, H.fo], h6⟩
  · rw [isDigit_congr H, H.fo]
    exact Sim.ite Sim.fail (Sim.bind (Sim.setF _) fun _ => Sim.fractionLoop H _ _ H.bound _)

theorem Sim.integerLoop (H : NextSim C D R E) (n m : Nat) (hn : n ≤ m) :
    Sim R E (Lexer.integerLoop C n) (Lexer.integerLoop D m) := by
  induction n generalizing m with
  | zero => exact Sim.fuel _
  | succ n ih =>
    obtain ⟨m, rfl⟩ : ∃ k, m = k + 1 := ⟨m - 1, by omega⟩
    unfold Lexer.integerLoop
    refine Sim.bind (Sim.readNext H) fun c => Sim.ite (Sim.scanFloat H) ?_
    rw [isDigit_congr H]
    refine Sim.ite (Sim.bind (Sim.gets fun s t h => h.2.2.2.1) fun v => Sim.ite (Sim.stop _)
      (Sim.bind (Sim.modify fun s t h => ?_) fun _ => ih m (by omega))) (Sim.pure _)
    obtain ⟨h1, h2, h3, h4, h5, h6⟩ := h
    exact ⟨h1, h2, h3, rfl, h5, h6⟩

theorem Sim.scanInteger (H : NextSim C D R E) : Sim R E (Lexer.scanInteger C) (Lexer.scanInteger D) := by
  unfold Lexer.scanInteger
  refine Sim.bind Sim.cur fun c => ?_
  rw [isDigit_congr H]
  refine Sim.bind (Sim.assert H _) fun _ => Sim.bind (Sim.modify fun s t h => ?_) fun _ =>
    Sim.integerLoop H _ _ H.bound
  obtain ⟨h1, h2, h3, h4, h5, h6⟩ := h
  exact ⟨h1, h2, h3, rfl, h5, h6⟩

theorem Sim.numberBody (H : NextSim C D R E) : Sim R E (Lexer.numberBody C) (Lexer.numberBody D) := by
  unfold Lexer.numberBody
  exact Sim.bind Sim.cur fun c => Sim.ite
      (Sim.bind (Sim.readNext H) fun d => Sim.ite (Sim.scanFloat H) (Sim.ite Sim.fail (Sim.pure _)))
      (Sim.scanInteger H)

theorem Sim.scanNumber (H : NextSim C D R E) : Sim R E (Lexer.scanNumber C) (Lexer.scanNumber D) := by
  unfold Lexer.scanNumber
  refine Sim.bind (Sim.modify fun s t h => ?_) fun _ => Sim.bind Sim.cur fun c => Sim.ite
    (Sim.bind (Sim.modify fun s t h => ?_) fun _ => Sim.bind (Sim.readNext H) fun _ => Sim.numberBody H)
    (Sim.numberBody H)
  · obtain ⟨h1, h2, h3, h4, h5, h6⟩ := h
    exact ⟨h1, h2, rfl, rfl, h5, h6⟩
  · obtain ⟨h1, h2, h3, h4, h5, h6⟩ := h
    exact ⟨h1, h2, rfl, h4, h5, h6⟩

theorem Sim.single (H : NextSim C D R E) (t : Token) : Sim R E (Lexer.single C t) (Lexer.single D t) :=
  Sim.bind (Sim.readNext H) fun _ => Sim.pure _

/-- `scan` after the gap, not at the end of the input. -/
def scanTail (C : Cfg S F) : L S F Token := do
  let c ← Lexer.cur
  if c == 0x5B then Lexer.single C .beginArray
  else if c == 0x5D then Lexer.single C .endArray
  else if c == 0x7B then Lexer.single C .beginObject
  else if c == 0x7D then Lexer.single C .endObject
  else if c == 0x3A then Lexer.single C .nameSeparator
  else if c == 0x2C then Lexer.single C .valueSeparator
  else if c == 0x74 then Lexer.scanLiteral C [0x74, 0x72, 0x75, 0x65] .literalTrue
  else if c == 0x66 then Lexer.scanLiteral C [0x66, 0x61, 0x6C, 0x73, 0x65] .literalFalse
  else if c == 0x6E then Lexer.scanLiteral C [0x6E, 0x75, 0x6C, 0x6C] .literalNull
  else if c == 0x22 then pure .valueString
  else if c == 0x2D || c == 0x2B || (0x30 ≤ c && c ≤ 0x39) then Lexer.scanNumber C
  else if c == 0 then pure .endOfInput
  else Lexer.fail

theorem scan_eq (C : Cfg S F) :
    Lexer.scan C = (do
      Lexer.skipSpaces C C.bound
      if (← Lexer.eof C) then pure .endOfInput else scanTail C) := rfl

theorem Sim.scanTail (H : NextSim C D R E) : Sim R E (Configor.scanTail C) (Configor.scanTail D) :=
  Sim.bind Sim.cur fun _ =>
    Sim.ite (Sim.single H _) <| Sim.ite (Sim.single H _) <| Sim.ite (Sim.single H _) <|
    Sim.ite (Sim.single H _) <| Sim.ite (Sim.single H _) <| Sim.ite (Sim.single H _) <|
    Sim.ite (Sim.scanLiteral H _ _) <| Sim.ite (Sim.scanLiteral H _ _) <|
    Sim.ite (Sim.scanLiteral H _ _) <| Sim.ite (Sim.pure _) <| Sim.ite (Sim.scanNumber H) <|
    Sim.ite (Sim.pure _) Sim.fail

theorem Sim.scan (H : EofSim C D R E) : Sim R E (Lexer.scan C) (Lexer.scan D) := by
  rw [scan_eq, scan_eq]
  exact Sim.bind (Sim.skipSpaces H _ _ H.bound) fun _ => Sim.bind (Sim.eof H) fun b =>
    Sim.ite (Sim.pure _) (Sim.scanTail H.toNextSim)

/-! ## The parser -/

/-- Related results of `do_parse`. -/
def PSim (R : Nat → S → T → Prop) (E : Prop) (r : PRes S F) (q : PRes T F) : Prop :=
  r.1 = .error .fuel ∨ (E ∧ q.1 = .error .fuel) ∨
    (r.1 = q.1 ∧ r.2.2 = q.2.2 ∧ DataEq r.2.1 q.2.1 ∧ (r.1 = .ok () → LexSim R r.2.1 q.2.1))

theorem PSim.error {e : Stop} {s : Lex S F} {t : Lex T F} {v : Value F} (h : DataEq s t) :
    PSim R E (.error e, s, v) (.error e, t, v) :=
  Or.inr (Or.inr ⟨rfl, rfl, h, fun h => by simp at h⟩)

theorem PSim.ok {s : Lex S F} {t : Lex T F} {v : Value F} (h : LexSim R s t) :
    PSim R E (.ok (), s, v) (.ok (), t, v) :=
  Or.inr (Or.inr ⟨rfl, rfl, h.2.2, fun _ => h⟩)

/-- Case analysis on a pair of related computations. -/
theorem ResSim.elim {P : Prop} {r : Except Stop α × Lex S F} {q : Except Stop α × Lex T F}
    (h : ResSim R E r q)
    (hf : ∀ s, r = (.error .fuel, s) → P)
    (hx : E → ∀ t, q = (.error .fuel, t) → P)
    (he : ∀ e s t, r = (.error e, s) → q = (.error e, t) → DataEq s t → P)
    (ho : ∀ a s t, r = (.ok a, s) → q = (.ok a, t) → LexSim R s t → P) : P := by
  obtain ⟨r1, s⟩ := r
  obtain ⟨q1, t⟩ := q
  rcases h with h | ⟨hE, h⟩ | ⟨h1, h2, h3⟩
  · simp only at h; subst h; exact hf s rfl
  · simp only at h; subst h; exact hx hE t rfl
  · simp only at h1 h2 h3; subst h1
    cases r1 with
    | error e => exact he e s t rfl rfl h2
    | ok a => exact ho a s t rfl rfl (h3 ⟨a, rfl⟩)

theorem PSim.elim {P : Prop} {r : PRes S F} {q : PRes T F} (h : PSim R E r q)
    (hf : ∀ s v, r = (.error .fuel, s, v) → P)
    (hx : E → ∀ t v, q = (.error .fuel, t, v) → P)
    (he : ∀ e s t v, r = (.error e, s, v) → q = (.error e, t, v) → DataEq s t → P)
    (ho : ∀ s t v, r = (.ok (), s, v) → q = (.ok (), t, v) → LexSim R s t → P) : P := by
  obtain ⟨r1, s, v⟩ := r
  obtain ⟨q1, t, v'⟩ := q
  rcases h with h | ⟨hE, h⟩ | ⟨h1, h2, h3, h4⟩
  · simp only at h; subst h; exact hf s v rfl
  · simp only at h; subst h; exact hx hE t v' rfl
  · simp only at h1 h2 h3 h4; subst h1 h2
    cases r1 with
    | error e => exact he e s t v rfl rfl h3
    | ok a => exact ho s t v rfl rfl (h4 rfl)

theorem doParse_none (C : Cfg S F) (n : Nat) (c : Value F) (s : Lex S F) :
    doParse C (n + 1) c none s = match Lexer.scan C s with
      | (.error e, s) => (.error e, s, c)
      | (.ok t, s) => doParse C (n + 1) c (some t) s := by
  rw [doParse]
  simp only
  rcases hs : Lexer.scan C s with ⟨_ | t, s'⟩
  · rfl
  · simp only
    cases t <;> rw [doParse] <;> simp

/-- What the parser needs of the scanner. -/
structure ParserSim (C : Cfg S F) (D : Cfg T F) (R : Nat → S → T → Prop) (E : Prop) : Prop where
  scan : Sim R E (Lexer.scan C) (Lexer.scan D)
  string : Sim R E (Lexer.scanString C) (Lexer.scanString D)
  fo : C.fo = D.fo

theorem EofSim.parserSim (H : EofSim C D R E) : ParserSim C D R E :=
  ⟨Sim.scan H, Sim.scanString H.toNextSim (Sim.stringLoop H _ _ H.bound), H.fo⟩

theorem parser_sim (H : ParserSim C D R E) (n : Nat) : ∀ m, n ≤ m →
    (∀ c tok s t, LexSim R s t → PSim R E (doParse C n c tok s) (doParse D m c tok t)) ∧
    (∀ xs s t, LexSim R s t → PSim R E (parseArray C n xs s) (parseArray D m xs t)) ∧
    (∀ ms s t, LexSim R s t → PSim R E (parseObject C n ms s) (parseObject D m ms t)) := by
  induction n with
  | zero =>
    intro m _
    refine ⟨fun _ _ _ _ _ => Or.inl ?_, fun _ _ _ _ => Or.inl ?_, fun _ _ _ _ => Or.inl ?_⟩
    · simp [doParse]
    · simp [parseArray]
    · simp [parseObject]
  | succ n ih =>
    intro m hm
    obtain ⟨m, rfl⟩ : ∃ k, m = k + 1 := ⟨m - 1, by omega⟩
    obtain ⟨ih1, ih2, ih3⟩ := ih m (by omega)
    refine ⟨?_, ?_, ?_⟩
    · intro c tok s t h
      have step : ∀ tk s t, LexSim R s t →
          PSim R E (doParse C (n + 1) c (some tk) s) (doParse D (m + 1) c (some tk) t) := by
        intro tk s t h
        have hi : getInteger s = getInteger t := by
          unfold getInteger; rw [h.2.2.1, h.2.2.2.1]
        have hfl : getFloat C s = getFloat D t := by
          unfold getFloat; rw [h.2.2.1, h.2.2.2.2.1, H.fo]
        unfold doParse
        cases tk <;> simp only
        case literalTrue => exact PSim.ok h
        case literalFalse => exact PSim.ok h
        case literalNull => exact PSim.ok h
        case valueInteger => rw [hi]; exact PSim.ok h
        case valueFloat => rw [hfl]; exact PSim.ok h
        case beginArray => exact ih2 [] s t h
        case beginObject => exact ih3 [] s t h
        case valueString =>
          have := H.string s t h
          rcases this with h1 | ⟨hE, h1⟩ | ⟨h1, h2, h3⟩
          · exact Or.inl h1
          · exact Or.inr (Or.inl ⟨hE, h1⟩)
          · exact Or.inr (Or.inr ⟨h1, by rw [h2.2.2.2], h2, fun hok => h3 ⟨_, hok⟩⟩)
        all_goals exact PSim.error h.2.2
      cases tok with
      | some tk => exact step tk s t h
      | none =>
        rw [doParse_none, doParse_none]
        refine (H.scan s t h).elim ?_ ?_ ?_ ?_
        · intro s' hr; rw [hr]; exact Or.inl rfl
        · intro hE t' hq; rw [hq]; exact Or.inr (Or.inl ⟨hE, rfl⟩)
        · intro e s' t' hr hq hd; rw [hr, hq]; exact PSim.error hd
        · intro a s' t' hr hq hl; rw [hr, hq]; exact step a s' t' hl
    · intro xs s t h
      unfold parseArray
      refine (H.scan s t h).elim ?_ ?_ ?_ ?_
      · intro s' hr; rw [hr]; exact Or.inl rfl
      · intro hE t' hq; rw [hq]; exact Or.inr (Or.inl ⟨hE, rfl⟩)
      · intro e s' t' hr hq hd; rw [hr, hq]; exact PSim.error hd
      · intro a s' t' hr hq hl; rw [hr, hq]; simp only
        split
        · refine (ih1 .null (some a) s' t' hl).elim ?_ ?_ ?_ ?_
          · intro s' v hr; rw [hr]; exact Or.inl rfl
          · intro hE t' v hq; rw [hq]; exact Or.inr (Or.inl ⟨hE, rfl⟩)
          · intro e s' t' v hr hq hd; rw [hr, hq]; exact PSim.error hd
          · intro s' t' v hr hq hl; rw [hr, hq]; simp only
            refine (H.scan s' t' hl).elim ?_ ?_ ?_ ?_
            · intro s' hr; rw [hr]; exact Or.inl rfl
            · intro hE t' hq; rw [hq]; exact Or.inr (Or.inl ⟨hE, rfl⟩)
            · intro e s' t' hr hq hd; rw [hr, hq]; exact PSim.error hd
            · intro a s' t' hr hq hl; rw [hr, hq]; simp only
              split
              · exact ih2 _ s' t' hl
              · split
                · exact PSim.ok hl
                · exact PSim.error hl.2.2
        · split
          · exact PSim.ok hl
          · exact PSim.error hl.2.2
    · intro ms s t h
      unfold parseObject
      refine (H.scan s t h).elim ?_ ?_ ?_ ?_
      · intro s' hr; rw [hr]; exact Or.inl rfl
      · intro hE t' hq; rw [hq]; exact Or.inr (Or.inl ⟨hE, rfl⟩)
      · intro e s' t' hr hq hd; rw [hr, hq]; exact PSim.error hd
      · intro a s' t' hr hq hl; rw [hr, hq]; simp only
        split
        · refine (H.string s' t' hl).elim ?_ ?_ ?_ ?_
          · intro s' hr; rw [hr]; exact Or.inl rfl
          · intro hE t' hq; rw [hq]; exact Or.inr (Or.inl ⟨hE, rfl⟩)
          · intro e s' t' hr hq hd; rw [hr, hq]; exact PSim.error hd
          · intro _ s' t' hr hq hl; rw [hr, hq]; simp only
            have hout : s'.out = t'.out := hl.2.2.2.2.2
            rw [hout]
            refine (H.scan s' t' hl).elim ?_ ?_ ?_ ?_
            · intro s' hr; rw [hr]; exact Or.inl rfl
            · intro hE t' hq; rw [hq]; exact Or.inr (Or.inl ⟨hE, rfl⟩)
            · intro e s' t' hr hq hd; rw [hr, hq]; exact PSim.error hd
            · intro a s'' t'' hr hq hl; rw [hr, hq]; simp only
              split
              · refine (ih1 .null none s'' t'' hl).elim ?_ ?_ ?_ ?_
                · intro s' v hr; rw [hr]; exact Or.inl rfl
                · intro hE t' v hq; rw [hq]; exact Or.inr (Or.inl ⟨hE, rfl⟩)
                · intro e s' t' v hr hq hd; rw [hr, hq]; exact PSim.error hd
                · intro s' t' v hr hq hl; rw [hr, hq]; simp only
                  refine (H.scan s' t' hl).elim ?_ ?_ ?_ ?_
                  · intro s' hr; rw [hr]; exact Or.inl rfl
                  · intro hE t' hq; rw [hq]; exact Or.inr (Or.inl ⟨hE, rfl⟩)
                  · intro e s' t' hr hq hd; rw [hr, hq]; exact PSim.error hd
                  · intro a s' t' hr hq hl; rw [hr, hq]; simp only
                    split
                    · exact ih3 _ s' t' hl
                    · split
                      · exact PSim.ok hl
                      · exact PSim.error hl.2.2
              · split
                · exact PSim.ok hl
                · exact PSim.error hl.2.2
        · split
          · exact PSim.ok hl
          · exact PSim.error hl.2.2

theorem parseBody_sim (H : ParserSim C D R E) {n m : Nat} (hnm : n ≤ m) (c : Value F) {s : Lex S F}
    {t : Lex T F} (h : LexSim R s t) : PSim R E (parseBody C n c s) (parseBody D m c t) := by
  unfold parseBody
  refine ((parser_sim H n m hnm).1 c none s t h).elim ?_ ?_ ?_ ?_
  · intro s v hr; rw [hr]; exact Or.inl rfl
  · intro hE t' v hq; rw [hq]; exact Or.inr (Or.inl ⟨hE, rfl⟩)
  · intro e s t v hr hq hd; rw [hr, hq]; exact PSim.error hd
  · intro s' t' v hr hq hl; rw [hr, hq]; simp only
    refine (H.scan s' t' hl).elim ?_ ?_ ?_ ?_
    · intro s' hr; rw [hr]; exact Or.inl rfl
    · intro hE t' hq; rw [hq]; exact Or.inr (Or.inl ⟨hE, rfl⟩)
    · intro e s' t' hr hq hd; rw [hr, hq]; exact PSim.error hd
    · intro a s' t' hr hq hl; rw [hr, hq]; simp only
      split
      · exact PSim.ok hl
      · exact PSim.error hl.2.2

/-- Equal up to the stream, with the same end and the same value. -/
def SameParse (r : PRes S F) (q : PRes T F) : Prop := r.1 = q.1 ∧ r.2.2 = q.2.2

theorem handled_fuel {h : Option Handler} {r : PRes S F} (hr : r.1 = .error .fuel) :
    (handled h r).1 = .error .fuel := by
  obtain ⟨r1, s, v⟩ := r
  simp only at hr; subst hr
  simp [handled]

theorem parse_sim {R : S → T → Prop} (H : CfgSim C D R) {n m : Nat} (hnm : n ≤ m) (h : Option Handler) (c : Value F)
    {s : Lex S F} {t : Lex T F} (hs : LexSim (fun _ => R) s t)
    (hfuel : (parse C n h c s).1 ≠ .error .fuel) :
    SameParse (parse C n h c s) (parse D m h c t) := by
  have H' : EofSim C D (fun _ => R) False := H.eofSim
  unfold parse at hfuel ⊢
  have := Sim.readNext H'.toNextSim s t hs
  revert hfuel
  refine this.elim ?_ ?_ ?_ ?_
  · intro s' hr; rw [hr]; simp
  · intro hE; exact hE.elim
  · intro e s' t' hr hq hd; rw [hr, hq]; intro _; exact ⟨rfl, rfl⟩
  · intro a s' t' hr hq hl; rw [hr, hq]; simp only
    intro hfuel
    have hp := parseBody_sim H'.parserSim hnm c hl
    revert hfuel
    refine hp.elim ?_ ?_ ?_ ?_
    · intro s v hr hfuel; exact absurd (handled_fuel (by rw [hr])) hfuel
    · intro hE; exact hE.elim
    · intro e s t v hr hq hd _
      rw [hr, hq]
      cases e <;> cases h <;> simp only [handled, SameParse] <;> try exact ⟨trivial, trivial⟩
      split <;> simp
    · intro s t v hr hq hl _
      rw [hr, hq]
      cases h <;> simp [handled, SameParse]

end Configor
