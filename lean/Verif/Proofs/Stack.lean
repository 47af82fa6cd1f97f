import Verif.Model.Stack
import Verif.Proofs.Canon
import Verif.Spec.Calls
/-!
How deep the calls of the parser nest: transfer between sources, and a bound on the canonical source.
-/
namespace Configor
open Lexer Spec

section transfer
variable {S T F : Type} {C : Cfg S F} {D : Cfg T F} {R : Nat → S → T → Prop}

theorem skipCalls_sim (H : EofSim C D R False) (n m : Nat) (hn : n ≤ m) {s : Lex S F} {t : Lex T F} (h : LexSim R s t) :
    skipCalls C n s ≤ skipCalls D m t := by
  induction n generalizing m s t with
  | zero => exact Nat.zero_le _
  | succ n ih =>
    obtain ⟨m, rfl⟩ : ∃ k, m = k + 1 := ⟨m - 1, by omega⟩
    unfold skipCalls
    have one : ∀ t : Lex T F, 1 ≤ skipCalls D (m + 1) t := by
      intro t
      unfold skipCalls
      repeat (first | omega | split)
    refine (Sim.skipBlanks H.toNextSim _ _ H.bound s t h).elim ?_ (fun h => h.elim) ?_ ?_
    · intro s' hr
      rw [hr]
      exact one t
    · intro e s' t' hr hq _
      rw [hr, hq]
      exact Nat.le_refl _
    · intro a s' t' hr hq hl
      rw [hr, hq]
      simp only [← hl.2.1]
      split
      · refine (Sim.readNext H.toNextSim s' t' hl).elim ?_ (fun h => h.elim) ?_ ?_
        · intro s'' hr
          rw [hr]
          simp only
          repeat (first | omega | split)
        · intro e s'' t'' hr hq _
          rw [hr, hq]
          exact Nat.le_refl _
        · intro c s'' t'' hr hq hl
          rw [hr, hq]
          simp only
          split
          · refine (Sim.lineComment H _ _ H.bound s'' t'' hl).elim ?_ (fun h => h.elim) ?_ ?_
            · intro s3 hr
              rw [hr]
              simp only
              split <;> omega
            · intro e s3 t3 hr hq _
              rw [hr, hq]
              exact Nat.le_refl _
            · intro b s3 t3 hr hq hl
              rw [hr, hq]
              cases b with
              | true =>
                have := ih m (by omega) hl
                simp only
                omega
              | false => exact Nat.le_refl _
          · split
            · refine (Sim.blockComment H _ _ H.bound s'' t'' hl).elim ?_ (fun h => h.elim) ?_ ?_
              · intro s3 hr
                rw [hr]
                simp only
                split <;> omega
              · intro e s3 t3 hr hq _
                rw [hr, hq]
                exact Nat.le_refl _
              · intro b s3 t3 hr hq hl
                rw [hr, hq]
                have := ih m (by omega) hl
                simp only
                omega
            · exact Nat.le_refl _
      · exact Nat.le_refl _

theorem scanCalls_sim (H : EofSim C D R False) {s : Lex S F} {t : Lex T F} (h : LexSim R s t) : scanCalls C s ≤ scanCalls D t :=
  skipCalls_sim H _ _ H.bound h

theorem max_le_max' {a b c d : Nat} (h1 : a ≤ c) (h2 : b ≤ d) : max a b ≤ max c d := by omega

theorem calls_sim (H : EofSim C D R False) (n : Nat) : ∀ m, n ≤ m →
    (∀ tok s t, LexSim R s t → doParseCalls C n tok s ≤ doParseCalls D m tok t) ∧
    (∀ k s t, LexSim R s t → bodyCalls k (arrayCalls C n s) (objectCalls C n s) ≤ bodyCalls k (arrayCalls D m t) (objectCalls D m t)) ∧
    (∀ s t, LexSim R s t → arrayCalls C n s ≤ arrayCalls D m t) ∧
    (∀ s t, LexSim R s t → objectCalls C n s ≤ objectCalls D m t) := by
  have P := H.parserSim
  induction n with
  | zero =>
    intro m _
    have ha : ∀ s : Lex S F, arrayCalls C 0 s = 0 := fun s => by unfold arrayCalls; rfl
    have hob : ∀ s : Lex S F, objectCalls C 0 s = 0 := fun s => by unfold objectCalls; rfl
    refine ⟨fun _ _ _ _ => ?_, fun k s _ _ => ?_, fun s _ _ => ?_, fun s _ _ => ?_⟩
    · simp [doParseCalls]
    · cases k <;> simp [bodyCalls, ha, hob]
    · rw [ha]; exact Nat.zero_le _
    · rw [hob]; exact Nat.zero_le _
  | succ n ih =>
    intro m hm
    obtain ⟨m, rfl⟩ : ∃ k, m = k + 1 := ⟨m - 1, by omega⟩
    obtain ⟨ih1, ih2, ih3, ih4⟩ := ih m (by omega)
    have hp := parser_sim P n m (by omega)
    have h3 : ∀ s t, LexSim R s t → arrayCalls C (n + 1) s ≤ arrayCalls D (m + 1) t := by
      intro s t h
      unfold arrayCalls
      refine max_le_max' (scanCalls_sim H h) ?_
      refine (P.scan s t h).elim ?_ (fun h => h.elim) ?_ ?_
      · intro s' hr; rw [hr]; exact Nat.zero_le _
      · intro e s' t' hr hq _; rw [hr, hq]; exact Nat.zero_le _
      · intro a s' t' hr hq hl
        rw [hr, hq]
        simp only
        split
        · refine max_le_max' (ih1 _ _ _ hl) ?_
          refine (hp.1 .null (some a) s' t' hl).elim ?_ (fun h => h.elim) ?_ ?_
          · intro s' v hr; rw [hr]; exact Nat.zero_le _
          · intro e s' t' v hr hq _; rw [hr, hq]; exact Nat.zero_le _
          · intro s' t' v hr hq hl
            rw [hr, hq]
            simp only
            refine max_le_max' (scanCalls_sim H hl) ?_
            refine (P.scan s' t' hl).elim ?_ (fun h => h.elim) ?_ ?_
            · intro s' hr; rw [hr]; exact Nat.zero_le _
            · intro e s' t' hr hq _; rw [hr, hq]; exact Nat.zero_le _
            · intro a s' t' hr hq hl
              rw [hr, hq]
              simp only
              split
              · exact ih3 _ _ hl
              · exact Nat.zero_le _
        · exact Nat.zero_le _
    have h4 : ∀ s t, LexSim R s t → objectCalls C (n + 1) s ≤ objectCalls D (m + 1) t := by
      intro s t h
      unfold objectCalls
      refine max_le_max' (scanCalls_sim H h) ?_
      refine (P.scan s t h).elim ?_ (fun h => h.elim) ?_ ?_
      · intro s' hr; rw [hr]; exact Nat.zero_le _
      · intro e s' t' hr hq _; rw [hr, hq]; exact Nat.zero_le _
      · intro a s' t' hr hq hl
        rw [hr, hq]
        simp only
        split
        · refine (P.string s' t' hl).elim ?_ (fun h => h.elim) ?_ ?_
          · intro s' hr; rw [hr]; exact Nat.zero_le _
          · intro e s' t' hr hq _; rw [hr, hq]; exact Nat.zero_le _
          · intro _ s' t' hr hq hl
            rw [hr, hq]
            simp only
            refine max_le_max' (scanCalls_sim H hl) ?_
            refine (P.scan s' t' hl).elim ?_ (fun h => h.elim) ?_ ?_
            · intro s' hr; rw [hr]; exact Nat.zero_le _
            · intro e s' t' hr hq _; rw [hr, hq]; exact Nat.zero_le _
            · intro a s' t' hr hq hl
              rw [hr, hq]
              simp only
              split
              · refine max_le_max' (ih1 _ _ _ hl) ?_
                refine (hp.1 .null none s' t' hl).elim ?_ (fun h => h.elim) ?_ ?_
                · intro s' v hr; rw [hr]; exact Nat.zero_le _
                · intro e s' t' v hr hq _; rw [hr, hq]; exact Nat.zero_le _
                · intro s' t' v hr hq hl
                  rw [hr, hq]
                  simp only
                  refine max_le_max' (scanCalls_sim H hl) ?_
                  refine (P.scan s' t' hl).elim ?_ (fun h => h.elim) ?_ ?_
                  · intro s' hr; rw [hr]; exact Nat.zero_le _
                  · intro e s' t' hr hq _; rw [hr, hq]; exact Nat.zero_le _
                  · intro a s' t' hr hq hl
                    rw [hr, hq]
                    simp only
                    split
                    · exact ih4 _ _ hl
                    · exact Nat.zero_le _
              · exact Nat.zero_le _
        · exact Nat.zero_le _
    refine ⟨?_, ?_, h3, h4⟩
    · intro tok s t h
      cases tok with
      | some k =>
        unfold doParseCalls
        have := ih2 k s t h
        omega
      | none =>
        unfold doParseCalls
        have h1 := scanCalls_sim H h
        refine Nat.add_le_add_left (max_le_max' h1 ?_) 1
        refine (P.scan s t h).elim ?_ (fun h => h.elim) ?_ ?_
        · intro s' hr; rw [hr]; exact Nat.zero_le _
        · intro e s' t' hr hq _; rw [hr, hq]; exact Nat.zero_le _
        · intro a s' t' hr hq hl
          rw [hr, hq]
          exact ih2 a _ _ hl
    · intro k s t h
      cases k <;> simp only [bodyCalls, Nat.le_refl]
      · exact h3 s t h
      · exact h4 s t h

theorem parseCalls_sim {R : S → T → Prop} (H : CfgSim C D R) {n m : Nat} (hnm : n ≤ m) {s : Lex S F} {t : Lex T F}
    (hs : LexSim (fun _ => R) s t) : parseCalls C n s ≤ parseCalls D m t := by
  have H' : EofSim C D (fun _ => R) False := H.eofSim
  unfold parseCalls
  refine (Sim.readNext H'.toNextSim s t hs).elim ?_ (fun h => h.elim) ?_ ?_
  · intro s' hr; rw [hr]; exact Nat.zero_le _
  · intro e s' t' hr hq _; rw [hr, hq]; exact Nat.zero_le _
  · intro a s' t' hr hq hl
    rw [hr, hq]
    refine max_le_max' ((calls_sim H' n m hnm).1 none _ _ hl) ?_
    refine ((parser_sim H'.parserSim n m hnm).1 .null none s' t' hl).elim ?_ (fun h => h.elim) ?_ ?_
    · intro s' v hr; rw [hr]; exact Nat.zero_le _
    · intro e s' t' v hr hq _; rw [hr, hq]; exact Nat.zero_le _
    · intro s' t' v hr hq hl
      rw [hr, hq]
      exact scanCalls_sim H' hl

end transfer

/-! ## A bound on the canonical source -/

section bound
variable {F α β : Type} {C : Cfg CpS F} {p : Nat → Bool}

/-- The characters in `p` from the current one on. -/
def Left (p : Nat → Bool) (s : Lex CpS F) : Nat := (if p s.cur then 1 else 0) + countOf p s.is.rest

/-- Never adds characters. -/
def Dec (p : Nat → Bool) (m : L CpS F α) : Prop := ∀ s, Left p (m s).2 ≤ Left p s

theorem Dec.bind {m : L CpS F α} {f : α → L CpS F β} (h : Dec p m) (hf : ∀ a, Dec p (f a)) : Dec p (m >>= f) := by
  intro s
  have h1 := h s
  rcases hm : m s with ⟨e | a, t⟩
  · rw [M.bind_error hm]; rw [hm] at h1; exact h1
  · rw [M.bind_ok hm]; rw [hm] at h1; exact Nat.le_trans (hf a t) h1

theorem Dec.pure (a : α) : Dec (F := F) p (Pure.pure a) := fun _ => Nat.le_refl _
theorem Dec.stop (e : Stop) : Dec (F := F) (α := α) p (M.stop e) := fun _ => Nat.le_refl _
theorem Dec.fail : Dec (F := F) (α := α) p fail := fun _ => Nat.le_refl _
theorem Dec.gets (f : Lex CpS F → α) : Dec p (M.gets f) := fun _ => Nat.le_refl _
theorem Dec.modify {f : Lex CpS F → Lex CpS F} (h : ∀ s, (f s).cur = s.cur ∧ (f s).is = s.is) : Dec p (M.modify f) := by
  intro s
  show Left p (f s) ≤ Left p s
  unfold Left
  rw [(h s).1, (h s).2]
  exact Nat.le_refl _
theorem Dec.ite {c : Prop} [Decidable c] {m m' : L CpS F α} (h : Dec p m) (h' : Dec p m') : Dec p (if c then m else m') := by
  split <;> assumption

theorem readNext_left (hC : C.src = canonSrc) (hp : p 0 = false) (s : Lex CpS F) :
    Left p (readNext C s).2 + (if p s.cur then 1 else 0) ≤ Left p s := by
  unfold readNext Left
  rw [hC]
  obtain ⟨⟨rest, ended, dead⟩, cur, _, _, _, _⟩ := s
  simp only [canonSrc]
  cases ended with
  | true => simp [hp]; omega
  | false =>
    cases rest with
    | nil => simp [hp, countOf]
    | cons x r =>
      cases x with
      | none => simp [hp, countOf]; omega
      | some c =>
        simp only [Bool.false_eq_true, if_false, if_true]
        have e : countOf p (some c :: r) = (if p c then 1 else 0) + countOf p r := by
          unfold countOf
          rw [List.countP_cons]
          exact Nat.add_comm _ _
        rw [e]
        split <;> simp only <;> omega

theorem Dec.readNext (hC : C.src = canonSrc) (hp : p 0 = false) : Dec p (readNext C) := fun s => by
  have := readNext_left hC hp s
  omega

theorem Dec.skipBlanks (hC : C.src = canonSrc) (hp : p 0 = false) (n : Nat) : Dec p (skipBlanks C n) := by
  induction n with
  | zero => exact .stop _
  | succ n ih =>
    unfold Lexer.skipBlanks
    exact .bind (.gets _) fun _ => .ite (.bind (.readNext hC hp) fun _ => ih) (.pure _)

theorem Dec.lineComment (hC : C.src = canonSrc) (hp : p 0 = false) (n : Nat) : Dec p (lineComment C n) := by
  induction n with
  | zero => exact .stop _
  | succ n ih =>
    unfold Lexer.lineComment
    exact .bind (.readNext hC hp) fun _ => .ite (.pure _) (.bind (.gets _) fun _ => .ite (.pure _) ih)

theorem Dec.blockComment (hC : C.src = canonSrc) (hp : p 0 = false) (n : Nat) : Dec p (blockComment C n) := by
  induction n with
  | zero => exact .stop _
  | succ n ih =>
    unfold Lexer.blockComment
    exact .bind (.readNext hC hp) fun _ => .ite (.bind (.readNext hC hp) fun _ => .ite (.bind (.readNext hC hp) fun _ => .pure _)
      (.bind (.gets _) fun _ => .ite .fail ih)) (.bind (.gets _) fun _ => .ite .fail ih)

theorem Dec.skipSpaces (hC : C.src = canonSrc) (hp : p 0 = false) (n : Nat) : Dec p (skipSpaces C n) := by
  induction n with
  | zero => exact .stop _
  | succ n ih =>
    unfold Lexer.skipSpaces
    exact .bind (.skipBlanks hC hp _) fun _ => .bind (.gets _) fun _ => .ite (.bind (.readNext hC hp) fun _ =>
      .ite (.bind (.lineComment hC hp _) fun _ => .ite ih (.pure _)) (.ite (.bind (.blockComment hC hp _) fun _ => ih) .fail)) (.pure _)

theorem Dec.scanLiteral (hC : C.src = canonSrc) (hp : p 0 = false) (text : List Nat) (t : Token) : Dec p (scanLiteral C text t) := by
  induction text with
  | nil => exact .pure _
  | cons ch text ih =>
    unfold Lexer.scanLiteral
    exact .bind (.gets _) fun _ => .ite .fail (.bind (.readNext hC hp) fun _ => ih)

theorem Dec.assert (b : Bool) : Dec p (assert C b) := .ite (.stop _) (.pure _)

theorem Dec.readEscaped (hC : C.src = canonSrc) (hp : p 0 = false) : Dec p (readEscaped C) := by
  have : ∀ fs code, Dec p (readEscapedLoop C fs code) := by
    intro fs
    induction fs with
    | nil => intro code; exact .pure _
    | cons f fs ih =>
      intro code
      unfold readEscapedLoop
      refine .bind (.readNext hC hp) fun c => ?_
      cases hexVal c with
      | none => exact .fail
      | some d => exact ih _
  exact this _ _

theorem Dec.putCp (c : Nat) : Dec p (putCp C c) :=
  .bind (.modify fun _ => ⟨rfl, rfl⟩) fun _ => .bind (.gets _) fun _ => .ite (.pure _) .fail

theorem Dec.scanUnicodeEscape (hC : C.src = canonSrc) (hp : p 0 = false) : Dec p (scanUnicodeEscape C) :=
  .bind (.readEscaped hC hp) fun _ => .ite (.bind (.readNext hC hp) fun _ => .ite .fail (.bind (.readNext hC hp) fun _ =>
    .ite .fail (.bind (.readEscaped hC hp) fun _ => .ite .fail (.putCp _)))) (.putCp _)

theorem Dec.scanEscape (hC : C.src = canonSrc) (hp : p 0 = false) : Dec p (scanEscape C) := by
  have a : ∀ c, Dec (F := F) p (putAscii c) := fun c => .modify fun _ => ⟨rfl, rfl⟩
  exact .bind (.readNext hC hp) fun _ => .ite (a _) <| .ite (a _) <| .ite (a _) <| .ite (a _) <| .ite (a _) <| .ite (a _) <|
    .ite (a _) <| .ite (a _) <| .ite (.scanUnicodeEscape hC hp) .fail

theorem Dec.stringLoop (hC : C.src = canonSrc) (hp : p 0 = false) (n : Nat) : Dec p (stringLoop C n) := by
  induction n with
  | zero => exact .stop _
  | succ n ih =>
    unfold Lexer.stringLoop
    exact .bind (.readNext hC hp) fun _ => .bind (.gets _) fun _ => .ite .fail <| .ite (.bind (.readNext hC hp) fun _ => .pure _) <|
      .ite .fail <| .ite (.bind (.scanEscape hC hp) fun _ => ih) (.bind (.putCp _) fun _ => ih)

theorem Dec.scanString (hC : C.src = canonSrc) (hp : p 0 = false) : Dec p (scanString C) :=
  .bind (.modify fun _ => ⟨rfl, rfl⟩) fun _ => .bind (.gets _) fun _ => .bind (.assert _) fun _ => .stringLoop hC hp _

theorem Dec.scanExponent (hC : C.src = canonSrc) (hp : p 0 = false) : Dec p (scanExponent C) := by
  have d : ∀ n e, Dec p (exponentDigits C n e) := by
    intro n
    induction n with
    | zero => intro e; exact .stop _
    | succ n ih =>
      intro e
      unfold exponentDigits
      exact .bind (.readNext hC hp) fun _ => .ite (ih _) (.pure _)
  have v : ∀ neg, Dec p (exponentValue C neg) := fun neg =>
    .bind (.gets _) fun _ => .bind (d _ _) fun _ => .bind (.modify fun _ => ⟨rfl, rfl⟩) fun _ => .pure _
  exact .bind (.gets _) fun _ => .bind (.assert _) fun _ => .bind (.readNext hC hp) fun _ => .ite .fail <|
    .ite (.bind (.readNext hC hp) fun _ => v _) (v _)

theorem Dec.scanFloat (hC : C.src = canonSrc) (hp : p 0 = false) : Dec p (scanFloat C) := by
  have l : ∀ n f, Dec p (fractionLoop C n f) := by
    intro n
    induction n with
    | zero => intro f; exact .stop _
    | succ n ih =>
      intro f
      unfold fractionLoop
      exact .bind (.readNext hC hp) fun _ => .ite (.scanExponent hC hp) <|
        .ite (.bind (.modify fun _ => ⟨rfl, rfl⟩) fun _ => ih _) (.pure _)
  exact .bind (.modify fun _ => ⟨rfl, rfl⟩) fun _ => .bind (.gets _) fun _ => .ite (.scanExponent hC hp) <|
    .bind (.assert _) fun _ => .bind (.readNext hC hp) fun _ => .ite .fail (.bind (.modify fun _ => ⟨rfl, rfl⟩) fun _ => l _ _)

theorem Dec.scanNumber (hC : C.src = canonSrc) (hp : p 0 = false) : Dec p (scanNumber C) := by
  have l : ∀ n, Dec p (integerLoop C n) := by
    intro n
    induction n with
    | zero => exact .stop _
    | succ n ih =>
      unfold integerLoop
      exact .bind (.readNext hC hp) fun _ => .ite (.scanFloat hC hp) <|
        .ite (.bind (.gets _) fun _ => .ite (.stop _) (.bind (.modify fun _ => ⟨rfl, rfl⟩) fun _ => ih)) (.pure _)
  have i : Dec p (scanInteger C) := .bind (.gets _) fun _ => .bind (.assert _) fun _ => .bind (.modify fun _ => ⟨rfl, rfl⟩) fun _ => l _
  have b : Dec p (numberBody C) := .bind (.gets _) fun _ => .ite (.bind (.readNext hC hp) fun _ => .ite (.scanFloat hC hp) <|
    .ite .fail (.pure _)) i
  exact .bind (.modify fun _ => ⟨rfl, rfl⟩) fun _ => .bind (.gets _) fun _ => .ite (.bind (.modify fun _ => ⟨rfl, rfl⟩) fun _ =>
    .bind (.readNext hC hp) fun _ => b) b

theorem Dec.single (hC : C.src = canonSrc) (hp : p 0 = false) (t : Token) : Dec p (single C t) :=
  .bind (.readNext hC hp) fun _ => .pure _

theorem Dec.scan (hC : C.src = canonSrc) (hp : p 0 = false) : Dec p (scan C) :=
  .bind (.skipSpaces hC hp _) fun _ => .bind (.gets _) fun _ => .ite (.pure _) <| .bind (.gets _) fun _ =>
    .ite (.single hC hp _) <| .ite (.single hC hp _) <| .ite (.single hC hp _) <| .ite (.single hC hp _) <|
    .ite (.single hC hp _) <| .ite (.single hC hp _) <| .ite (.scanLiteral hC hp _ _) <| .ite (.scanLiteral hC hp _ _) <|
    .ite (.scanLiteral hC hp _ _) <| .ite (.pure _) <| .ite (.scanNumber hC hp) <| .ite (.pure _) .fail

/-- The tokens a computation can return are not opening brackets. -/
def NoOpen (m : L CpS F Token) : Prop := ∀ s t s', m s = (.ok t, s') → ¬ (t = .beginArray ∨ t = .beginObject)

theorem NoOpen.bind {m : L CpS F α} {f : α → L CpS F Token} (hf : ∀ a, NoOpen (f a)) : NoOpen (m >>= f) := by
  intro s t s' h
  rcases hm : m s with ⟨e | a, s1⟩
  · rw [M.bind_error hm] at h; cases h
  · rw [M.bind_ok hm] at h; exact hf a s1 t s' h

theorem NoOpen.pure {t : Token} (h : ¬ (t = .beginArray ∨ t = .beginObject)) : NoOpen (F := F) (Pure.pure t) := by
  intro s t' s' e
  cases e
  exact h
theorem NoOpen.stop (e : Stop) : NoOpen (F := F) (M.stop e) := by intro s t s' h; cases h
theorem NoOpen.fail : NoOpen (F := F) fail := .stop _
theorem NoOpen.ite {c : Prop} [Decidable c] {m m' : L CpS F Token} (h : NoOpen m) (h' : NoOpen m') : NoOpen (if c then m else m') := by
  split <;> assumption

theorem NoOpen.scanLiteral (text : List Nat) {k : Token} (h : ¬ (k = .beginArray ∨ k = .beginObject)) : NoOpen (scanLiteral C text k) := by
  induction text with
  | nil => exact .pure h
  | cons c text ih => exact .bind fun _ => .ite .fail (.bind fun _ => ih)

theorem NoOpen.scanExponent : NoOpen (scanExponent C) := by
  have v : ∀ neg, NoOpen (exponentValue C neg) := fun neg => .bind fun _ => .bind fun _ => .bind fun _ => .pure (by simp)
  exact .bind fun _ => .bind fun _ => .bind fun _ => .ite .fail <| .ite (.bind fun _ => v _) (v _)

theorem NoOpen.scanFloat : NoOpen (scanFloat C) := by
  have l : ∀ n f, NoOpen (fractionLoop C n f) := by
    intro n
    induction n with
    | zero => intro f; exact .stop _
    | succ n ih =>
      intro f
      unfold fractionLoop
      exact .bind fun _ => .ite .scanExponent <| .ite (.bind fun _ => ih _) (.pure (by simp))
  exact .bind fun _ => .bind fun _ => .ite .scanExponent <| .bind fun _ => .bind fun _ => .ite .fail (.bind fun _ => l _ _)

theorem NoOpen.scanNumber : NoOpen (scanNumber C) := by
  have l : ∀ n, NoOpen (integerLoop C n) := by
    intro n
    induction n with
    | zero => exact .stop _
    | succ n ih =>
      unfold integerLoop
      exact .bind fun _ => .ite .scanFloat <| .ite (.bind fun _ => .ite (.stop _) (.bind fun _ => ih)) (.pure (by simp))
  have i : NoOpen (scanInteger C) := .bind fun _ => .bind fun _ => .bind fun _ => l _
  have b : NoOpen (numberBody C) := .bind fun _ => .ite (.bind fun _ => .ite .scanFloat <| .ite .fail (.pure (by simp))) i
  exact .bind fun _ => .bind fun _ => .ite (.bind fun _ => .bind fun _ => b) b

/-- An opening bracket is used up by its token. -/
theorem scan_open (hC : C.src = canonSrc) {s s' : Lex CpS F} {t : Token} (h : scan C s = (.ok t, s'))
    (ht : t = .beginArray ∨ t = .beginObject) : Left isOpen s' + 1 ≤ Left isOpen s := by
  have hp : isOpen 0 = false := rfl
  have h1 := Dec.skipSpaces hC hp C.bound s
  rw [scan_eq] at h
  rcases hm : skipSpaces C C.bound s with ⟨e | a, s1⟩
  · rw [M.bind_error hm] at h; cases h
  rw [M.bind_ok hm] at h
  rw [hm] at h1
  simp only at h1
  refine Nat.le_trans ?_ h1
  have sn : ∀ (tok : Token), isOpen s1.cur = true → single C tok s1 = (.ok t, s') → Left isOpen s' + 1 ≤ Left isOpen s1 := by
    intro tok ho h
    have h2 := readNext_left hC hp s1
    rw [if_pos ho] at h2
    unfold single at h
    rcases hm : readNext C s1 with ⟨e | a, s2⟩
    · rw [M.bind_error hm] at h; cases h
    · rw [M.bind_ok hm] at h
      rw [hm] at h2
      cases h
      exact h2
  have h2 : (if C.src.eof s1.is then Pure.pure .endOfInput else scanTail C : L CpS F Token) s1 = (.ok t, s') := h
  have no : ∀ {m : L CpS F Token} {P : Prop}, NoOpen m → m s1 = (.ok t, s') → P := fun hn h => absurd ht (hn _ _ _ h)
  have si : ∀ k, ¬ (k = .beginArray ∨ k = .beginObject) → NoOpen (single C k) := fun k hk => .bind fun _ => .pure hk
  split at h2
  · exact no (.pure (by simp)) h2
  · have h3 : (if s1.cur == 0x5B then single C .beginArray
      else if s1.cur == 0x5D then single C .endArray
      else if s1.cur == 0x7B then single C .beginObject
      else if s1.cur == 0x7D then single C .endObject
      else if s1.cur == 0x3A then single C .nameSeparator
      else if s1.cur == 0x2C then single C .valueSeparator
      else if s1.cur == 0x74 then scanLiteral C [0x74, 0x72, 0x75, 0x65] .literalTrue
      else if s1.cur == 0x66 then scanLiteral C [0x66, 0x61, 0x6C, 0x73, 0x65] .literalFalse
      else if s1.cur == 0x6E then scanLiteral C [0x6E, 0x75, 0x6C, 0x6C] .literalNull
      else if s1.cur == 0x22 then Pure.pure .valueString
      else if s1.cur == 0x2D || s1.cur == 0x2B || (0x30 ≤ s1.cur && s1.cur ≤ 0x39) then scanNumber C
      else if s1.cur == 0 then Pure.pure .endOfInput
      else Lexer.fail : L CpS F Token) s1 = (.ok t, s') := h2
    by_cases c1 : (s1.cur == 0x5B) = true
    · rw [if_pos c1] at h3
      exact sn _ (by simp [isOpen, c1]) h3
    rw [if_neg c1] at h3
    by_cases c2 : (s1.cur == 0x5D) = true
    · rw [if_pos c2] at h3
      exact no (si _ (by simp)) h3
    rw [if_neg c2] at h3
    by_cases c3 : (s1.cur == 0x7B) = true
    · rw [if_pos c3] at h3
      exact sn _ (by simp [isOpen, c3]) h3
    rw [if_neg c3] at h3
    refine no ?_ h3
    exact .ite (si _ (by simp)) <| .ite (si _ (by simp)) <| .ite (si _ (by simp)) <| .ite (.scanLiteral _ (by simp)) <|
      .ite (.scanLiteral _ (by simp)) <| .ite (.scanLiteral _ (by simp)) <| .ite (.pure (by simp)) <| .ite .scanNumber <|
      .ite (.pure (by simp)) .fail

theorem skipCalls_le (hC : C.src = canonSrc) (n : Nat) (s : Lex CpS F) : skipCalls C n s ≤ 1 + 2 * Left isSlash s := by
  have hp : isSlash 0 = false := rfl
  induction n generalizing s with
  | zero => exact Nat.zero_le _
  | succ n ih =>
    unfold skipCalls
    have h1 := Dec.skipBlanks hC hp C.bound s
    revert h1
    rcases skipBlanks C C.bound s with ⟨e | a, s1⟩ <;> simp only <;> intro h1
    · omega
    split
    · rename_i hc
      have h2 := readNext_left hC hp s1
      rw [if_pos (by rw [hc]; rfl)] at h2
      revert h2
      rcases readNext C s1 with ⟨e | c, s2⟩ <;> simp only <;> intro h2
      · omega
      split
      · have h3 := Dec.lineComment hC hp C.bound s2
        revert h3
        rcases lineComment C C.bound s2 with ⟨e | b, s3⟩
        · simp only; omega
        cases b with
        | true => have := ih s3; simp only; omega
        | false => simp only; omega
      · split
        · have h3 := Dec.blockComment hC hp C.bound s2
          revert h3
          rcases blockComment C C.bound s2 with ⟨e | b, s3⟩
          · simp only; omega
          have := ih s3
          simp only; omega
        · omega
    · omega

/-- The bound on the calls. -/
def callBound (s : Lex CpS F) : Nat := 2 + 2 * Left isSlash s + Left isOpen s

theorem Left.doParse (hC : C.src = canonSrc) (hp : p 0 = false) (n : Nat) :
    (∀ c tok s, Left p (doParse C n c tok s).2.1 ≤ Left p s) ∧
    (∀ xs s, Left p (parseArray C n xs s).2.1 ≤ Left p s) ∧
    (∀ ms s, Left p (parseObject C n ms s).2.1 ≤ Left p s) := by
  have hs := Dec.scan hC hp (C := C)
  have ht := Dec.scanString hC hp (C := C)
  induction n with
  | zero =>
    refine ⟨fun c tok s => ?_, fun xs s => ?_, fun ms s => ?_⟩
    · simp [Configor.doParse]
    · simp [Configor.parseArray]
    · simp [Configor.parseObject]
  | succ n ih =>
    obtain ⟨ih1, ih2, ih3⟩ := ih
    have step : ∀ c t s, Left p (Configor.doParse C (n + 1) c (some t) s).2.1 ≤ Left p s := by
      intro c t s
      unfold Configor.doParse
      cases t <;> simp only <;> first | exact Nat.le_refl _ | exact ih2 _ _ | exact ih3 _ _ | exact ht s
    refine ⟨fun c tok s => ?_, fun xs s => ?_, fun ms s => ?_⟩
    · cases tok with
      | some t => exact step c t s
      | none =>
        rw [doParse_none]
        have h1 := hs s
        revert h1
        rcases Lexer.scan C s with ⟨e | t, s1⟩ <;> simp only <;> intro h1
        · exact h1
        · exact Nat.le_trans (step c t s1) h1
    · unfold parseArray
      have h1 := hs s
      revert h1
      rcases Lexer.scan C s with ⟨e | t, s1⟩ <;> simp only <;> intro h1
      · exact h1
      split
      · have h2 := ih1 .null (some t) s1
        revert h2
        rcases Configor.doParse C n .null (some t) s1 with ⟨e | _, s2, v⟩ <;> simp only <;> intro h2
        · omega
        have h3 := hs s2
        revert h3
        rcases Lexer.scan C s2 with ⟨e | t, s3⟩ <;> simp only <;> intro h3
        · omega
        split
        · have := ih2 (xs ++ [v]) s3; omega
        · split <;> simp only <;> omega
      · split <;> exact h1
    · unfold parseObject
      have h1 := hs s
      revert h1
      rcases Lexer.scan C s with ⟨e | t, s1⟩ <;> simp only <;> intro h1
      · exact h1
      split
      · have h2 := ht s1
        revert h2
        rcases Lexer.scanString C s1 with ⟨e | _, s2⟩ <;> simp only <;> intro h2
        · omega
        have h3 := hs s2
        revert h3
        rcases Lexer.scan C s2 with ⟨e | t, s3⟩ <;> simp only <;> intro h3
        · omega
        split
        · have h4 := ih1 .null none s3
          revert h4
          rcases Configor.doParse C n .null none s3 with ⟨e | _, s4, v⟩ <;> simp only <;> intro h4
          · omega
          have h5 := hs s4
          revert h5
          rcases Lexer.scan C s4 with ⟨e | t, s5⟩ <;> simp only <;> intro h5
          · omega
          split
          · have := ih3 (Map.emplace s2.out.out v ms) s5; omega
          · split <;> simp only <;> omega
        · split <;> simp only <;> omega
      · split <;> exact h1

theorem callBound_mono {s s' : Lex CpS F} (h : ∀ p : Nat → Bool, p 0 = false → Left p s' ≤ Left p s) : callBound s' ≤ callBound s := by
  have h1 := h isSlash rfl
  have h2 := h isOpen rfl
  unfold callBound
  omega

theorem max_le' {a b c : Nat} (h1 : a ≤ c) (h2 : b ≤ c) : max a b ≤ c := by omega

theorem calls_le (hC : C.src = canonSrc) (n : Nat) :
    (∀ s, doParseCalls C n none s ≤ callBound s) ∧
    (∀ t s, doParseCalls C n (some t) s ≤ callBound s + (if t = .beginArray ∨ t = .beginObject then 1 else 0)) ∧
    (∀ s, arrayCalls C n s ≤ callBound s) ∧ (∀ s, objectCalls C n s ≤ callBound s) := by
  have hsc : ∀ s, scanCalls C s + 1 ≤ callBound s := fun s => by
    have := skipCalls_le hC C.bound s
    unfold scanCalls callBound; omega
  have hs : ∀ {s s' : Lex CpS F} {r}, scan C s = (r, s') → callBound s' ≤ callBound s := by
    intro s s' r h
    refine callBound_mono fun p hp => ?_
    have := Dec.scan hC hp (C := C) s
    rw [h] at this
    exact this
  have hso : ∀ {s s' : Lex CpS F} {t}, scan C s = (.ok t, s') → callBound s' + (if t = .beginArray ∨ t = .beginObject then 1 else 0) ≤ callBound s := by
    intro s s' t h
    split
    · rename_i ht
      have h1 := scan_open hC h ht
      have h2 := Dec.scan hC (p := isSlash) rfl (C := C) s
      rw [h] at h2
      simp only at h2
      unfold callBound; omega
    · exact hs h
  have ht : ∀ {s s' : Lex CpS F} {r}, scanString C s = (r, s') → callBound s' ≤ callBound s := by
    intro s s' r h
    refine callBound_mono fun p hp => ?_
    have := Dec.scanString hC hp (C := C) s
    rw [h] at this
    exact this
  have hd : ∀ {n c tok} {s s' : Lex CpS F} {r v}, doParse C n c tok s = (r, s', v) → callBound s' ≤ callBound s := by
    intro n c tok s s' r v h
    refine callBound_mono fun p hp => ?_
    have := (Left.doParse hC hp n (C := C)).1 c tok s
    rw [h] at this
    exact this
  induction n with
  | zero =>
    refine ⟨fun s => ?_, fun t s => ?_, fun s => ?_, fun s => ?_⟩
    · simp [doParseCalls]
    · simp [doParseCalls]
    · unfold arrayCalls; exact Nat.zero_le _
    · unfold objectCalls; exact Nat.zero_le _
  | succ n ih =>
    obtain ⟨ih1, ih2, ih3, ih4⟩ := ih
    have body : ∀ t s, bodyCalls t (arrayCalls C n s) (objectCalls C n s) ≤ callBound s ∧ (¬ (t = .beginArray ∨ t = .beginObject) → bodyCalls t (arrayCalls C n s) (objectCalls C n s) = 0) := by
      intro t s
      cases t <;> simp [bodyCalls, ih3, ih4]
    refine ⟨fun s => ?_, fun t s => ?_, fun s => ?_, fun s => ?_⟩
    · unfold doParseCalls
      have h1 := hsc s
      rcases h : scan C s with ⟨e | t, s1⟩ <;> simp only
      · omega
      · have h2 := hso h
        have h3 := body t s1
        split at h2
        · have := h3.1; omega
        · rename_i hn
          have := h3.2 hn; omega
    · unfold doParseCalls
      have h3 := body t s
      split
      · have := h3.1; omega
      · rename_i hn
        have := h3.2 hn
        unfold callBound; omega
    · unfold arrayCalls
      refine max_le' (by have := hsc s; omega) ?_
      rcases h : scan C s with ⟨e | t, s1⟩ <;> simp only
      · exact Nat.zero_le _
      split
      · refine max_le' (Nat.le_trans (ih2 t s1) (hso h)) ?_
        have h1 := hs h
        rcases h2 : doParse C n .null (some t) s1 with ⟨e | _, s2, v⟩ <;> simp only
        · exact Nat.zero_le _
        have h3 := hd h2
        refine max_le' (by have := hsc s2; omega) ?_
        rcases h4 : scan C s2 with ⟨e | t, s3⟩ <;> simp only
        · exact Nat.zero_le _
        have h5 := hs h4
        split
        · have := ih3 s3; omega
        · exact Nat.zero_le _
      · exact Nat.zero_le _
    · unfold objectCalls
      refine max_le' (by have := hsc s; omega) ?_
      rcases h : scan C s with ⟨e | t, s1⟩ <;> simp only
      · exact Nat.zero_le _
      have h1 := hs h
      split
      · rcases h2 : scanString C s1 with ⟨e | _, s2⟩ <;> simp only
        · exact Nat.zero_le _
        have h3 := ht h2
        refine max_le' (by have := hsc s2; omega) ?_
        rcases h4 : scan C s2 with ⟨e | t, s3⟩ <;> simp only
        · exact Nat.zero_le _
        have h5 := hs h4
        split
        · refine max_le' (by have := ih1 s3; omega) ?_
          rcases h6 : doParse C n .null none s3 with ⟨e | _, s4, v⟩ <;> simp only
          · exact Nat.zero_le _
          have h7 := hd h6
          refine max_le' (by have := hsc s4; omega) ?_
          rcases h8 : scan C s4 with ⟨e | t, s5⟩ <;> simp only
          · exact Nat.zero_le _
          have h9 := hs h8
          split
          · have := ih4 s5; omega
          · exact Nat.zero_le _
        · exact Nat.zero_le _
      · exact Nat.zero_le _

theorem parseCalls_le (hC : C.src = canonSrc) (n : Nat) (s : Lex CpS F) (h0 : s.cur = 0) :
    parseCalls C n s ≤ 2 + 2 * countOf isSlash s.is.rest + countOf isOpen s.is.rest := by
  have e : callBound s = 2 + 2 * countOf isSlash s.is.rest + countOf isOpen s.is.rest := by
    unfold callBound Left
    rw [h0]
    simp [isSlash, isOpen]
  rw [← e]
  unfold parseCalls
  rcases h : readNext C s with ⟨e | t, s1⟩ <;> simp only
  · exact Nat.zero_le _
  have h1 : callBound s1 ≤ callBound s := callBound_mono fun p hp => by
    have := Dec.readNext hC hp (C := C) s
    rw [h] at this
    exact this
  have h2 := (calls_le hC n).1 s1
  refine max_le' (by omega) ?_
  rcases h3 : doParse C n .null none s1 with ⟨e | _, s2, v⟩ <;> simp only
  · exact Nat.zero_le _
  have h4 : callBound s2 ≤ callBound s1 := callBound_mono fun p hp => by
    have := (Left.doParse hC hp n (C := C)).1 .null none s1
    rw [h3] at this
    exact this
  have := skipCalls_le hC C.bound s2
  unfold scanCalls
  have : 1 + 2 * Left isSlash s2 ≤ callBound s2 := by unfold callBound; omega
  omega

end bound
end Configor
