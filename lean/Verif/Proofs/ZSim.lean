import Verif.Proofs.Document
import Verif.Spec.Sources
/-!
An input that never ends: the characters of a text and then NULs. Compared with an input that
ends after the text, the scanner does the same, except that it never leaves a comment that the
text leaves open.
-/
namespace Configor
open Lexer Spec

variable {F α β : Type}

/-- The code points of a text, then NUL forever; `none` stands for a malformed character. The
flag says that one was read. -/
def zSrc : Src (List (Option Nat) × Bool) where
  decode s := (true, hd s.1, s.1.tail, s.2 || s.1.head? == some none)
  eof _ := false
  good s := !s.2

/-- The scanner in front of `l`, on the input that does not end. -/
def StR (l : List (Option Nat)) (d : Data F) : Lex (List (Option Nat) × Bool) F where
  is := (l.tail, false)
  cur := hd l
  neg := d.neg
  numI := d.numI
  numF := d.numF
  out := d.out

/-- Both streams are in front of the same part of the text. -/
def ZR (text : List (Option Nat)) (cur : Nat) (s : CpS) (r : List (Option Nat) × Bool) : Prop :=
  ∃ l, l <:+ text ∧ cur = hd l ∧ s = ⟨l.tail, l.isEmpty, false⟩ ∧ r = (l.tail, false)

theorem zlex_iff {text : List (Option Nat)} {s : Lex CpS F} {t : Lex (List (Option Nat) × Bool) F} :
    LexSim (ZR text) s t ↔ ∃ l d, l <:+ text ∧ s = At l d ∧ t = StR l d := by
  constructor
  · rintro ⟨⟨l, h1, h2, h3, h4⟩, h5, h6, h7, h8, h9⟩
    obtain ⟨is, cur, neg, numI, numF, out⟩ := s
    obtain ⟨is', cur', neg', numI', numF', out'⟩ := t
    simp only at h2 h3 h4 h5 h6 h7 h8 h9
    subst h2 h3 h4 h5 h6 h7 h8 h9
    exact ⟨l, ⟨neg, numI, numF, out⟩, h1, rfl, rfl⟩
  · rintro ⟨l, d, h1, rfl, rfl⟩
    exact ⟨⟨l, h1, rfl, rfl, rfl⟩, rfl, rfl, rfl, rfl, rfl⟩

variable {C : Cfg CpS F} {D : Cfg (List (Option Nat) × Bool) F} {text l : List (Option Nat)} {d : Data F} {E : Prop}

/-- The two configurations. -/
structure ZCfg (C : Cfg CpS F) (D : Cfg (List (Option Nat) × Bool) F) : Prop where
  left : C.src = canonSrc
  right : D.src = zSrc
  enc : C.enc = D.enc
  w : C.w = D.w
  debug : C.debug = D.debug
  fo : C.fo = D.fo
  bound : C.bound ≤ D.bound

theorem ZCfg.nextL (H : ZCfg C D) (ho : Ok l.tail) : readNext C (At l d) = (.ok (hd l.tail), At l.tail d) := by
  unfold readNext
  rw [H.left]
  cases l with
  | nil => rfl
  | cons a l =>
    cases l with
    | nil => rfl
    | cons b l =>
      cases b with
      | none => simp [Ok] at ho
      | some b => rfl

theorem ZCfg.nextR (H : ZCfg C D) (ho : Ok l.tail) : readNext D (StR l d) = (.ok (hd l.tail), StR l.tail d) := by
  unfold readNext
  rw [H.right]
  have : (l.tail.head? == some none) = false := by simpa [Ok] using ho
  simp only [zSrc, StR, this, Bool.or_false, if_true, Bool.not_false]

theorem ZCfg.badL (H : ZCfg C D) (ho : ¬ Ok l.tail) :
    ∃ s, readNext C (At l d) = (.error (.exn .deserialization), s) ∧ DataEq s (At l d) := by
  unfold readNext
  rw [H.left]
  cases l with
  | nil => exact absurd Ok.nil ho
  | cons a l =>
    cases l with
    | nil => exact absurd Ok.nil ho
    | cons b l =>
      cases b with
      | none => exact ⟨_, rfl, rfl, rfl, rfl, rfl⟩
      | some b => exact absurd (Ok.cons _ _) ho

theorem ZCfg.badR (H : ZCfg C D) (ho : ¬ Ok l.tail) :
    ∃ s, readNext D (StR l d) = (.error (.exn .deserialization), s) ∧ DataEq s (StR l d) := by
  unfold readNext
  rw [H.right]
  have : (l.tail.head? == some none) = true := by simpa [Ok] using ho
  simp only [zSrc, StR, this, Bool.or_true, if_true]
  exact ⟨_, rfl, rfl, rfl, rfl, rfl⟩

theorem ZCfg.eofL (H : ZCfg C D) : Lexer.eof C (At l d) = (.ok l.isEmpty, At l d) := by
  unfold Lexer.eof M.gets
  rw [H.left]
  rfl

theorem ZCfg.eofR (H : ZCfg C D) : Lexer.eof D (StR l d) = (.ok false, StR l d) := by
  unfold Lexer.eof M.gets
  rw [H.right]
  rfl

theorem ResSim.zok (h : l <:+ text) (a : α) :
    ResSim (ZR text) E (Except.ok a, At l d) (Except.ok a, StR l d) :=
  Or.inr (Or.inr ⟨rfl, ⟨rfl, rfl, rfl, rfl⟩, fun _ => zlex_iff.mpr ⟨l, d, h, rfl, rfl⟩⟩)

theorem ResSim.zerr (e : Stop) (l : List (Option Nat)) (d : Data F) :
    ResSim (α := α) (ZR text) E (.error e, At l d) (.error e, StR l d) :=
  Or.inr (Or.inr ⟨rfl, ⟨rfl, rfl, rfl, rfl⟩, fun ⟨a, h⟩ => by simp at h⟩)

theorem suffix_tail (h : l <:+ text) : l.tail <:+ text := (List.tail_suffix l).trans h

theorem ZCfg.nextSim (H : ZCfg C D) : NextSim C D (ZR text) E where
  next := by
    intro s t h
    obtain ⟨l, d, h1, rfl, rfl⟩ := zlex_iff.mp h
    by_cases ho : Ok l.tail
    · rw [H.nextL ho, H.nextR ho]
      exact ResSim.zok (suffix_tail h1) _
    · obtain ⟨s', e1, g1⟩ := H.badL (d := d) ho
      obtain ⟨t', e2, g2⟩ := H.badR (d := d) ho
      rw [e1, e2]
      refine Or.inr (Or.inr ⟨rfl, ?_, fun ⟨a, h⟩ => by simp at h⟩)
      exact ⟨g1.1.trans g2.1.symm, g1.2.1.trans g2.2.1.symm, g1.2.2.1.trans g2.2.2.1.symm,
        g1.2.2.2.trans g2.2.2.2.symm⟩
  enc := H.enc
  w := H.w
  debug := H.debug
  fo := H.fo
  bound := H.bound

/-- One read and what comes after it. -/
theorem ZCfg.nextBind (H : ZCfg C D) (hl : l <:+ text) {f : Nat → L CpS F α} {g : Nat → L (List (Option Nat) × Bool) F α}
    (h : Ok l.tail → ResSim (ZR text) E (f (hd l.tail) (At l.tail d)) (g (hd l.tail) (StR l.tail d))) :
    ResSim (ZR text) E ((readNext C >>= f) (At l d)) ((readNext D >>= g) (StR l d)) := by
  by_cases ho : Ok l.tail
  · simp only [M.bind_def]
    rw [H.nextL ho, H.nextR ho]
    exact h ho
  · have := (H.nextSim (text := text) (E := E)).next _ _ (zlex_iff.mpr ⟨l, d, hl, rfl, rfl⟩)
    obtain ⟨s', e1, g1⟩ := H.badL (d := d) ho
    obtain ⟨t', e2, g2⟩ := H.badR (d := d) ho
    simp only [M.bind_def]
    rw [e1, e2] at this ⊢
    rcases this with h | ⟨_, h⟩ | ⟨_, h, _⟩
    · simp at h
    · simp at h
    · exact Or.inr (Or.inr ⟨rfl, h, fun ⟨a, h⟩ => by simp at h⟩)

/-! ## Comments -/

theorem ZCfg.lineFuel (H : ZCfg C D) (m : Nat) : (lineComment D m (StR [] d)).1 = .error .fuel := by
  induction m with
  | zero => rfl
  | succ m ih =>
    unfold lineComment
    simp only [M.bind_def, H.nextR (l := []) Ok.nil, List.tail_nil]
    rw [if_neg (by decide)]
    simp only [M.bind_def, H.eofR, Bool.false_eq_true, if_false]
    exact ih

theorem ZCfg.blockFuel (H : ZCfg C D) (m : Nat) : (blockComment D m (StR [] d)).1 = .error .fuel := by
  induction m with
  | zero => rfl
  | succ m ih =>
    unfold blockComment
    simp only [M.bind_def, H.nextR (l := []) Ok.nil, List.tail_nil]
    rw [if_neg (by decide)]
    simp only [M.bind_def, H.eofR, Bool.false_eq_true, if_false]
    exact ih

/-- An input whose first character is not malformed. -/
theorem Ok.cases {l : List (Option Nat)} (h : Ok l) : l = [] ∨ ∃ c k, l = some c :: k := by
  cases l with
  | nil => exact Or.inl rfl
  | cons x k =>
    cases x with
    | none => simp [Ok] at h
    | some c => exact Or.inr ⟨c, k, rfl⟩

theorem ZCfg.line (H : ZCfg C D) (n m : Nat) (hn : n ≤ m) (hl : l <:+ text)
    (hE : ∀ t, l.tail = t.map some → Line t → E) :
    ResSim (ZR text) E (lineComment C n (At l d)) (lineComment D m (StR l d)) := by
  induction n generalizing m l with
  | zero => exact Or.inl rfl
  | succ n ih =>
    obtain ⟨m, rfl⟩ : ∃ k, m = k + 1 := ⟨m - 1, by omega⟩
    unfold lineComment
    refine H.nextBind hl fun ho => ?_
    have hs := suffix_tail hl
    rcases ho.cases with h0 | ⟨c, k, h0⟩ <;> rw [h0] at hs hE ⊢
    · rw [if_neg (show ¬ (hd [] == 0x0A || hd [] == 0x0D) = true by decide),
        if_neg (show ¬ (hd [] == 0x0A || hd [] == 0x0D) = true by decide)]
      simp only [M.bind_def, H.eofL, H.eofR, Bool.false_eq_true, if_false]
      exact Or.inr (Or.inl ⟨hE [] rfl (by intro c hc; simp at hc), H.lineFuel m⟩)
    · by_cases hc : (hd (some c :: k) == 0x0A || hd (some c :: k) == 0x0D) = true
      · rw [if_pos hc, if_pos hc]
        exact ResSim.zok hs _
      · rw [if_neg hc, if_neg hc]
        simp only [M.bind_def, H.eofL, H.eofR, Bool.false_eq_true, if_false, List.isEmpty_cons]
        refine ih m (by omega) hs fun t ht h => hE (c :: t) (by rw [List.map_cons, ← ht]; rfl) ?_
        intro x hx
        rcases List.mem_cons.mp hx with rfl | hx
        · simp only [hd, Bool.or_eq_true, beq_iff_eq, not_or] at hc; exact hc
        · exact h x hx

theorem ZCfg.block (H : ZCfg C D) (n m : Nat) (hn : n ≤ m) (hl : l <:+ text)
    (hE : ∀ t, l.tail = t.map some → (¬ ∃ b k, t = b ++ k ∧ BlockBody b) → E) :
    ResSim (ZR text) E (blockComment C n (At l d)) (blockComment D m (StR l d)) := by
  induction n generalizing m l with
  | zero => exact Or.inl rfl
  | succ n ih =>
    obtain ⟨m, rfl⟩ : ∃ k, m = k + 1 := ⟨m - 1, by omega⟩
    unfold blockComment
    refine H.nextBind hl fun ho => ?_
    have hs := suffix_tail hl
    rcases ho.cases with h0 | ⟨c, k, h0⟩ <;> rw [h0] at hs hE ⊢
    · rw [if_neg (show ¬ (hd [] == 0x2A) = true by decide), if_neg (show ¬ (hd [] == 0x2A) = true by decide)]
      simp only [M.bind_def, H.eofL, H.eofR, Bool.false_eq_true, if_false]
      refine Or.inr (Or.inl ⟨hE [] rfl ?_, H.blockFuel m⟩)
      rintro ⟨b, k, h1, h2⟩
      have : b = [] := (List.append_eq_nil_iff.mp h1.symm).1
      subst this; cases h2
    · by_cases hc : (hd (some c :: k) == 0x2A) = true
      · rw [if_pos hc, if_pos hc]
        have hc' : c = 0x2A := beq_iff_eq.mp hc
        subst hc'
        refine H.nextBind hs fun ho2 => ?_
        have hs2 : k <:+ text := (List.suffix_cons _ _).trans hs
        rw [List.tail_cons] at ho2 ⊢
        rcases ho2.cases with h1 | ⟨e, k2, h1⟩ <;> subst h1
        · rw [if_neg (show ¬ (hd [] == 0x2F) = true by decide), if_neg (show ¬ (hd [] == 0x2F) = true by decide)]
          simp only [M.bind_def, H.eofL, H.eofR, Bool.false_eq_true, if_false]
          refine Or.inr (Or.inl ⟨hE [0x2A] rfl ?_, H.blockFuel m⟩)
          rintro ⟨b, k, h1, h2⟩
          cases h2 with
          | close => simp at h1
          | other hne _ => simp only [List.cons_append, List.cons.injEq] at h1; exact hne h1.1.symm
          | star _ _ => simp at h1
        · by_cases he : (hd (some e :: k2) == 0x2F) = true
          · rw [if_pos he, if_pos he]
            refine H.nextBind hs2 fun _ => ?_
            exact ResSim.zok (suffix_tail hs2) _
          · rw [if_neg he, if_neg he]
            simp only [M.bind_def, H.eofL, H.eofR, Bool.false_eq_true, if_false, List.isEmpty_cons]
            refine ih m (by omega) hs2 fun t ht h => hE (0x2A :: e :: t) (by
              rw [List.map_cons, List.map_cons, ← ht]; rfl) ?_
            rintro ⟨b, r, h1, h2⟩
            cases h2 with
            | close =>
              simp only [List.cons_append, List.nil_append, List.cons.injEq, true_and] at h1
              exact he (beq_iff_eq.mpr h1.1)
            | other hne _ => simp only [List.cons_append, List.cons.injEq] at h1; exact hne h1.1.symm
            | star _ hb =>
              simp only [List.cons_append, List.cons.injEq, true_and] at h1
              exact h ⟨_, r, h1.2, hb⟩
      · rw [if_neg hc, if_neg hc]
        simp only [M.bind_def, H.eofL, H.eofR, Bool.false_eq_true, if_false, List.isEmpty_cons]
        refine ih m (by omega) hs fun t ht h => hE (c :: t) (by rw [List.map_cons, ← ht]; rfl) ?_
        rintro ⟨b, r, h1, h2⟩
        cases h2 with
        | close =>
          simp only [List.cons_append, List.cons.injEq] at h1
          exact hc (beq_iff_eq.mpr h1.1)
        | other _ hb =>
          simp only [List.cons_append, List.cons.injEq] at h1
          exact h ⟨_, r, h1.2, hb⟩
        | star _ hb =>
          simp only [List.cons_append, List.cons.injEq] at h1
          exact hc (beq_iff_eq.mpr h1.1)

theorem hd_eq_cons {c : Nat} (hc : c ≠ 0) (h : hd l = c) : ∃ k, l = some c :: k := by
  cases l with
  | nil => exact absurd h.symm hc
  | cons a l =>
    cases a with
    | none => exact absurd h.symm hc
    | some a => exact ⟨l, by rw [← h]; rfl⟩

theorem ZCfg.spaces (H : ZCfg C D) (n m : Nat) (hn : n ≤ m) :
    Sim (ZR text) (Unclosed text) (skipSpaces C n) (skipSpaces D m) := by
  induction n generalizing m with
  | zero => exact Sim.fuel _
  | succ n ih =>
    obtain ⟨m, rfl⟩ : ∃ k, m = k + 1 := ⟨m - 1, by omega⟩
    unfold skipSpaces
    have hi := ih m (by omega)
    refine Sim.bind (Sim.skipBlanks H.nextSim _ _ H.bound) fun _ => ?_
    intro s t h
    obtain ⟨l, d, hl, rfl, rfl⟩ := zlex_iff.mp h
    simp only [M.bind_def, cur, M.gets]
    by_cases hc : (At l d).cur == 0x2F
    · rw [if_pos hc, if_pos (show ((StR l d).cur == 0x2F) = true from hc)]
      obtain ⟨k, rfl⟩ := hd_eq_cons (l := l) (by decide) (beq_iff_eq.mp hc)
      refine H.nextBind hl fun ho => ?_
      rw [List.tail_cons] at ho ⊢
      have hk : k <:+ text := (List.suffix_cons _ _).trans hl
      obtain ⟨p, hp⟩ := hl
      by_cases h1 : (hd k == 0x2F) = true
      · rw [if_pos h1, if_pos h1]
        obtain ⟨k, rfl⟩ := hd_eq_cons (l := k) (by decide) (beq_iff_eq.mp h1)
        have hline := H.line (d := d) (E := Unclosed text) C.bound D.bound H.bound hk
          (fun q hq hl => Or.inl ⟨p, q, by rw [← hp, ← hq]; rfl, hl⟩)
        simp only [M.bind_def]
        refine hline.elim ?_ ?_ ?_ ?_
        · intro s' hr; rw [hr]; exact Or.inl rfl
        · intro hE t' hq; rw [hq]; exact Or.inr (Or.inl ⟨hE, rfl⟩)
        · intro e s' t' hr hq hd; rw [hr, hq]; exact Or.inr (Or.inr ⟨rfl, hd, fun ⟨a, h⟩ => by simp at h⟩)
        · intro a s' t' hr hq hl; rw [hr, hq]
          cases a with
          | true => exact hi s' t' hl
          | false => exact Or.inr (Or.inr ⟨rfl, hl.2.2, fun _ => hl⟩)
      · rw [if_neg h1, if_neg h1]
        by_cases h2 : (hd k == 0x2A) = true
        · rw [if_pos h2, if_pos h2]
          obtain ⟨k, rfl⟩ := hd_eq_cons (l := k) (by decide) (beq_iff_eq.mp h2)
          have hblock := H.block (d := d) (E := Unclosed text) C.bound D.bound H.bound hk
            (fun q hq hl => Or.inr ⟨p, q, by rw [← hp, ← hq]; rfl, hl⟩)
          simp only [M.bind_def]
          refine hblock.elim ?_ ?_ ?_ ?_
          · intro s' hr; rw [hr]; exact Or.inl rfl
          · intro hE t' hq; rw [hq]; exact Or.inr (Or.inl ⟨hE, rfl⟩)
          · intro e s' t' hr hq hd; rw [hr, hq]; exact Or.inr (Or.inr ⟨rfl, hd, fun ⟨a, h⟩ => by simp at h⟩)
          · intro a s' t' hr hq hl; rw [hr, hq]
            exact hi s' t' hl
        · rw [if_neg h2, if_neg h2]
          exact ResSim.zerr _ _ _
    · rw [if_neg hc, if_neg (show ¬ ((StR l d).cur == 0x2F) = true from hc)]
      exact ResSim.zok hl _

/-! ## Strings and tokens -/

theorem ZCfg.stringLoop (H : ZCfg C D) (n m : Nat) (hn : n ≤ m) :
    Sim (ZR text) (Unclosed text) (Lexer.stringLoop C n) (Lexer.stringLoop D m) := by
  induction n generalizing m with
  | zero => exact Sim.fuel _
  | succ n ih =>
    obtain ⟨m, rfl⟩ : ∃ k, m = k + 1 := ⟨m - 1, by omega⟩
    rw [stringLoop_succ, stringLoop_succ]
    intro s t h
    obtain ⟨l, d, hl, rfl, rfl⟩ := zlex_iff.mp h
    refine H.nextBind hl fun ho => ?_
    simp only [M.bind_def, H.eofL, H.eofR, Bool.false_eq_true, if_false]
    have hs := suffix_tail hl
    rcases ho.cases with h0 | ⟨c, k, h0⟩ <;> rw [h0] at hs ⊢
    · simp only [List.isEmpty_nil, if_true]
      exact ResSim.zerr _ _ _
    · simp only [List.isEmpty_cons, Bool.false_eq_true, if_false]
      exact Sim.stringTail H.nextSim (ih m (by omega)) _ _ _ (zlex_iff.mpr ⟨_, _, hs, rfl, rfl⟩)

theorem ZCfg.scan (H : ZCfg C D) : Sim (ZR text) (Unclosed text) (Lexer.scan C) (Lexer.scan D) := by
  rw [scan_eq, scan_eq]
  refine Sim.bind (H.spaces _ _ H.bound) fun _ => ?_
  intro s t h
  obtain ⟨l, d, hl, rfl, rfl⟩ := zlex_iff.mp h
  simp only [M.bind_def, H.eofL, H.eofR, Bool.false_eq_true, if_false]
  cases l with
  | nil =>
    simp only [List.isEmpty_nil, if_true]
    exact ResSim.zok hl _
  | cons c k =>
    simp only [List.isEmpty_cons, Bool.false_eq_true, if_false]
    exact Sim.scanTail H.nextSim _ _ h

theorem ZCfg.parserSim (H : ZCfg C D) : ParserSim C D (ZR text) (Unclosed text) :=
  ⟨H.scan, Sim.scanString H.nextSim (H.stringLoop _ _ H.bound), H.fo⟩

/-- Parsing an input that does not end. -/
theorem ZCfg.parse (H : ZCfg C D) {n m : Nat} (hnm : n ≤ m) (h : Option Handler) (c : Value F) (zero : F)
    (hf : (parse C n h c (Lex.init ⟨text, false, false⟩ zero)).1 ≠ .error .fuel) :
    SameParse (Configor.parse C n h c (Lex.init ⟨text, false, false⟩ zero))
        (Configor.parse D m h c (Lex.init (text, false) zero)) ∨
      (Unclosed text ∧ (Configor.parse D m h c (Lex.init (text, false) zero)).1 = .error .fuel) := by
  let d : Data F := ⟨false, 0, zero, .ofString []⟩
  by_cases ho : Ok text
  · have e1 : readNext C (Lex.init ⟨text, false, false⟩ zero) = (.ok (hd text), At text d) := by
      unfold readNext; rw [H.left]
      rcases ho.cases with h0 | ⟨c, k, h0⟩ <;> subst h0 <;> rfl
    have e2 : readNext D (Lex.init (text, false) zero) = (.ok (hd text), StR text d) := by
      unfold readNext; rw [H.right]
      rcases ho.cases with h0 | ⟨c, k, h0⟩ <;> subst h0 <;> rfl
    unfold Configor.parse at hf ⊢
    rw [e1] at hf
    rw [e1, e2]
    simp only at hf ⊢
    have hp := parseBody_sim (H.parserSim (text := text)) hnm c
      (zlex_iff.mpr ⟨text, d, List.suffix_refl _, rfl, rfl⟩)
    revert hf
    refine hp.elim ?_ ?_ ?_ ?_
    · intro s v hr hfuel; exact absurd (handled_fuel (by rw [hr])) hfuel
    · intro hE t v hq _; exact Or.inr ⟨hE, handled_fuel (by rw [hq])⟩
    · intro e s t v hr hq hd _
      left
      rw [hr, hq]
      cases e <;> cases h <;> simp only [handled, SameParse] <;> try exact ⟨trivial, trivial⟩
      split <;> simp
    · intro s t v hr hq hl _
      left
      rw [hr, hq]
      cases h <;> simp [handled, SameParse]
  · left
    unfold Configor.parse readNext
    rw [H.left, H.right]
    cases text with
    | nil => exact absurd Ok.nil ho
    | cons x l =>
      cases x with
      | none => exact ⟨rfl, rfl⟩
      | some c => exact absurd (Ok.cons _ _) ho

end Configor
