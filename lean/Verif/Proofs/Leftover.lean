import Verif.Proofs.TokenFail
import Verif.Spec.Leftover
/-! What a failed parse leaves in its argument. -/
namespace Configor
open Lexer Spec

variable {F α β : Type} {C : Cfg CpS F} {l k : List (Option Nat)} {d : Data F}

theorem readable_iff : Readable l ↔ Ok l := Iff.rfl

/-! ## Strings -/

/-- A failing encoder writes nothing. -/
def Atomic (enc : Encoder) : Prop :=
  ∀ o cp, o.failb = false → (enc o cp).failb = true → (enc o cp).out = o.out

theorem Enc.atomic (e : Enc) (w : Nat) : Atomic (e.encode w) := by
  intro o cp ho hf
  cases e with
  | ignore => simp [Enc.encode, ignoreEncode, OStream.put, ho] at hf
  | utf8 =>
    simp only [Enc.encode, utf8Encode] at hf ⊢
    split at hf <;> rename_i h1
    · simp [OStream.put_failb, ho] at hf
    split at hf <;> rename_i h2
    · simp [OStream.put_failb, ho] at hf
    split at hf <;> rename_i h3
    · simp [OStream.put_failb, ho] at hf
    split at hf <;> rename_i h4
    · simp [OStream.put_failb, ho] at hf
    rw [if_neg h1, if_neg h2, if_neg h3, if_neg h4]
    rfl
  | utf16 =>
    simp only [Enc.encode, utf16Encode] at hf ⊢
    split at hf <;> rename_i h1
    · simp [OStream.put_failb, ho] at hf
    split at hf <;> rename_i h2
    · simp [OStream.put_failb, ho] at hf
    rw [if_neg h1, if_neg h2]
    rfl
  | utf32 =>
    simp only [Enc.encode, utf32Encode] at hf ⊢
    split at hf <;> rename_i h1
    · rw [if_pos h1]; rfl
    · simp [OStream.put_failb, ho] at hf

/-- `m` does not touch the string that is being built. -/
def Still (m : L CpS F α) : Prop := ∀ s, (m s).2.out = s.out

/-- If `m` fails the string is as before. -/
def ErrKeeps (m : L CpS F α) : Prop :=
  ∀ s, s.out.failb = false → ∀ e s', m s = (.error e, s') → s'.out.out = s.out.out

theorem Still.keeps {m : L CpS F α} (h : Still m) : ErrKeeps m := by
  intro s _ e s' hs
  have := h s
  rw [hs] at this
  exact congrArg OStream.out this

theorem Still.bind {m : L CpS F α} {f : α → L CpS F β} (h : Still m) (hf : ∀ a, Still (f a)) : Still (m >>= f) := by
  intro s
  have h1 := h s
  simp only [M.bind_def]
  rcases hm : m s with ⟨e | a, s1⟩
  · rw [hm] at h1; exact h1
  · rw [hm] at h1
    simp only at h1 ⊢
    rw [hf a s1, h1]

theorem ErrKeeps.bind {m : L CpS F α} {f : α → L CpS F β} (h : Still m) (hf : ∀ a, ErrKeeps (f a)) :
    ErrKeeps (m >>= f) := by
  intro s ho e s' hs
  have h1 := h s
  simp only [M.bind_def] at hs
  rcases hm : m s with ⟨e1 | a, s1⟩
  · rw [hm] at h1 hs
    simp only [Prod.mk.injEq] at h1 hs
    rw [← hs.2, h1]
  · rw [hm] at h1 hs
    simp only at h1 hs
    rw [hf a s1 (by rw [h1]; exact ho) e s' hs, h1]

theorem ErrKeeps.ite {c : Prop} [Decidable c] {m m' : L CpS F α} (h : ErrKeeps m) (h' : ErrKeeps m') :
    ErrKeeps (if c then m else m') := by split <;> assumption

theorem Still.pure (a : α) : Still (Pure.pure a : L CpS F α) := fun _ => rfl
theorem Still.fail : Still (Lexer.fail : L CpS F α) := fun _ => rfl
theorem Still.eof : Still (Lexer.eof C) := fun _ => rfl

theorem Still.readNext : Still (Lexer.readNext C) := by
  intro s
  unfold Lexer.readNext
  simp only
  split
  · split <;> rfl
  · rfl

theorem Still.readEscaped : Still (readEscaped C) := by
  have : ∀ (fs : List Nat) (code : Nat), Still (readEscapedLoop C fs code) := by
    intro fs
    induction fs with
    | nil => intro code; exact .pure _
    | cons f fs ih =>
      intro code
      unfold readEscapedLoop
      refine .bind .readNext fun a => ?_
      split
      · exact ih _
      · exact .fail
  exact this _ _

theorem keeps_putCp (hat : Atomic C.enc) (cp : Nat) : ErrKeeps (putCp C cp) := by
  intro s ho e s' hs
  unfold putCp at hs
  simp only [M.bind_def, M.modify, M.gets] at hs
  split at hs
  · cases hs
  · rename_i hg
    simp only [Lexer.fail, M.throw, M.stop, Prod.mk.injEq] at hs
    rw [← hs.2]
    refine hat _ _ ho ?_
    simpa [OStream.good] using hg

theorem keeps_putAscii (c : Nat) : ErrKeeps (putAscii c : L CpS F Unit) := by
  intro s ho e s' hs
  unfold putAscii at hs
  cases hs

theorem keeps_scanEscape (hat : Atomic C.enc) : ErrKeeps (scanEscape C) := by
  unfold scanEscape
  refine .bind .readNext fun c => ?_
  refine .ite (keeps_putAscii _) (.ite (keeps_putAscii _) (.ite (keeps_putAscii _) (.ite (keeps_putAscii _)
    (.ite (keeps_putAscii _) (.ite (keeps_putAscii _) (.ite (keeps_putAscii _) (.ite (keeps_putAscii _)
    (.ite ?_ Still.fail.keeps))))))))
  unfold scanUnicodeEscape
  refine .bind .readEscaped fun cp => .ite ?_ (keeps_putCp hat _)
  refine .bind .readNext fun a => .ite Still.fail.keeps ?_
  refine .bind .readNext fun b => .ite Still.fail.keeps ?_
  exact .bind .readEscaped fun tr => .ite Still.fail.keeps (keeps_putCp hat _)

theorem strChars_nil {t : List Nat} (h : StrChars t []) : t = [0x22] := by cases h; rfl

theorem strChars_unit' {t l : List Nat} (h : StrChars t l) : ∀ cp cps, l = cp :: cps →
    ∃ t1 t2, t = t1 ++ t2 ∧ StrUnit t1 cp ∧ StrChars t2 cps := by
  cases h with
  | close => intro cp cps h; cases h
  | raw h1 h2 h3 h =>
    intro cp cps he
    obtain ⟨e1, e2⟩ := List.cons.inj he
    rw [← e1, ← e2]
    exact ⟨[_], _, rfl, .raw h1 h2 h3, h⟩
  | esc h1 h =>
    intro cp cps he
    obtain ⟨e1, e2⟩ := List.cons.inj he
    rw [← e1, ← e2]
    exact ⟨[_, _], _, rfl, .esc h1, h⟩
  | uni h1 h2 h =>
    intro cp cps he
    obtain ⟨e1, e2⟩ := List.cons.inj he
    rw [← e1, ← e2]
    exact ⟨_, _, rfl, .uni h1 h2, h⟩
  | @pair a u b u' t _ h1 h2 h3 h4 h =>
    intro cp cps he
    obtain ⟨e1, e2⟩ := List.cons.inj he
    rw [← e1, ← e2]
    exact ⟨0x5C :: 0x75 :: a ++ (0x5C :: 0x75 :: b), t, by simp, .pair h1 h2 h3 h4, h⟩

theorem strChars_unit {t cps : List Nat} {cp : Nat} (h : StrChars t (cp :: cps)) :
    ∃ t1 t2, t = t1 ++ t2 ∧ StrUnit t1 cp ∧ StrChars t2 cps := strChars_unit' h cp cps rfl

theorem escText_unit {e : List Nat} {cp : Nat} (h : EscText e cp) : StrUnit (0x5C :: e) cp := by
  obtain ⟨t1, t2, h1, h2, h3⟩ := strChars_unit (h _ _ .close)
  rw [strChars_nil h3] at h1
  rw [List.append_cancel_right h1]
  exact h2

theorem strUnit_cons {t : List Nat} {cp : Nat} (h : StrUnit t cp) : ∃ c t', t = c :: t' ∧ c ≠ 0x22 := by
  cases h with
  | raw h1 h2 => exact ⟨_, _, rfl, h2⟩
  | esc => exact ⟨_, _, rfl, by decide⟩
  | uni => exact ⟨_, _, rfl, by decide⟩
  | pair => exact ⟨_, _, rfl, by decide⟩

/-- One round of the string loop. -/
theorem string_step (H : Canon C) (hat : Atomic C.enc) (n x : Nat) (k : List (Option Nat)) (d : Data F)
    (hd0 : d.out.failb = false) :
    (∃ t cp k' y, StrUnit t cp ∧ k = txt t k' ∧ (C.enc d.out cp).failb = false ∧
      stringLoop C (n + 1) (At (some x :: k) d) = stringLoop C n (At (some y :: k') (d.put C cp))) ∨
    (∃ r, k = some 0x22 :: r ∧ Ok r ∧ stringLoop C (n + 1) (At (some x :: k) d) = (.ok (), At r d)) ∨
    ((∃ e s, stringLoop C (n + 1) (At (some x :: k) d) = (.error e, s) ∧ s.out.out = d.out.out) ∧
      (∀ t cp r, StrUnit t cp → k = txt t r → (C.enc d.out cp).failb = true) ∧
      ∀ r, k = some 0x22 :: r → ¬ Ok r) := by
  by_cases hu : ∃ t cp k', StrUnit t cp ∧ k = txt t k' ∧ (C.enc d.out cp).failb = false
  · obtain ⟨t, cp, k', h1, rfl, h2⟩ := hu
    rcases string_unit (k := k') H h1 hd0 n x with ⟨h3, _⟩ | ⟨_, y, h4⟩
    · rw [h2] at h3; cases h3
    · exact Or.inl ⟨t, cp, k', y, h1, rfl, h2, h4⟩
  right
  have hu' : ∀ t cp r, StrUnit t cp → k = txt t r → (C.enc d.out cp).failb = true := by
    intro t cp r h1 h2
    cases hf : (C.enc d.out cp).failb with
    | true => rfl
    | false => exact absurd ⟨t, cp, r, h1, h2, hf⟩ hu
  rcases readNext_eq H (some x :: k) d with ⟨hbad, herr⟩ | ⟨ho, hok⟩
  · right
    have hst := Still.readNext (C := C) (At (some x :: k) d)
    rcases hr : readNext C (At (some x :: k) d) with ⟨r, s⟩
    rw [hr] at herr hst
    simp only at herr hst
    subst herr
    refine ⟨⟨.exn .deserialization, s, ?_, congrArg OStream.out hst⟩, hu', ?_⟩
    · conv => lhs; unfold stringLoop
      simp only [M.bind_def, hr]
    · rintro r rfl
      simp at hbad
  · simp only [List.tail_cons] at ho hok
    have heof : eof C (At k d) = (.ok k.isEmpty, At k d) := by
      unfold eof; rw [H.src]; rfl
    cases k with
    | nil =>
      right
      refine ⟨⟨.exn .deserialization, At [] d, ?_, rfl⟩, hu', by simp⟩
      conv => lhs; unfold stringLoop
      rw [M.bind_ok hok, M.bind_ok heof]
      rfl
    | cons o r =>
    cases o with
    | none => exact absurd rfl ho
    | some c =>
    by_cases hc : c = 0x22
    · subst hc
      have e1 : stringLoop C (n + 1) (At (some x :: some 0x22 :: r) d) =
          (readNext C >>= fun _ => (Pure.pure () : L CpS F Unit)) (At (some 0x22 :: r) d) := by
        conv => lhs; unfold stringLoop
        rw [M.bind_ok hok, M.bind_ok heof]
        rfl
      rw [e1]
      by_cases hro : Ok r
      · refine Or.inl ⟨r, rfl, hro, ?_⟩
        rw [M.bind_ok (readNext_ok H d (l := some 0x22 :: r) hro)]
        rfl
      · refine Or.inr ⟨?_, hu', fun r' h => by cases h; exact hro⟩
        rcases readNext_eq H (some 0x22 :: r) d with ⟨_, herr⟩ | ⟨h, _⟩
        · have hst := Still.readNext (C := C) (At (some 0x22 :: r) d)
          rcases hr : readNext C (At (some 0x22 :: r) d) with ⟨r, s⟩
          rw [hr] at herr hst
          simp only at herr hst
          subst herr
          exact ⟨.exn .deserialization, s, by simp only [M.bind_def, hr], congrArg OStream.out hst⟩
        · exact absurd h hro
    · right
      refine ⟨?_, hu', fun r' h => by simp only [List.cons.injEq, Option.some.injEq] at h; exact absurd h.1 hc⟩
      have e1 : stringLoop C (n + 1) (At (some x :: some c :: r) d) =
          (if c ≤ 0x1F then Lexer.fail else if c == 0x5C then scanEscape C >>= fun _ => stringLoop C n
            else putCp C c >>= fun _ => stringLoop C n) (At (some c :: r) d) := by
        conv => lhs; unfold stringLoop
        rw [M.bind_ok hok, M.bind_ok heof]
        simp only [List.isEmpty_cons, Bool.false_eq_true, if_false]
        rw [if_neg (show ¬ (hd (some c :: r) == 0x22) = true by simpa using hc)]
        rfl
      rw [e1]
      split
      · exact ⟨_, _, rfl, rfl⟩
      rename_i hlo
      split
      · rename_i hbs
        have hbs : c = 0x5C := by simpa using hbs
        subst hbs
        have hp := post_scanEscape (E := fun _ => True) (l := some 0x5C :: r) (d := d) H trivial (.cons _ _) rfl hd0
        unfold Post at hp
        rcases hr : scanEscape C (At (some 0x5C :: r) d) with ⟨e | a, s⟩
        · refine ⟨e, s, by simp only [M.bind_def, hr], ?_⟩
          exact keeps_scanEscape hat _ (by exact hd0) _ _ hr
        · rw [hr] at hp
          obtain ⟨t, l', d', rfl, ho', hl, hne, e, cp, h1, h2, rfl, h4⟩ := hp
          obtain ⟨r', hr'⟩ := cons_of_hd hne
          refine absurd ⟨_, cp, r', escText_unit h2, ?_, h4⟩ hu
          rw [← h1, one_of_hd hne, hl, hr']
          simp [txt]
      · rename_i hbs
        have hbs : c ≠ 0x5C := by simpa using hbs
        have hf := hu' [c] c r (.raw (by omega) hc hbs) rfl
        obtain ⟨s, hs⟩ := fail_putCp (l := some c :: r) (d := d) (C := C) c hf
        refine ⟨.exn .deserialization, s, by simp only [M.bind_def, hs], ?_⟩
        exact keeps_putCp hat c _ (by exact hd0) _ _ hs

theorem writeAll_cons (enc : Encoder) (o : OStream) (c : Nat) (cps : List Nat) :
    writeAll enc o (c :: cps) = writeAll enc (enc o c) cps := rfl

theorem writeAll_snoc (enc : Encoder) (o : OStream) (c : Nat) (cps : List Nat) :
    writeAll enc o (cps ++ [c]) = enc (writeAll enc o cps) c := by
  simp [writeAll, List.foldl_append]

/-- How the loop of a string fails. -/
def LoopCut (C : Cfg CpS F) (o : OStream) (k : List (Option Nat)) (w : List Nat) : Prop :=
  ∃ p cps k', k = txt p k' ∧ StrPart p cps ∧ (writeAll C.enc o cps).failb = false ∧
    (writeAll C.enc o cps).out = w ∧
    (∀ t cp r, StrUnit t cp → k' = txt t r → (writeAll C.enc o (cps ++ [cp])).failb = true) ∧
    ∀ r, k' = some 0x22 :: r → ¬ Ok r

theorem loop_cut (H : Canon C) (hat : Atomic C.enc) (n x : Nat) (k : List (Option Nat)) (d : Data F)
    (hd0 : d.out.failb = false) (hn : k.length + 1 ≤ n) {e : Stop} {s : Lex CpS F}
    (h : stringLoop C n (At (some x :: k) d) = (.error e, s)) : LoopCut C d.out k s.out.out := by
  induction n generalizing x k d with
  | zero => omega
  | succ n ih =>
    rcases string_step H hat n x k d hd0 with ⟨t, cp, k', y, h1, rfl, h2, h3⟩ | ⟨r, _, _, h3⟩ | ⟨⟨e', s', h3, h4⟩, h5, h6⟩
    · rw [h3] at h
      obtain ⟨c, t', rfl, _⟩ := strUnit_cons h1
      obtain ⟨p, cps, k'', rfl, g1, g2, g3, g4, g5⟩ := ih y k' (d.put C cp) h2
        (by rw [txt_length] at hn; simp at hn; omega) h
      exact ⟨_, cp :: cps, k'', (txt_append ..).symm, .more h1 g1, g2, g3, g4, g5⟩
    · rw [h3] at h; cases h
    · rw [h3] at h
      simp only [Prod.mk.injEq] at h
      rw [← h.2, h4]
      refine ⟨[], [], k, rfl, .nil, hd0, rfl, h5, h6⟩

theorem loop_cut_complete (H : Canon C) (hst : Sticky C.enc) (hat : Atomic C.enc) {p cps : List Nat} (hp : StrPart p cps)
    (n x : Nat) (k' : List (Option Nat)) (d : Data F)
    (hd0 : (writeAll C.enc d.out cps).failb = false) (hn : p.length + 1 ≤ n)
    (hu : ∀ t cp r, StrUnit t cp → k' = txt t r → (writeAll C.enc d.out (cps ++ [cp])).failb = true)
    (hq : ∀ r, k' = some 0x22 :: r → ¬ Ok r) :
    ∃ e s, stringLoop C n (At (some x :: txt p k') d) = (.error e, s) ∧ s.out.out = (writeAll C.enc d.out cps).out := by
  induction hp generalizing n x d with
  | nil =>
    obtain ⟨n, rfl⟩ : ∃ m, n = m + 1 := ⟨n - 1, by omega⟩
    rcases string_step H hat n x k' d hd0 with ⟨t, cp, k'', y, h1, h2, h3, _⟩ | ⟨r, h1, h2, _⟩ | ⟨⟨e', s', h3, h4⟩, _⟩
    · have := hu t cp k'' h1 h2
      rw [List.nil_append] at this
      change (C.enc d.out cp).failb = true at this
      rw [h3] at this; cases this
    · exact absurd h2 (hq r h1)
    · exact ⟨e', s', h3, h4⟩
  | @more t cp p cps ht hp ih =>
    obtain ⟨n, rfl⟩ : ∃ m, n = m + 1 := ⟨n - 1, by omega⟩
    have h1 : (C.enc d.out cp).failb = false := writeAll_sticky hst cps hd0
    have h0 : d.out.failb = false := writeAll_sticky hst (cp :: cps) hd0
    obtain ⟨c, t', rfl, _⟩ := strUnit_cons ht
    rcases string_unit (k := txt p k') H ht h0 n x with ⟨h3, _⟩ | ⟨_, y, h4⟩
    · rw [h1] at h3; cases h3
    · rw [txt_append, ← txt_cons, h4]
      exact ih n y (d.put C cp) hd0 (by simp at hn; omega) hu

theorem strCut_iff (k : List (Option Nat)) (w : List Nat) :
    StrCut C.dialect k w ↔ LoopCut C (.ofString []) k w := by
  have hs : ∀ cps s, C.dialect.store cps = some s ↔ (writeAll C.enc (.ofString []) cps).failb = false ∧
      (writeAll C.enc (.ofString []) cps).out = s := by
    intro cps s
    simp only [Cfg.dialect, storeWith]
    split <;> simp_all
  have hn : ∀ cps, C.dialect.store cps = none ↔ (writeAll C.enc (.ofString []) cps).failb = true := by
    intro cps
    simp only [Cfg.dialect, storeWith]
    split <;> simp_all
  unfold StrCut LoopCut
  constructor
  · rintro ⟨p, cps, k', h1, h2, h3, h4, h5⟩
    exact ⟨p, cps, k', h1, h2, ((hs _ _).1 h3).1, ((hs _ _).1 h3).2, fun t cp r a b => (hn _).1 (h4 t cp r a b), h5⟩
  · rintro ⟨p, cps, k', h1, h2, h3, h3', h4, h5⟩
    exact ⟨p, cps, k', h1, h2, (hs _ _).2 ⟨h3, h3'⟩, fun t cp r a b => (hn _).2 (h4 t cp r a b), h5⟩

theorem scanString_eq (k : List (Option Nat)) (d : Data F) :
    scanString C (At (some 0x22 :: k) d) = stringLoop C C.bound (At (some 0x22 :: k) { d with out := .ofString [] }) := by
  unfold scanString
  have hm : (M.modify fun s => { s with out := .ofString [] } : L _ _ Unit) (At (some 0x22 :: k) d) =
    (.ok (), At (some 0x22 :: k) { d with out := .ofString [] }) := rfl
  have hc : cur (At (some 0x22 :: k) { d with out := .ofString [] }) = (.ok 0x22, At (some 0x22 :: k) { d with out := .ofString [] }) := rfl
  rw [M.bind_ok hm, M.bind_ok hc, assert_true (by simp)]
  rfl

theorem scanString_cut (H : Canon C) (hst : Sticky C.enc) (hat : Atomic C.enc) (k : List (Option Nat)) (d : Data F)
    (w : List Nat) (hb : k.length + 1 ≤ C.bound) :
    (∃ e s, scanString C (At (some 0x22 :: k) d) = (.error e, s) ∧ s.out.out = w) ↔ StrCut C.dialect k w := by
  rw [strCut_iff, scanString_eq]
  constructor
  · rintro ⟨e, s, h, rfl⟩
    exact loop_cut H hat _ _ _ _ rfl hb h
  · rintro ⟨p, cps, k', rfl, h1, h2, rfl, h3, h4⟩
    rw [txt_length] at hb
    exact loop_cut_complete H hst hat h1 _ _ _ { d with out := .ofString [] } h2 (by omega) h3 h4

end Configor
