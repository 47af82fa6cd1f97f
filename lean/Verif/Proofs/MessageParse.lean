import Verif.Proofs.MessageScan
import Verif.Proofs.LeftoverParse
/-! What the messages of the parser say. -/
set_option autoImplicit false
namespace Configor
open Lexer Spec

variable {F : Type} {C : Cfg CpS F} {l l0 k : List (Option Nat)} {d : Data F} {P : List Nat → Prop}

/-- If a result is an exception, its message satisfies `P`. -/
def PErrs {S : Type} (P : List Nat → Prop) (r : Msg.PRes S F) : Prop :=
  ∀ e msg, r.1 = .error (.exn e, msg) → ∃ i, msg = deserializationText i ∧ P i

theorem PErrs.ok {S : Type} (u : Unit) (s : Lex S F) (v : Value F) : PErrs P ((.ok u, s, v) : Msg.PRes S F) := by
  intro e msg h; cases h

theorem PErrs.token {S : Type} {t : Token} {m : List Nat} {s : Lex S F} {v : Value F}
    (h : P (m ++ text! " '" ++ t.text ++ text! "'")) : PErrs P ((.error (Msg.failToken t m), s, v) : Msg.PRes S F) := by
  intro e msg he
  simp only [Msg.failToken, Except.error.injEq, Prod.mk.injEq] at he
  exact ⟨_, he.2.symm, h⟩

theorem msg_scan_ok {a : Token} {s s' : Lex CpS F} (h : Msg.scan C s = (.ok a, s')) : scan C s = (.ok a, s') := by
  rw [erases_scan, h]; rfl

theorem msg_scanString_ok {s s' : Lex CpS F} (h : Msg.scanString C s = (.ok (), s')) : scanString C s = (.ok (), s') := by
  rw [erases_scanString, h]; rfl

theorem msg_doParse_ok {n : Nat} {c v : Value F} {t : Option Token} {s s' : Lex CpS F}
    (h : Msg.doParse C n c t s = (.ok (), s', v)) : doParse C n c t s = (.ok (), s', v) := by
  rw [← (erases_parse C n).1 c t s, h]; rfl

/-- What a token is called. -/
theorem found_of_scan (H : Canon C) (ho : Ok l) (hb : l.length + 1 ≤ C.bound) {a : Token} {s : Lex CpS F}
    (h : scan C (At l d) = (.ok a, s)) : Found C.dialect l a.text := by
  obtain ⟨t, l1, d1, rfl, ho1, hl, hr⟩ := scan_res H ho hb h
  have punct : ∀ ch name, (ch, name) ∈ punctuation → (∃ g, Gap g ∧ t = g ++ [ch]) → Found C.dialect l name := by
    rintro ch name hm ⟨g, hg, rfl⟩
    exact .punct hm ⟨g, hg, hl, ho1⟩
  have kw : ∀ w name, (w, name) ∈ keywords → (∃ g k, Gap g ∧ t = g ++ k ∧ Keyword C.w w k) → Found C.dialect l name := by
    rintro w name hm ⟨g, k, hg, rfl, hk⟩
    exact .keyword hm hg hl ho1 hk
  cases a
  case uninitialized => exact hr.elim
  case literalTrue => exact kw _ _ (.head _) hr
  case literalFalse => exact kw _ _ (.tail _ (.head _)) hr
  case literalNull => exact kw _ _ (.tail _ (.tail _ (.head _))) hr
  case valueString =>
    obtain ⟨r, hr'⟩ := cons_of_hd (l := l1) (by rw [hr.2]; decide)
    rw [hr.2] at hr'
    refine .string (g := t) (k' := r) hr.1 ?_
    rw [hl, hr']; simp [txt]
  case valueInteger =>
    obtain ⟨g, k, hg, rfl, hk⟩ := hr
    exact .integer hg hl ho1 hk
  case valueFloat =>
    obtain ⟨g, k, hg, rfl, hk⟩ := hr
    exact .float hg hl ho1 hk
  case beginArray => exact punct _ _ (.head _) hr
  case endArray => exact punct _ _ (.tail _ (.head _)) hr
  case beginObject => exact punct _ _ (.tail _ (.tail _ (.head _))) hr
  case endObject => exact punct _ _ (.tail _ (.tail _ (.tail _ (.head _)))) hr
  case nameSeparator => exact punct _ _ (.tail _ (.tail _ (.tail _ (.tail _ (.head _))))) hr
  case valueSeparator => exact punct _ _ (.tail _ (.tail _ (.tail _ (.tail _ (.tail _ (.head _)))))) hr
  case endOfInput => exact .ending hl hr

theorem unfit (a : Token) :
    (a.startsValue = false → a.text ∉ Place.fitting .start ∧ a.text ∉ Place.fitting .member ∧
      (a ≠ .endArray → a.text ∉ Place.fitting .elem)) ∧
    (a ≠ .valueSeparator → a ≠ .endArray → a.text ∉ Place.fitting .elemEnd) ∧
    (a ≠ .valueString → a ≠ .endObject → a.text ∉ Place.fitting .key) ∧
    (a ≠ .nameSeparator → a ≠ .endObject → a.text ∉ Place.fitting .colon) ∧
    (a ≠ .valueSeparator → a ≠ .endObject → a.text ∉ Place.fitting .memberEnd) ∧
    (a ≠ .endOfInput → a.text ∉ Place.fitting .done) := by
  cases a <;> refine ⟨fun h1 => ⟨?_, ?_, fun h2 => ?_⟩, fun h1 h2 => ?_, fun h1 h2 => ?_, fun h1 h2 => ?_, fun h1 h2 => ?_, fun h1 => ?_⟩ <;>
    first | (exact absurd h1 (by decide +kernel)) | (exact absurd h2 (by decide +kernel)) | decide +kernel

theorem _root_.Spec.Reached.mem {D : Dialect F} {p : Place} (h : Reached D l p k) : ∃ q : List Nat, l = q.map some ++ k := by
  induction h with
  | start => exact ⟨[], rfl⟩
  | arr _ _ hn ih | elemComma _ hn ih | obj _ _ hn ih | colon _ hn ih | memberComma _ hn ih =>
    obtain ⟨q, hq⟩ := ih
    obtain ⟨g, _, hg, _⟩ := hn
    rw [hg, ← List.append_assoc, ← List.map_append] at hq
    exact ⟨_, hq⟩
  | elem _ hn ih | key _ hn ih | member _ hn ih | done _ hn ih =>
    obtain ⟨q, hq⟩ := ih
    obtain ⟨g, t, _, hg, _⟩ := hn
    exact ⟨q ++ (g ++ t), by rw [hq, hg]; simp⟩

theorem _root_.Spec.Reached.mal {p : Place} (h : Reached C.dialect l0 p k) : Mal (Says C.dialect l0) k := by
  obtain ⟨q, hq⟩ := h.mem
  intro hn c m hs
  exact .malformed (by rw [hq]; simp [hn]) hs

/-- The message of a scan at a place. -/
theorem _root_.Spec.Reached.scan (H : Canon C) {p : Place} (h : Reached C.dialect l0 p k) (ho : Ok k) (hb : k.length + 1 ≤ C.bound) :
    Errs (Says C.dialect l0) (Msg.scan C) k d :=
  errs_scan H ho h.mal hb fun _ hm => .token h hm.any

theorem _root_.Spec.Reached.string (H : Canon C) {p : Place} (h : Reached C.dialect l0 p k) (hp : p.wantsValue ∨ p = .key) (ho : Ok k)
    (hb : k.length + 1 ≤ C.bound) {s1 : Lex CpS F} (hs : Configor.Lexer.scan C (At k d) = (.ok .valueString, s1)) :
    ∀ e msg s, Msg.scanString C s1 = (.error (.exn e, msg), s) → ∃ i, msg = deserializationText i ∧ Says C.dialect l0 i := by
  obtain ⟨t, l1, d1, rfl, ho1, hl, hr⟩ := scan_res H ho hb hs
  refine errs_scanString H hp hr.1 ho1 (h.mal.suffix hl) hr.2 fun m hm => .token h ?_
  rw [hl]
  exact hm

theorem msg_doParse_none (n : Nat) (c : Value F) (s : Lex CpS F) : Msg.doParse C (n + 1) c none s =
    match Msg.scan C s with
    | (.error e, s) => (.error e, s, c)
    | (.ok t, s) => Msg.doParse C (n + 1) c (some t) s := by
  unfold Msg.doParse
  rcases Msg.scan C s with ⟨e | t, s⟩ <;> rfl

theorem says_parse (H : Canon C) (n : Nat) :
    (∀ k d xs, Ok k → k.length + 1 ≤ C.bound → 2 * k.length + 1 ≤ n → Reached C.dialect l0 .elem k →
      PErrs (Says C.dialect l0) (Msg.parseArray C n xs (At k d))) ∧
    (∀ k d ms, Ok k → k.length + 1 ≤ C.bound → 2 * k.length + 1 ≤ n → Reached C.dialect l0 .key k →
      PErrs (Says C.dialect l0) (Msg.parseObject C n ms (At k d))) ∧
    (∀ p k d a l1 d1 c, Ok k → k.length + 1 ≤ C.bound → 2 * k.length ≤ n → Reached C.dialect l0 p k → p.wantsValue →
      (p = .elem → a.startsValue = true) → scan C (At k d) = (.ok a, At l1 d1) →
      PErrs (Says C.dialect l0) (Msg.doParse C n c (some a) (At l1 d1))) := by
  induction n with
  | zero =>
    refine ⟨?_, ?_, ?_⟩
    · intros; omega
    · intros; omega
    · intros
      rw [Msg.doParse]
      intro e msg h
      cases h
  | succ n ih =>
    obtain ⟨ihA, ihO, ihV⟩ := ih
    refine ⟨?_, ?_, ?_⟩
    · intro k d xs ho hb hn hR
      rw [Msg.parseArray]
      rcases hs : Msg.scan C (At k d) with ⟨e1 | a, s1⟩
      · intro e msg h
        cases h
        exact hR.scan H ho hb _ _ _ hs
      simp only
      have hs' := msg_scan_ok hs
      obtain ⟨t, l1, d1, rfl, ho1, hl1, hr⟩ := scan_res H ho hb hs'
      split
      · rename_i ha
        have hpos := begins_pos (scan_begins H ho hb hs' ha)
        have hV := ihV .elem k d a l1 d1 .null ho hb (by omega) hR (Or.inr (Or.inl rfl)) (fun _ => ha) hs'
        rcases hp : Msg.doParse C n .null (some a) (At l1 d1) with ⟨e2 | _, s2, v⟩
        · rw [hp] at hV
          exact fun e msg h => hV e msg h
        simp only
        obtain ⟨k2, d2, rfl, hc⟩ := parse_complete H ho hb hs' (by omega) (by omega) (msg_doParse_ok hp)
        have hkl := hc.length
        have hR2 := Reached.elem hR hc
        rcases hs2 : Msg.scan C (At k2 d2) with ⟨e3 | b, s3⟩
        · intro e msg h
          cases h
          exact hR2.scan H hc.ok (by omega) _ _ _ hs2
        simp only
        have hs2' := msg_scan_ok hs2
        split
        · rename_i hb1
          subst hb1
          obtain ⟨k', d3, rfl, hk'⟩ := scan_next H .comma hc.ok (by omega) hs2'
          have := hk'.length
          exact ihA k' d3 _ hk'.ok (by omega) (by omega) (.elemComma hR2 hk')
        split
        · exact .ok _ _ _
        · rename_i h1 h2
          exact .token (.place hR2 (found_of_scan H hc.ok (by omega) hs2') ((unfit b).2.1 h1 h2))
      split
      · exact .ok _ _ _
      · rename_i h1 h2
        exact .token (.place hR (found_of_scan H ho hb hs') (((unfit a).1 (by simpa using h1)).2.2 h2))
    · intro k d ms ho hb hn hR
      rw [Msg.parseObject]
      rcases hs : Msg.scan C (At k d) with ⟨e1 | a, s1⟩
      · intro e msg h
        cases h
        exact hR.scan H ho hb _ _ _ hs
      simp only
      have hs' := msg_scan_ok hs
      split
      · rename_i ha
        subst ha
        rcases hk : Msg.scanString C s1 with ⟨e2 | _, s2⟩
        · intro e msg h
          cases h
          exact hR.string H (Or.inr rfl) ho hb hs' _ _ _ hk
        simp only
        obtain ⟨k2, d2, rfl, hkey⟩ := scan_key H ho hb hs' (msg_scanString_ok hk)
        have hkl := hkey.length
        have hR2 := Reached.key hR hkey
        rcases hs2 : Msg.scan C (At k2 d2) with ⟨e3 | b, s3⟩
        · intro e msg h
          cases h
          exact hR2.scan H hkey.ok (by omega) _ _ _ hs2
        simp only
        have hs2' := msg_scan_ok hs2
        split
        · rename_i hb1
          subst hb1
          obtain ⟨k3, d3, rfl, hcol⟩ := scan_next H .colon hkey.ok (by omega) hs2'
          have hk3 := hcol.length
          have hR3 := Reached.colon hR2 hcol
          obtain ⟨n, rfl⟩ : ∃ m, n = m + 1 := ⟨n - 1, by omega⟩
          rw [msg_doParse_none]
          rcases hs3 : Msg.scan C (At k3 d3) with ⟨e4 | c, s4⟩
          · intro e msg h
            cases h
            exact hR3.scan H hcol.ok (by omega) _ _ _ hs3
          simp only
          have hs3' := msg_scan_ok hs3
          obtain ⟨_, l4, d4, rfl, _⟩ := scan_res H hcol.ok (by omega) hs3'
          have hV := ihV .member k3 d3 c l4 d4 .null hcol.ok (by omega) (by omega) hR3 (Or.inr (Or.inr rfl)) (by simp) hs3'
          rcases hp : Msg.doParse C (n + 1) .null (some c) (At l4 d4) with ⟨e5 | _, s5, v⟩
          · rw [hp] at hV
            exact fun e msg h => hV e msg h
          simp only
          obtain ⟨k5, d5, rfl, hc⟩ := parse_complete H hcol.ok (by omega) hs3' (by omega) (by omega) (msg_doParse_ok hp)
          have hk5 := hc.length
          have hR5 := Reached.member hR3 hc
          rcases hs6 : Msg.scan C (At k5 d5) with ⟨e6 | f, s6⟩
          · intro e msg h
            cases h
            exact hR5.scan H hc.ok (by omega) _ _ _ hs6
          simp only
          have hs6' := msg_scan_ok hs6
          split
          · rename_i hb1
            subst hb1
            obtain ⟨k', d6, rfl, hk'⟩ := scan_next H .comma hc.ok (by omega) hs6'
            have := hk'.length
            exact ihO k' d6 _ hk'.ok (by omega) (by omega) (.memberComma hR5 hk')
          split
          · exact .ok _ _ _
          · rename_i h1 h2
            exact .token (.place hR5 (found_of_scan H hc.ok (by omega) hs6') ((unfit f).2.2.2.2.1 h1 h2))
        split
        · exact .ok _ _ _
        · rename_i h1 h2
          exact .token (.place hR2 (found_of_scan H hkey.ok (by omega) hs2') ((unfit b).2.2.2.1 h1 h2))
      split
      · exact .ok _ _ _
      · rename_i h1 h2
        exact .token (.place hR (found_of_scan H ho hb hs') ((unfit a).2.2.1 h1 h2))
    · intro p k d a l1 d1 c ho hb hn hR hp hel hs
      unfold Msg.doParse
      simp only
      have bad : a.startsValue = false → PErrs (Says C.dialect l0) ((.error (Msg.unexpected a), At l1 d1, c) : Msg.PRes CpS F) := by
        intro ha
        rcases hp with rfl | rfl | rfl
        · exact .token (.place hR (found_of_scan H ho hb hs) ((unfit a).1 ha).1)
        · rw [hel rfl] at ha; cases ha
        · exact .token (.place hR (found_of_scan H ho hb hs) ((unfit a).1 ha).2.1)
      cases a
      case valueString =>
        intro e msg h
        rcases hr : Msg.scanString C (At l1 d1) with ⟨e1 | u, s1⟩
        · rw [hr] at h
          cases h
          exact hR.string H (Or.inl hp) ho hb hs _ _ _ hr
        · rw [hr] at h; cases h
      case beginArray =>
        obtain ⟨k', d', he, hk'⟩ := scan_next H .beginArray ho hb hs
        have := hk'.length
        simp only
        rw [he]
        exact ihA k' d' [] hk'.ok (by omega) (by omega) (.arr hR hp hk')
      case beginObject =>
        obtain ⟨k', d', he, hk'⟩ := scan_next H .beginObject ho hb hs
        have := hk'.length
        simp only
        rw [he]
        exact ihO k' d' [] hk'.ok (by omega) (by omega) (.obj hR hp hk')
      all_goals first | exact .ok _ _ _ | exact bad rfl

theorem says_parseBody (H : Canon C) (ho : Ok l) (hb : l.length + 1 ≤ C.bound) {n : Nat} (hn : 2 * l.length + 1 ≤ n) (c : Value F) :
    PErrs (fun m => Says C.dialect l m ∨ Trailing C.dialect l m) (Msg.parseBody C n c (At l d)) := by
  obtain ⟨n, rfl⟩ : ∃ m, n = m + 1 := ⟨n - 1, by omega⟩
  unfold Msg.parseBody
  rw [msg_doParse_none]
  have left : ∀ {r : Msg.PRes CpS F}, PErrs (Says C.dialect l) r →
      PErrs (fun m => Says C.dialect l m ∨ Trailing C.dialect l m) r := by
    intro r h e msg he
    obtain ⟨i, h1, h2⟩ := h e msg he
    exact ⟨i, h1, Or.inl h2⟩
  rcases hs : Msg.scan C (At l d) with ⟨e1 | a, s1⟩
  · refine left fun e msg h => ?_
    cases h
    exact (Reached.start (D := C.dialect)).scan H ho hb _ _ _ hs
  simp only
  have hs' := msg_scan_ok hs
  obtain ⟨_, l1, d1, rfl, _⟩ := scan_res H ho hb hs'
  have hV := (says_parse H (l0 := l) (n + 1)).2.2 .start l d a l1 d1 c ho hb (by omega) .start (Or.inl rfl) (by simp) hs'
  rcases hp : Msg.doParse C (n + 1) c (some a) (At l1 d1) with ⟨e2 | _, s2, v⟩
  · rw [hp] at hV
    exact left fun e msg h => hV e msg h
  simp only
  obtain ⟨k, d2, rfl, hc⟩ := parse_complete H ho hb hs' (by omega) (by omega) (msg_doParse_ok hp)
  have hkl := hc.length
  have hR := Reached.done .start hc
  rcases hs2 : Msg.scan C (At k d2) with ⟨e3 | b, s3⟩
  · refine left fun e msg h => ?_
    cases h
    exact hR.scan H hc.ok (by omega) _ _ _ hs2
  simp only
  split
  · exact .ok _ _ _
  · rename_i h1
    refine .token (Or.inr ⟨rfl, k, b.text, hR, found_of_scan H hc.ok (by omega) (msg_scan_ok hs2), fun h => ?_⟩)
    exact (unfit b).2.2.2.2.2 h1 (by rw [h]; exact .head _)

end Configor
