import Verif.Proofs.ParseFail
/-! Tokens that make the scanner fail. -/
namespace Configor
open Lexer Spec

variable {F α β : Type} {C : Cfg CpS F} {l k : List (Option Nat)} {d : Data F}

/-! ## Integers that do not fit -/

theorem fail_integerLoop (H : Canon C) (n : Nat) (hist ds : List Nat) (x : Nat)
    (hi : d.numI = (intVal hist : Nat)) (hle : intVal hist ≤ intMax) (hmax : intMax < intVal (hist ++ ds))
    (hds : ∀ c ∈ ds, IsDig C.w c) (hn : ds.length + 1 ≤ n) :
    Fails (integerLoop C n) (txt (x :: ds) k) d .ub := by
  induction ds generalizing n hist x d with
  | nil => rw [List.append_nil] at hmax; omega
  | cons c ds ih =>
    cases n with
    | zero => simp at hn
    | succ n =>
      have hc := hds c (by simp)
      unfold integerLoop
      rw [txt_cons, txt_cons]
      refine .right (.next H (.cons _ _) (.no ?_ (.yes ((isDigit_iff _).2 hc) (.right (.gets ?_)))))
      · have h1 := isDig_ne (x := 0x2E) H hc (by decide) (by decide)
        have h2 := isDig_ne (x := 0x65) H hc (by decide) (by decide)
        have h3 := isDig_ne (x := 0x45) H hc (by decide) (by decide)
        simp [h1, h2, h3]
      have e : hist ++ c :: ds = (hist ++ [c]) ++ ds := by simp
      rw [e] at hmax
      have hv : (At (some c :: txt ds k) d).numI * 10 + (digitVal (hd (some c :: txt ds k)) : Int) = (intVal (hist ++ [c]) : Nat) := by
        rw [digitVal_eq, intVal_snoc]
        simp [At, hi]
      simp only [hv]
      by_cases hlt : intMax < intVal (hist ++ [c])
      · exact .yes (by unfold intMax at hlt; unfold i64max; omega) .stop
      · refine .no (by unfold intMax at hlt; unfold i64max; omega)
          (.right (.modify (d' := { d with numI := (intVal (hist ++ [c]) : Nat) }) rfl ?_))
        exact ih n (hist ++ [c]) c rfl (by omega) hmax (fun c hc => hds c (by simp [hc])) (by simpa using hn)

theorem fail_numberBody (H : Canon C) (c : Nat) (ds : List Nat) (h0 : c ≠ 0x30)
    (hds : ∀ d ∈ c :: ds, IsDig C.w d) (hmax : intMax < intVal (c :: ds)) (hb : ds.length + 1 ≤ C.bound) :
    Fails (numberBody C) (txt (c :: ds) k) d .ub := by
  unfold numberBody
  refine .right (.cur (.no (by simpa using h0) ?_))
  unfold scanInteger
  refine .right (.cur ?_)
  have ha : assert C (isDigit C (hd (txt (c :: ds) k))) = Pure.pure () := assert_true ((isDigit_iff _).2 (hds c (by simp)))
  rw [ha]
  refine .right (.pure (.right (.modify (d' := { d with numI := (dv c : Int) }) (by rw [digitVal_eq]; rfl) ?_)))
  refine fail_integerLoop H _ [c] ds c (by simp [intVal_one]) ?_ hmax (fun c hc => hds c (by simp [hc])) hb
  have := dv_lt c
  rw [intVal_one]; unfold intMax; omega

/-- An integer literal, with its sign, that does not fit. -/
inductive TooBig (w : Nat) : List Nat → Prop where
  | plain {c ds} : 0x30 < c → c ≤ 0x39 → (∀ d ∈ ds, IsDig w d) → intMax < intVal (c :: ds) → TooBig w (c :: ds)
  | signed {sg c ds} : sg = 0x2B ∨ sg = 0x2D → c ≠ 0x30 → (∀ d ∈ c :: ds, IsDig w d) → intMax < intVal (c :: ds) →
      TooBig w (sg :: c :: ds)

theorem fail_scan_tooBig (H : Canon C) {t : List Nat} (ht : TooBig C.w t) {g : List Nat} (hg : Gap g)
    (hb : g.length + t.length + k.length + 1 ≤ C.bound) : Fails (scan C) (txt g (txt t k)) d .ub := by
  have hsg : Fails (scanNumber C) (txt t k) d .ub := by
    unfold scanNumber
    cases ht with
    | @plain c ds h1 h2 hds hmax =>
      refine .right (.modify (d' := { d with neg := false, numI := 0 }) rfl (.right (.cur (.no ?_ ?_))))
      · simp; omega
      · refine fail_numberBody H c ds (by omega) ?_ hmax (by simp at hb; omega)
        intro x hx
        rcases List.mem_cons.mp hx with rfl | hx
        · have := mod_small H (c := x) (by omega)
          unfold IsDig; rw [this]; omega
        · exact hds x hx
    | @signed sg c ds h1 h0 hds hmax =>
      refine .right (.modify (d' := { d with neg := false, numI := 0 }) rfl (.right (.cur (.yes ?_
        (.right (.modify (d' := { d with neg := sg == 0x2D, numI := 0 }) rfl (.right (.next H (.cons _ _) ?_))))))))
      · simpa using h1.symm
      · exact fail_numberBody H c ds h0 hds hmax (by simp at hb; omega)
  obtain ⟨c, t, rfl, hc⟩ : ∃ c t', t = c :: t' ∧ ((c = 0x2D ∨ c = 0x2B) ∨ (0x30 ≤ c ∧ c ≤ 0x39)) := by
    cases ht with
    | plain h1 h2 => exact ⟨_, _, rfl, Or.inr ⟨by omega, h2⟩⟩
    | signed h => exact ⟨_, _, rfl, Or.inl h.symm⟩
  have hbe : Behind (txt (c :: t) k) (txt (c :: t) k) := by
    left; simp [IsBlank]; omega
  unfold scan
  refine .right ((run_skipSpaces H C.bound hg (.cons _ _) hbe (by omega) ?_).imp ?_)
  · have : (txt (c :: t) k).length = (c :: t).length + k.length := txt_length _
    rw [txt_cons] at this
    change g.length + (some c :: txt t k).length + 1 ≤ _
    omega
  rintro _ _ _ ⟨rfl, rfl⟩
  refine .right (.eof H (.no (by simp) (.right (.cur ?_))))
  refine .no (by simp; omega) (.no (by simp; omega) (.no (by simp; omega) (.no (by simp; omega) (.no (by simp; omega)
    (.no (by simp; omega) (.no (by simp; omega) (.no (by simp; omega) (.no (by simp; omega) (.no (by simp; omega)
    (.yes (by simp; exact hc.imp id fun h => ⟨decide_eq_true h.1, decide_eq_true h.2⟩) hsg))))))))))

/-! ## Strings -/

theorem fail_putCp (cp : Nat) (h : (C.enc d.out cp).failb = true) :
    Fails (putCp C cp) l d (.exn .deserialization) := by
  unfold putCp
  refine .right (.modify (d' := d.put C cp) rfl (.right (.gets (.no ?_ .fail))))
  simp [OStream.good, At, Data.put, h]

/-- One character of a literal either is stored or fails. -/
theorem string_unit (H : Canon C) {t : List Nat} {cp : Nat} (ht : StrUnit t cp) (hd0 : d.out.failb = false)
    (n x : Nat) :
    ((C.enc d.out cp).failb = true ∧ Fails (stringLoop C (n + 1)) (txt (x :: t) k) d (.exn .deserialization)) ∨
    ((C.enc d.out cp).failb = false ∧ ∃ y, stringLoop C (n + 1) (At (txt (x :: t) k) d) =
      stringLoop C n (At (some y :: k) (d.put C cp))) := by
  have key : ∀ {m : L CpS F Unit} {l1 : List (Option Nat)} {y : Nat},
      Runs m l1 d (fun _ l' d' => l' = some y :: k ∧ d' = d.put C cp) →
      (m >>= fun _ => stringLoop C n) (At l1 d) = stringLoop C n (At (some y :: k) (d.put C cp)) := by
    rintro m l1 y ⟨_, _, _, h1, rfl, rfl⟩
    rw [M.bind_ok h1]
  -- the cases of the loop
  have esc : ∀ (c : Nat) (t' : List Nat) (y : Nat),
      ((C.enc d.out cp).failb = false → Runs (scanEscape C) (txt (0x5C :: c :: t') k) d (fun _ l' d' => l' = some y :: k ∧ d' = d.put C cp)) →
      ((C.enc d.out cp).failb = true → Fails (scanEscape C) (txt (0x5C :: c :: t') k) d (.exn .deserialization)) →
      ((C.enc d.out cp).failb = true ∧
        Fails (stringLoop C (n + 1)) (txt (x :: 0x5C :: c :: t') k) d (.exn .deserialization)) ∨
      ((C.enc d.out cp).failb = false ∧ ∃ y, stringLoop C (n + 1) (At (txt (x :: 0x5C :: c :: t') k) d) =
        stringLoop C n (At (some y :: k) (d.put C cp))) := by
    intro c t' y h1 h2
    cases hf : (C.enc d.out cp).failb with
    | true =>
      refine Or.inl ⟨rfl, ?_⟩
      unfold stringLoop
      exact .right (.next H (.cons _ _) (.right (.eof H (.no (by simp) (.no (by simp) (.no (by simp)
        (.yes (by simp) (.left (h2 hf)))))))))
    | false =>
      right
      refine ⟨rfl, y, ?_⟩
      rw [← key (h1 hf)]
      conv => lhs; unfold stringLoop
      rw [M.bind_ok (show Lexer.readNext C (At (txt (x :: 0x5C :: c :: t') k) d) =
        (.ok 0x5C, At (txt (0x5C :: c :: t') k) d) from readNext_ok H d (l := txt (x :: 0x5C :: c :: t') k) (.cons _ _))]
      obtain ⟨_, _, _, he, rfl, rfl, rfl⟩ := Runs.eof (d := d) (l := txt (0x5C :: c :: t') k) H
        (Q := fun a l' d' => a = false ∧ l' = txt (0x5C :: c :: t') k ∧ d' = d) ⟨rfl, rfl, rfl⟩
      rw [M.bind_ok he]
      simp
  have uni : ∀ {y : Nat}, (C.enc d.out cp).failb = true → Fails (putCp C cp) (some y :: k) d (.exn .deserialization) :=
    fun h => fail_putCp cp h
  have uni' : ∀ {y : Nat}, (C.enc d.out cp).failb = false →
      Runs (putCp C cp) (some y :: k) d (fun _ l' d' => l' = some y :: k ∧ d' = d.put C cp) := fun h => run_putCp cp h
  cases ht with
  | raw h1 h2 h3 =>
    cases hf : (C.enc d.out cp).failb with
    | true =>
      refine Or.inl ⟨rfl, ?_⟩
      unfold stringLoop
      exact .right (.next H (.cons _ _) (.right (.eof H (.no (by simp) (.no (by simpa using h2) (.no (by simp; omega)
        (.no (by simpa using h3) (.left (fail_putCp cp hf)))))))))
    | false =>
      right
      refine ⟨rfl, cp, ?_⟩
      rw [← key (uni' hf)]
      conv => lhs; unfold stringLoop
      rw [M.bind_ok (show Lexer.readNext C (At (txt [x, cp] k) d) =
        (.ok cp, At (txt [cp] k) d) from readNext_ok H d (l := txt [x, cp] k) (.cons _ _))]
      obtain ⟨_, _, _, he, rfl, rfl, rfl⟩ := Runs.eof (d := d) (l := txt [cp] k) H
        (Q := fun a l' d' => a = false ∧ l' = txt [cp] k ∧ d' = d) ⟨rfl, rfl, rfl⟩
      rw [M.bind_ok he]
      simp only [Bool.false_eq_true, if_false]
      rw [if_neg (by simpa using h2), if_neg (by omega), if_neg (by simpa using h3)]
      simp
  | @esc c e h1 =>
    refine esc c [] c (fun _ => ?_) (fun hf => ?_)
    · unfold scanEscape
      refine .bind (.next H (.cons _ _) ?_)
      have hpa := fun hlt => run_putAscii (l := txt [c] k) H cp hlt hd0
      simp only [txt_cons, txt_nil] at hpa ⊢
      rcases simpleEscape_spec h1 with ⟨rfl, rfl⟩ | ⟨rfl, rfl⟩ | ⟨rfl, rfl⟩ | ⟨rfl, rfl⟩ | ⟨rfl, rfl⟩ | ⟨rfl, rfl⟩ |
        ⟨rfl, rfl⟩ | ⟨rfl, rfl⟩ <;> exact hpa (by decide)
    · have : cp < 128 := by
        rcases simpleEscape_spec h1 with ⟨rfl, rfl⟩ | ⟨rfl, rfl⟩ | ⟨rfl, rfl⟩ | ⟨rfl, rfl⟩ | ⟨rfl, rfl⟩ | ⟨rfl, rfl⟩ |
          ⟨rfl, rfl⟩ | ⟨rfl, rfl⟩ <;> decide
      rw [H.ascii _ _ hd0 this, OStream.put_failb, hd0] at hf
      cases hf
  | @uni h u hh hnl =>
    obtain ⟨_, _, _, hre, rfl, rfl, y, rfl⟩ := run_readEscaped (k := k) (d := d) H 0x75 hh
    refine esc 0x75 h y (fun hf => ?_) (fun hf => ?_)
    · unfold scanEscape
      refine .bind (.next H (.cons _ _) ?_)
      show Runs (scanUnicodeEscape C) _ _ _
      unfold scanUnicodeEscape
      exact .bind ⟨_, _, _, hre, .no (by rwa [isLead_iff]) (uni' hf)⟩
    · unfold scanEscape
      refine .right (.next H (.cons _ _) ?_)
      show Fails (scanUnicodeEscape C) _ _ _
      unfold scanUnicodeEscape
      exact .right ⟨_, _, _, hre, .no (by rwa [isLead_iff]) (uni hf)⟩
  | @pair h u h' u' hh hld hh' htr =>
    have htr' := (isTrail_iff _).2 htr
    have hdec := decodeSurrogates_eq ((isLead_iff _).2 hld) htr'
    have hcp : decodeSurrogates u u' = 0x10000 + (u - 0xD800) * 0x400 + (u' - 0xDC00) := by rw [hdec]; omega
    obtain ⟨u, _, d, hre, rfl, rfl, y, rfl⟩ := run_readEscaped (k := txt (0x5C :: 0x75 :: h') k) (d := d) H 0x75 hh
    obtain ⟨u', _, d, hre', rfl, rfl, z, rfl⟩ := run_readEscaped (k := k) (d := d) H 0x75 hh'
    refine esc 0x75 (h ++ (0x5C :: 0x75 :: h')) z (fun hf => ?_) (fun hf => ?_)
    · unfold scanEscape
      refine .bind (.next H (.cons _ _) ?_)
      show Runs (scanUnicodeEscape C) _ _ _
      unfold scanUnicodeEscape
      show Runs _ (txt (0x75 :: (h ++ 0x5C :: 0x75 :: h')) k) _ _
      rw [← List.cons_append, txt_append]
      refine .bind ⟨_, _, _, hre, .yes (by rwa [isLead_iff]) (.bind (.next H (.cons _ _) (.no (by simp) (.bind (.next H (.cons _ _) (.no (by simp) (.bind ⟨_, _, _, hre', .no (by simp [htr']) ?_⟩)))))))⟩
      rw [hcp]
      exact uni' hf
    · unfold scanEscape
      refine .right (.next H (.cons _ _) ?_)
      show Fails (scanUnicodeEscape C) _ _ _
      unfold scanUnicodeEscape
      show Fails _ (txt (0x75 :: (h ++ 0x5C :: 0x75 :: h')) k) _ _
      rw [← List.cons_append, txt_append]
      refine .right ⟨_, _, _, hre, .yes (by rwa [isLead_iff]) (.right (.next H (.cons _ _) (.no (by simp) (.right (.next H (.cons _ _) (.no (by simp) (.right ⟨_, _, _, hre', .no (by simp [htr']) ?_⟩)))))))⟩
      rw [hcp]
      exact uni hf

/-- `read_next` either fails or shows the head. -/
theorem next_cases (H : Canon C) (x : Nat) (k : List (Option Nat)) :
    (∀ d : Data F, Fails (Lexer.readNext C) (some x :: k) d (.exn .deserialization)) ∨ Ok k := by
  cases k with
  | nil => exact Or.inr .nil
  | cons o k =>
    cases o with
    | none => exact Or.inl fun d => .next H _ _
    | some c => exact Or.inr (.cons _ _)

theorem fail_readEscaped (H : Canon C) {k : List (Option Nat)} (hk : BadHex k) (x : Nat) :
    Fails (readEscaped C) (some x :: k) d (.exn .deserialization) := by
  obtain ⟨h, r, rfl, hlen, hh, hr⟩ := hk
  have : ∀ (h : List Nat) (fs : List Nat) (code x : Nat), h.length < fs.length → (∀ c ∈ h, hexDigit c ≠ none) →
      Fails (readEscapedLoop C fs code) (some x :: (h.map some ++ r)) d (.exn .deserialization) := by
    intro h
    induction h with
    | nil =>
      intro fs code x hl _
      cases fs with
      | nil => simp at hl
      | cons f fs =>
        unfold readEscapedLoop
        rcases next_cases (F := F) H x r with hf | ho
        · exact .left (hf d)
        · refine .right (.next H ho ?_)
          have : hexVal (hd (List.map some [] ++ r)) = none := by
            rw [hexVal_eq]
            cases r with
            | nil => rfl
            | cons o r =>
              cases o with
              | none => rfl
              | some c => exact hr c rfl
          simp only [this]
          exact .fail
    | cons c h ih =>
      intro fs code x hl hh
      cases fs with
      | nil => simp at hl
      | cons f fs =>
        unfold readEscapedLoop
        refine .right (.next H (.cons _ _) ?_)
        obtain ⟨v, hv⟩ := Option.ne_none_iff_exists'.mp (hh c (by simp))
        have : hexVal (hd (List.map some (c :: h) ++ r)) = some v := by rw [hexVal_eq]; exact hv
        simp only [this]
        exact ih fs _ c (by simpa using hl) (fun c hc => hh c (by simp [hc]))
  exact this h [12, 8, 4, 0] 0 x (by simpa using hlen) hh

theorem fail_stringLoop (H : Canon C) {k : List (Option Nat)} (hk : BadStr k) (n x : Nat) :
    Fails (stringLoop C (n + 1)) (some x :: k) d (.exn .deserialization) := by
  unfold stringLoop
  have esc : ∀ k' : List (Option Nat), Fails (scanEscape C) (some 0x5C :: k') d (.exn .deserialization) →
      Fails (do
        let c ← Lexer.readNext C
        if (← Lexer.eof C) then Lexer.fail
        else if c == 0x22 then
          let _ ← Lexer.readNext C
          Pure.pure ()
        else if c ≤ 0x1F then Lexer.fail
        else if c == 0x5C then
          scanEscape C
          stringLoop C n
        else
          putCp C c
          stringLoop C n) (some x :: some 0x5C :: k') d (.exn .deserialization) := by
    intro k' h
    exact .right (.next H (.cons _ _) (.right (.eof H (.no (by simp) (.no (by simp) (.no (by simp)
        (.yes (by simp) (.left h))))))))
  have uesc : ∀ k' : List (Option Nat), Fails (scanUnicodeEscape C) (some 0x75 :: k') d (.exn .deserialization) →
      Fails (scanEscape C) (some 0x5C :: some 0x75 :: k') d (.exn .deserialization) := by
    intro k' h
    unfold scanEscape
    exact .right (.next H (.cons _ _) h)
  cases hk with
  | eof => exact .right (.next H .nil (.right (.eof H (.yes (by simp) .fail))))
  | malformed => exact .left (.next H _ _)
  | @control c r hc =>
    refine .right (.next H (.cons _ _) (.right (.eof H (.no (by simp) (.no ?_ (.yes ?_ .fail))))))
    · simp; omega
    · simp; omega
  | @escape k hk =>
    refine esc k ?_
    unfold scanEscape
    rcases next_cases (F := F) H 0x5C k with hf | ho
    · exact .left (hf d)
    · refine .right (.next H ho ?_)
      have hne : ∀ x : Nat, x ≠ 0 → (simpleEscape x ≠ none ∨ x = 0x75) → hd k ≠ x := by
        intro x h0 hx
        cases k with
        | nil => exact fun h => h0 h.symm
        | cons o k =>
          cases o with
          | none => simp [Ok] at ho
          | some c =>
            rintro rfl
            have := hk _ rfl
            rcases hx with hx | hx
            · exact hx this.1
            · exact this.2 hx
      have h1 := hne 0x22 (by decide) (by decide)
      have h2 := hne 0x5C (by decide) (by decide)
      have h3 := hne 0x2F (by decide) (by decide)
      have h4 := hne 0x62 (by decide) (by decide)
      have h5 := hne 0x66 (by decide) (by decide)
      have h6 := hne 0x6E (by decide) (by decide)
      have h7 := hne 0x72 (by decide) (by decide)
      have h8 := hne 0x74 (by decide) (by decide)
      have h9 := hne 0x75 (by decide) (by decide)
      exact .no (by simpa using h1) (.no (by simpa using h2) (.no (by simpa using h3) (.no (by simpa using h4)
        (.no (by simpa using h5) (.no (by simpa using h6) (.no (by simpa using h7) (.no (by simpa using h8)
        (.no (by simpa using h9) .fail))))))))
  | @hex k hk =>
    refine esc _ (uesc _ ?_)
    unfold scanUnicodeEscape
    exact .left (fail_readEscaped H hk _)
  | @leadAlone h u k hh hld hk =>
    refine esc _ (uesc _ ?_)
    unfold scanUnicodeEscape
    obtain ⟨_, _, _, hre, rfl, rfl, y, rfl⟩ := run_readEscaped (k := k) (d := d) H 0x75 hh
    refine .right ⟨_, _, _, hre, .yes (by rwa [isLead_iff]) ?_⟩
    rcases next_cases (F := F) H y k with hf | ho
    · exact .left (hf _)
    · refine .right (.next H ho (.yes ?_ .fail))
      simp only [bne_iff_ne, ne_eq]
      cases k with
      | nil => simp [hd]
      | cons o k =>
        cases o with
        | none => simp [hd]
        | some c => simpa using hk
  | @leadAlone' h u k hh hld hk =>
    simp only [List.cons_append, List.map_cons, List.map_append, List.map_nil, List.append_assoc, List.nil_append]
    refine esc _ (uesc _ ?_)
    unfold scanUnicodeEscape
    obtain ⟨_, _, _, hre, rfl, rfl, y, rfl⟩ := run_readEscaped (k := some 0x5C :: k) (d := d) H 0x75 hh
    refine .right ⟨_, _, _, hre, .yes (by rwa [isLead_iff]) (.right (.next H (.cons _ _) (.no (by simp) ?_)))⟩
    rcases next_cases (F := F) H 0x5C k with hf | ho
    · exact .left (hf _)
    · refine .right (.next H ho (.yes ?_ .fail))
      simp only [bne_iff_ne, ne_eq]
      cases k with
      | nil => simp [hd]
      | cons o k =>
        cases o with
        | none => simp [hd]
        | some c => simpa using hk
  | @trailHex h u k hh hld hk =>
    simp only [List.cons_append, List.map_cons, List.map_append, List.map_nil, List.append_assoc, List.nil_append]
    refine esc _ (uesc _ ?_)
    unfold scanUnicodeEscape
    obtain ⟨_, _, _, hre, rfl, rfl, y, rfl⟩ := run_readEscaped (k := some 0x5C :: some 0x75 :: k) (d := d) H 0x75 hh
    exact .right ⟨_, _, _, hre, .yes (by rwa [isLead_iff]) (.right (.next H (.cons _ _) (.no (by simp)
      (.right (.next H (.cons _ _) (.no (by simp) (.left (fail_readEscaped H hk _))))))))⟩
  | @noTrail h u h' u' k hh hld hh' htr =>
    simp only [List.cons_append, List.map_cons, List.map_append, List.append_assoc]
    refine esc _ (uesc _ ?_)
    unfold scanUnicodeEscape
    obtain ⟨u, _, d, hre, rfl, rfl, y, rfl⟩ := run_readEscaped (k := txt (0x5C :: 0x75 :: h') k) (d := d) H 0x75 hh
    obtain ⟨u', _, d, hre', rfl, rfl, z, rfl⟩ := run_readEscaped (k := k) (d := d) H 0x75 hh'
    refine .right ⟨_, _, _, hre, .yes (by rwa [isLead_iff]) (.right (.next H (.cons _ _) (.no (by simp)
      (.right (.next H (.cons _ _) (.no (by simp) (.right ⟨_, _, _, hre', .yes ?_ .fail⟩)))))))⟩
    have : ¬ isTrail _ = true := fun h => htr ((isTrail_iff _).1 h)
    simpa using this

theorem fail_stringOpen (H : Canon C) {p : List Nat} (hp : StrOpen p) {k : List (Option Nat)} (hk : BadStr k) (n x : Nat)
    (hn : p.length + 1 ≤ n) (hd0 : d.out.failb = false) :
    Fails (stringLoop C n) (txt (x :: p) k) d (.exn .deserialization) := by
  induction hp generalizing n x d with
  | nil =>
    obtain ⟨n, rfl⟩ : ∃ m, n = m + 1 := ⟨n - 1, by omega⟩
    exact fail_stringLoop H hk n x
  | @more t cp p ht hp ih =>
    have hlt : 1 ≤ t.length := by cases ht <;> simp
    simp only [List.length_append] at hn
    obtain ⟨n, rfl⟩ : ∃ m, n = m + 1 := ⟨n - 1, by omega⟩
    rw [← List.cons_append, txt_append]
    rcases string_unit (k := txt p k) H ht hd0 n x with ⟨_, h⟩ | ⟨h1, y, h2⟩
    · exact h
    · obtain ⟨s, hs⟩ := ih (d := d.put C cp) n y (by omega) h1
      exact ⟨s, by rw [h2]; exact hs⟩

theorem fail_scanString (H : Canon C) {p : List Nat} (hp : StrOpen p) {k : List (Option Nat)} (hk : BadStr k)
    (hb : p.length + 1 ≤ C.bound) :
    Fails (scanString C) (txt (0x22 :: p) k) d (.exn .deserialization) := by
  unfold scanString
  refine .right (.modify (d' := { d with out := .ofString [] }) rfl (.right (.cur ?_)))
  rw [assert_true (by simp)]
  exact .right (.pure (fail_stringOpen H hp hk _ _ hb rfl))

end Configor
