import Verif.Proofs.Dump
/-! Running the serializer on a value. -/
namespace Configor
open Spec Serializer

variable {F : Type}

/-- `P` prints as the call does. -/
structure Prints (A : DumpArgs F) (P : Printer F) : Prop where
  style : P.style = A.style
  uesc : P.uesc = A.uesc
  enc : ∀ c u, storeWith (A.te.encode A.tw) [c] = some u → P.enc c = u
  txt : ∀ s cps, ReadsAs (A.se.decode A.sw (strSBuf A.sw)) (onString s) cps → P.txt s = cps
  num : ∀ i, P.num i = decText i
  intFlt : ∀ f i, A.fo.isIntegral f = true → A.fo.toI64 f = some i → P.flt f = decText i ++ [0x2E, 0x30]
  flt : ∀ f, A.fo.isIntegral f = false → P.flt f = A.fo.fmt f

/-- How a computation ends. -/
def Ends (r : Except Stop Unit × Ser) (ok : Ser → Prop) (bad : Stop → Prop) : Prop :=
  match r with
  | (.ok _, s) => ok s
  | (.error e, _) => bad e

theorem Ends.bind {m : M Ser Unit} {f : Unit → M Ser Unit} {s : Ser} {ok ok' : Ser → Prop} {bad bad' : Stop → Prop}
    (h : Ends (m s) ok bad) (hb : ∀ e, bad e → bad' e) (hf : ∀ s', ok s' → Ends (f () s') ok' bad') :
    Ends ((m >>= f) s) ok' bad' := by
  unfold Ends at h
  rcases hm : m s with ⟨e | _, s'⟩
  · rw [hm] at h; rw [M.bind_error hm]; exact hb e h
  · rw [hm] at h; rw [M.bind_ok hm]; exact hf s' h

theorem Ends.of_wr {m : M Ser Unit} {s s' : Ser} {ok : Ser → Prop} {bad : Stop → Prop} (h : Wr m s s') (ho : ok s') :
    Ends (m s) ok bad := by
  rw [h]; exact ho

theorem Ends.imp {r : Except Stop Unit × Ser} {ok ok' : Ser → Prop} {bad bad' : Stop → Prop} (h : Ends r ok bad)
    (ho : ∀ s, ok s → ok' s) (hb : ∀ e, bad e → bad' e) : Ends r ok' bad' := by
  rcases r with ⟨e | _, s⟩
  · exact hb e h
  · exact ho s h

/-- Continue after a computation that writes. -/
theorem Ends.after {m : M Ser Unit} {f : Unit → M Ser Unit} {s s' : Ser} {ok : Ser → Prop} {bad : Stop → Prop}
    (h : Wr m s s') (hf : Ends (f () s') ok bad) : Ends ((m >>= f) s) ok bad := by
  rw [M.bind_ok h]; exact hf

variable {A : DumpArgs F} {P : Printer F} {d : Nat} {b : Bool} {t : Token} {out : List Nat} {s : Ser}

/-! ## Strings -/

theorem ends_putOther (H : Prints A P) (h : Is A d b t out s) {c : Nat} (hc : shortEscape c = none) :
    Ends (putOther A c s) (fun s' => Writable A c ∧ Is A d b t (out ++ charText P.uesc P.enc c) s')
      (fun e => e = .exn .serialization ∧ ¬ Writable A c) := by
  have hct : charText P.uesc P.enc c = if Escaped A.uesc c then uniEscape c else P.enc c := by
    unfold charText; rw [hc, H.uesc]
  rw [hct]
  unfold putOther
  have fin : ∀ {s'} {cs}, Is A d b t (out ++ cs) s' →
      ((M.gets fun s => s.os.good) >>= fun g => if g = true then pure () else M.throw .serialization : M Ser Unit) s' = (.ok (), s') := by
    intro s' cs h
    rw [gets_bind, h.os]; rfl
  by_cases he : Escaped A.uesc c
  · have he' : c ≤ 0x1F ∨ (A.uesc = true ∧ c ≥ 0x7F) := by
      rcases he with he | he
      · exact Or.inl (by omega)
      · exact Or.inr he
    rw [if_pos he, if_pos he']
    by_cases hb : c ≤ 0xFFFF
    · rw [if_pos hb]
      have hm : c % 65536 = c := by omega
      have hu : hexText 2 (c % 65536) = uniEscape c := by
        rw [hm, hexText_short (by omega)]
        unfold uniEscape
        rw [if_pos (by omega)]
      rw [hu]
      obtain ⟨s', h1, h2⟩ := wr_output h (uniEscape c)
      exact Ends.after h1 (.of_wr (fin h2) ⟨Or.inr (Or.inl he), h2⟩)
    · rw [if_neg hb]
      obtain ⟨s1, h1, i1⟩ := wr_output h (hexText 4 (encodeSurrogates c).1)
      obtain ⟨s2, h2, i2⟩ := wr_output i1 (hexText 4 (encodeSurrogates c).2)
      rw [List.append_assoc, uniEscape_pair (by omega)] at i2
      exact Ends.after h1 (Ends.after h2 (.of_wr (fin i2) ⟨Or.inr (Or.inl he), i2⟩))
  · have he' : ¬ (c ≤ 0x1F ∨ (A.uesc = true ∧ c ≥ 0x7F)) := by
      rintro (h1 | h1)
      · exact he (Or.inl (by omega))
      · exact he (Or.inr h1)
    rw [if_neg he, if_neg he']
    rw [modify_bind]
    have hu := encode_units A.te A.tw s.os (by rw [h.os]) c
    cases hs : storeWith (A.te.encode A.tw) [c] with
    | some u =>
      rw [hs] at hu
      simp only at hu
      have hi : Is A d b t (out ++ P.enc c) { s with os := A.te.encode A.tw s.os c } :=
        ⟨by rw [hu, h.os, H.enc c u hs], h.began, h.last, h.ind⟩
      exact .of_wr (fin hi) ⟨Or.inr (Or.inr (by rw [hs]; simp)), hi⟩
    | none =>
      rw [hs] at hu
      simp only at hu
      have hg : (A.te.encode A.tw s.os c).good = false := by unfold OStream.good; rw [hu]; rfl
      have hr : ((M.gets fun s => s.os.good) >>= fun g => if g = true then pure () else M.throw .serialization : M Ser Unit)
          { s with os := A.te.encode A.tw s.os c } = (.error (.exn .serialization), { s with os := A.te.encode A.tw s.os c }) := by
        rw [gets_bind]
        simp only [hg]
        rfl
      have hr' : Ends (((M.gets fun s => s.os.good) >>= fun g => if g = true then pure () else M.throw .serialization : M Ser Unit)
          { s with os := A.te.encode A.tw s.os c }) (fun s' => Writable A c ∧ Is A d b t (out ++ P.enc c) s')
          (fun e => e = .exn .serialization ∧ ¬ Writable A c) := by
        rw [hr]
        exact ⟨rfl, by
          rintro (h1 | h1 | h1)
          · exact h1 hc
          · exact he h1
          · exact h1 hs⟩
      exact hr'

theorem ends_putCp (H : Prints A P) (h : Is A d b t out s) (c : Nat) :
    Ends (putCp A c s) (fun s' => Writable A c ∧ Is A d b t (out ++ charText P.uesc P.enc c) s')
      (fun e => e = .exn .serialization ∧ ¬ Writable A c) := by
  have short : ∀ e, shortEscape c = some e → Ends (output [0x5C, e] s)
      (fun s' => Writable A c ∧ Is A d b t (out ++ charText P.uesc P.enc c) s')
      (fun e => e = .exn .serialization ∧ ¬ Writable A c) := by
    intro e he
    obtain ⟨s', h1, h2⟩ := wr_output h [0x5C, e]
    refine .of_wr h1 ⟨Or.inl (by rw [he]; simp), ?_⟩
    unfold charText; rw [he]; exact h2
  unfold putCp
  split
  · exact short _ (by subst c; rfl)
  split
  · exact short _ (by subst c; rfl)
  split
  · exact short _ (by subst c; rfl)
  split
  · exact short _ (by subst c; rfl)
  split
  · exact short _ (by subst c; rfl)
  split
  · exact short _ (by subst c; rfl)
  split
  · exact short _ (by subst c; rfl)
  · refine ends_putOther H h ?_
    unfold shortEscape
    simp [*]

theorem ends_stringLoop (H : Prints A P) {iss : IStream StrBuf} {l : List (Option Nat)}
    (hl : Delivers (A.se.decode A.sw (strSBuf A.sw)) iss l) (n : Nat) (hn : l.length < n) (s : Ser) (out : List Nat)
    (h : Is A d b t out s) :
    Ends (stringLoop A n iss s)
      (fun s' => ∃ cps : List Nat, l = cps.map some ∧ (∀ c ∈ cps, Writable A c) ∧ Is A d b t (out ++ cps.flatMap (charText P.uesc P.enc)) s')
      (fun e => e = .exn .serialization ∧ ¬ ∃ cps : List Nat, l = cps.map some ∧ ∀ c ∈ cps, Writable A c) := by
  induction hl generalizing n s out with
  | done hd =>
    obtain ⟨n, rfl⟩ : ∃ m, n = m + 1 := ⟨n - 1, by omega⟩
    unfold stringLoop
    simp only [hd]
    exact ⟨[], rfl, by simp, by simpa using h⟩
  | bad hd hg =>
    obtain ⟨n, rfl⟩ : ∃ m, n = m + 1 := ⟨n - 1, by omega⟩
    unfold stringLoop
    simp only [hd, hg, if_true]
    refine ⟨rfl, ?_⟩
    rintro ⟨cps, h1, _⟩
    cases cps <;> simp at h1
  | @more iss cp iss' l hd hg _ ih =>
    obtain ⟨n, rfl⟩ : ∃ m, n = m + 1 := ⟨n - 1, by omega⟩
    unfold stringLoop
    simp only [hd, hg, if_true]
    refine Ends.bind (ends_putCp H h cp) ?_ ?_
    · rintro e ⟨rfl, hw⟩
      refine ⟨rfl, ?_⟩
      rintro ⟨cps, h1, h2⟩
      cases cps with
      | nil => cases h1
      | cons c cps => simp at h1; exact hw (h1.1 ▸ h2 c (by simp))
    · rintro s' ⟨hw, hi⟩
      refine (ih n (by simp at hn; omega) s' _ hi).imp ?_ ?_
      · rintro s'' ⟨cps, rfl, h2, h3⟩
        refine ⟨cp :: cps, rfl, ?_, by simpa using h3⟩
        intro c hc
        rcases List.mem_cons.1 hc with rfl | hc
        · exact hw
        · exact h2 c hc
      · rintro e ⟨rfl, h2⟩
        refine ⟨rfl, ?_⟩
        rintro ⟨cps, h1, h3⟩
        cases cps with
        | nil => cases h1
        | cons c cps =>
          simp at h1
          exact h2 ⟨cps, h1.2, fun c hc => h3 c (by simp [hc])⟩

theorem readsAs_of_delivers {σ : Type} {dec : IStream σ → Decoded σ} {s : IStream σ} {l : List Nat}
    (h : Delivers dec s (l.map some)) : ReadsAs dec s l := by
  generalize hl : l.map some = m at h
  induction h generalizing l with
  | done h => simp at hl; subst hl; exact .done h
  | bad h h' =>
    cases l with
    | nil => cases hl
    | cons c l => simp at hl
  | more h hg _ ih =>
    cases l with
    | nil => cases hl
    | cons c l => simp at hl; rw [hl.1]; exact .more h hg (ih hl.2)

theorem ends_putString (H : Prints A P) (h : Is A d b t out s) (k : List Nat) :
    Ends (putString A k s) (fun s' => Fine A k ∧ Is A d b t (out ++ P.literal k) s')
      (fun e => e = .exn .serialization ∧ ¬ Fine A k) := by
  unfold putString
  obtain ⟨s1, h1, i1⟩ := wr_output h [0x22]
  have hd := itemsOf_delivers A.se A.sw k
  have hl := itemsOf_length A.se A.sw k
  refine Ends.after h1 (Ends.bind (ends_stringLoop H hd (k.length + 1) (by omega) s1 _ i1) ?_ ?_)
  · rintro e ⟨rfl, hn⟩
    refine ⟨rfl, ?_⟩
    rintro ⟨cps, hr, hw⟩
    exact hn ⟨cps, itemsOf_reads hr, hw⟩
  · rintro s2 ⟨cps, hc, hw, i2⟩
    obtain ⟨s3, h3, i3⟩ := wr_output i2 [0x22]
    rw [hc] at hd
    have hr := readsAs_of_delivers hd
    refine .of_wr h3 ⟨⟨cps, hr, hw⟩, ?_⟩
    unfold Printer.literal
    rw [H.txt k cps hr]
    simpa using i3

/-! ## Tokens -/

theorem wr_scalar {tk : Token} {cs : List Nat} (h : Is A d b t out s) (hs : startsValue tk = true)
    (ho : nextOutput A tk = output cs ∨ (nextOutput A tk = pure () ∧ cs = [])) :
    ∃ s', Wr (next A tk) s s' ∧ Is A d false tk (out ++ pre A.style d b t ++ cs) s' := by
  have := wr_next (tk := tk) (d' := d) (b' := false) (cs := cs) h (by
    intro s1 out1 h1
    rcases ho with ho | ⟨ho, rfl⟩
    · rw [ho]; exact wr_output h1 cs
    · rw [ho]; exact ⟨s1, rfl, by simpa using h1⟩)
  rwa [hs, if_pos rfl] at this

theorem wr_open {tk : Token} {c : Nat} (h : Is A d b t out s) (hs : startsValue tk = true) (ho : nextOutput A tk = opening c) :
    ∃ s', Wr (next A tk) s s' ∧ Is A (d + 1) true tk (out ++ pre A.style d b t ++ [c]) s' := by
  have := wr_next (tk := tk) (d' := d + 1) (b' := true) (cs := [c]) h (by
    intro s1 out1 h1
    rw [ho]
    obtain ⟨s2, h2, i2⟩ := wr_output h1 [c]
    exact ⟨_, h2.bind rfl, i2.os, rfl, i2.last, i2.ind.inc⟩)
  rwa [hs, if_pos rfl] at this

theorem wr_close {tk : Token} {c : Nat} (h : Is A (d + 1) b t out s) (hs : startsValue tk = false)
    (ho : nextOutput A tk = closing A c) :
    ∃ s', Wr (next A tk) s s' ∧ Is A d false tk (out ++ A.style.nl ++ A.style.indent d ++ [c]) s' := by
  have := wr_next (tk := tk) (d' := d) (b' := false) (cs := A.style.nl ++ A.style.indent d ++ [c]) h (by
    intro s1 out1 h1
    rw [ho]
    have i2 : Is A d false t out1 { s1 with ind := s1.ind.dec } := ⟨h1.os, h1.began, h1.last, h1.ind.dec⟩
    obtain ⟨s3, h3, i3⟩ := wr_newline i2
    obtain ⟨s4, h4, i4⟩ := wr_outputIndent i3
    obtain ⟨s5, h5, i5⟩ := wr_output i4 [c]
    exact ⟨s5, Wr.bind (s' := { s1 with ind := s1.ind.dec }) rfl (h3.bind (h4.bind h5)), by simpa using i5⟩)
  rw [hs] at this
  simpa using this

theorem wr_comma (h : Is A d false t out s) :
    ∃ s', Wr (next A .valueSeparator) s s' ∧ Is A d false .valueSeparator (out ++ [0x2C] ++ A.style.nl) s' := by
  have := wr_next (tk := .valueSeparator) (d' := d) (b' := false) (cs := [0x2C] ++ A.style.nl) h (by
    intro s1 out1 h1
    obtain ⟨s3, h3, i3⟩ := wr_output h1 [0x2C]
    obtain ⟨s4, h4, i4⟩ := wr_newline i3
    exact ⟨s4, h3.bind h4, by simpa using i4⟩)
  simpa [startsValue] using this

theorem wr_colon (h : Is A d false t out s) :
    ∃ s', Wr (next A .nameSeparator) s s' ∧ Is A d false .nameSeparator (out ++ [0x3A] ++ A.style.space) s' := by
  have := wr_next (tk := .nameSeparator) (d' := d) (b' := false) (cs := [0x3A] ++ A.style.space) h (by
    intro s1 out1 h1
    obtain ⟨s3, h3, i3⟩ := wr_output h1 [0x3A]
    obtain ⟨s4, h4, i4⟩ := wr_outputIndent1 i3
    exact ⟨s4, h3.bind h4, by simpa using i4⟩)
  simpa [startsValue] using this

/-! ## Values -/

/-- Everything in a value can be written. -/
def GoodVal (A : DumpArgs F) (v : Value F) : Prop :=
  (∀ s, HasText v s → Fine A s) ∧ ∀ f, HasFloat v f → FloatOk A f

/-- Why a value cannot be written. -/
def BadVal (A : DumpArgs F) (v : Value F) (e : Stop) : Prop :=
  (e = .exn .serialization ∧ ∃ s, HasText v s ∧ ¬ Fine A s) ∨ (e = .ub ∧ ∃ f, HasFloat v f ∧ ¬ FloatOk A f)

theorem goodVal_scalar {v : Value F} (h1 : ∀ s, ¬ HasText v s) (h2 : ∀ f, ¬ HasFloat v f) : GoodVal A v :=
  ⟨fun s h => absurd h (h1 s), fun f h => absurd h (h2 f)⟩

theorem printItems_cons (P : Printer F) (d : Nat) (x : List Nat) (xs : List (List Nat)) :
    P.items d (x :: xs) = P.style.indent d ++ x ++ (if xs = [] then [] else [0x2C] ++ P.style.nl ++ P.items d xs) := by
  cases xs with
  | nil => simp [Printer.items]
  | cons y ys => simp [Printer.items]

theorem pre_sep (st : Style) (d : Nat) {t : Token} (ht : t ≠ .nameSeparator) (b : Bool) :
    pre st d b t = (if b then st.nl else []) ++ st.indent d := by
  unfold pre; rw [if_neg ht]

mutual

theorem ends_doDump (H : Prints A P) (v : Value F) (d : Nat) (b : Bool) (t : Token) (out : List Nat) (s : Ser)
    (h : Is A d b t out s) :
    Ends (doDump A v s)
      (fun s' => GoodVal A v ∧ ∃ t', t' ≠ .nameSeparator ∧ Is A d false t' (out ++ pre A.style d b t ++ P.text d v) s')
      (BadVal A v) := by
  match v with
  | .null =>
    obtain ⟨s', h1, h2⟩ := wr_scalar h (tk := .literalNull) rfl (Or.inl rfl)
    exact .of_wr h1 ⟨goodVal_scalar nofun nofun, _, by decide, h2⟩
  | .bool true =>
    obtain ⟨s', h1, h2⟩ := wr_scalar h (tk := .literalTrue) rfl (Or.inl rfl)
    exact .of_wr h1 ⟨goodVal_scalar nofun nofun, _, by decide, h2⟩
  | .bool false =>
    obtain ⟨s', h1, h2⟩ := wr_scalar h (tk := .literalFalse) rfl (Or.inl rfl)
    exact .of_wr h1 ⟨goodVal_scalar nofun nofun, _, by decide, h2⟩
  | .int i =>
    obtain ⟨s', h1, h2⟩ := wr_scalar h (tk := .valueInteger) rfl (Or.inr ⟨rfl, rfl⟩)
    obtain ⟨s'', h3, h4⟩ := wr_output h2 (decText i)
    refine .of_wr (h1.bind h3) ⟨goodVal_scalar nofun nofun, .valueInteger, by decide, ?_⟩
    simp only [Printer.text, H.num]
    simpa using h4
  | .flt f =>
    obtain ⟨s', h1, h2⟩ := wr_scalar h (tk := .valueFloat) rfl (Or.inr ⟨rfl, rfl⟩)
    have hg : FloatOk A f → GoodVal A (.flt f) := fun hf => ⟨nofun, fun _ h => by cases h; exact hf⟩
    unfold doDump
    refine Ends.after h1 ?_
    unfold putFloat
    cases hi : A.fo.isIntegral f with
    | false =>
      rw [if_neg (by simp)]
      obtain ⟨s'', h3, h4⟩ := wr_output h2 (A.fo.fmt f)
      refine .of_wr h3 ⟨hg (fun h => by rw [hi] at h; cases h), .valueFloat, by decide, ?_⟩
      simp only [Printer.text, H.flt f hi]
      simpa using h4
    | true =>
      rw [if_pos rfl]
      cases hc : A.fo.toI64 f with
      | none =>
        refine Or.inr ⟨rfl, f, .flt, fun h => ?_⟩
        obtain ⟨i, hi⟩ := h hi
        rw [hc] at hi; cases hi
      | some i =>
        obtain ⟨s3, h3, i3⟩ := wr_output h2 (decText i)
        obtain ⟨s4, h4, i4⟩ := wr_output i3 [0x2E, 0x30]
        refine .of_wr (h3.bind h4) ⟨hg (fun _ => ⟨i, hc⟩), .valueFloat, by decide, ?_⟩
        simp only [Printer.text, H.intFlt f i hi hc]
        simpa using i4
  | .str k =>
    obtain ⟨s', h1, h2⟩ := wr_scalar h (tk := .valueString) rfl (Or.inr ⟨rfl, rfl⟩)
    unfold doDump
    refine Ends.after h1 ((ends_putString H h2 k).imp ?_ ?_)
    · rintro s2 ⟨hf, i2⟩
      refine ⟨⟨fun _ h => by cases h; exact hf, nofun⟩, .valueString, by decide, ?_⟩
      simp only [Printer.text]
      simpa using i2
    · rintro e ⟨rfl, hn⟩
      exact Or.inl ⟨rfl, k, .str, hn⟩
  | .arr xs =>
    obtain ⟨s1, h1, i1⟩ := wr_open h (tk := .beginArray) rfl rfl
    unfold doDump
    refine Ends.after h1 (Ends.bind (ends_dumpElems H xs (d + 1) true .beginArray _ s1 (by decide) i1) ?_ ?_)
    · rintro e (⟨rfl, x, hx, s, hs, hn⟩ | ⟨rfl, x, hx, f, hf, hn⟩)
      · exact Or.inl ⟨rfl, s, .elem hx hs, hn⟩
      · exact Or.inr ⟨rfl, f, .elem hx hf, hn⟩
    · rintro s2 ⟨hg, b', t', ht', i2⟩
      obtain ⟨s3, h3, i3⟩ := wr_close i2 (tk := .endArray) rfl rfl
      refine .of_wr h3 ⟨⟨fun s h => ?_, fun f h => ?_⟩, .endArray, by decide, ?_⟩
      · cases h with | elem hx hs => exact (hg _ hx).1 s hs
      · cases h with | elem hx hs => exact (hg _ hx).2 f hs
      · simp only [Printer.text, Printer.block, H.style]
        cases xs with
        | nil => simpa [Printer.texts] using i3
        | cons x xs => simpa [Printer.texts, H.style] using i3
  | .obj ms =>
    obtain ⟨s1, h1, i1⟩ := wr_open h (tk := .beginObject) rfl rfl
    unfold doDump
    refine Ends.after h1 (Ends.bind (ends_dumpMembers H ms (d + 1) true .beginObject _ s1 (by decide) i1) ?_ ?_)
    · rintro e (⟨rfl, k, v, hm, hs⟩ | ⟨rfl, k, v, hm, f, hf, hn⟩)
      · rcases hs with hn | ⟨s, hs, hn⟩
        · exact Or.inl ⟨rfl, k, .key hm, hn⟩
        · exact Or.inl ⟨rfl, s, .member hm hs, hn⟩
      · exact Or.inr ⟨rfl, f, .member hm hf, hn⟩
    · rintro s2 ⟨hg, b', t', ht', i2⟩
      obtain ⟨s3, h3, i3⟩ := wr_close i2 (tk := .endObject) rfl rfl
      refine .of_wr h3 ⟨⟨fun s h => ?_, fun f h => ?_⟩, .endObject, by decide, ?_⟩
      · cases h with
        | key hm => exact (hg _ _ hm).1
        | member hm hs => exact (hg _ _ hm).2.1 s hs
      · cases h with | member hm hs => exact (hg _ _ hm).2.2 f hs
      · simp only [Printer.text, Printer.block, H.style]
        cases ms with
        | nil => simpa [Printer.members] using i3
        | cons x xs => simpa [Printer.members, H.style] using i3

theorem ends_dumpElems (H : Prints A P) (xs : List (Value F)) (d : Nat) (b : Bool) (t : Token) (out : List Nat) (s : Ser)
    (ht : t ≠ .nameSeparator) (h : Is A d b t out s) :
    Ends (dumpElems A xs s)
      (fun s' => (∀ x ∈ xs, GoodVal A x) ∧ ∃ b' t', t' ≠ .nameSeparator ∧
        Is A d b' t' (out ++ if xs = [] then [] else (if b then A.style.nl else []) ++ P.items d (P.texts d xs)) s')
      (fun e => (e = .exn .serialization ∧ ∃ x ∈ xs, ∃ s, HasText x s ∧ ¬ Fine A s) ∨
        (e = .ub ∧ ∃ x ∈ xs, ∃ f, HasFloat x f ∧ ¬ FloatOk A f)) := by
  match xs with
  | [] => exact ⟨nofun, b, t, ht, by simpa using h⟩
  | x :: xs =>
    unfold dumpElems
    refine Ends.bind (ends_doDump H x d b t out s h) ?_ ?_
    · rintro e (⟨rfl, s, hs, hn⟩ | ⟨rfl, f, hf, hn⟩)
      · exact Or.inl ⟨rfl, x, by simp, s, hs, hn⟩
      · exact Or.inr ⟨rfl, x, by simp, f, hf, hn⟩
    · rintro s1 ⟨hg, t1, ht1, i1⟩
      cases xs with
      | nil =>
        refine ⟨by simpa using hg, false, t1, ht1, ?_⟩
        simp only [Printer.texts, printItems_cons, H.style]
        rw [pre_sep _ _ ht] at i1
        simpa using i1
      | cons y ys =>
        obtain ⟨s2, h2, i2⟩ := wr_comma i1
        refine Ends.after h2 ((ends_dumpElems H (y :: ys) d false .valueSeparator _ s2 (by decide) i2).imp ?_ ?_)
        · rintro s3 ⟨hg', b', t', ht', i3⟩
          refine ⟨?_, b', t', ht', ?_⟩
          · intro z hz
            rcases List.mem_cons.1 hz with rfl | hz
            · exact hg
            · exact hg' z hz
          · rw [pre_sep _ _ ht] at i3
            simp only [Printer.texts, printItems_cons P d _ (_ :: _), H.style] at i3 ⊢
            simpa using i3
        · rintro e (⟨rfl, z, hz, h3⟩ | ⟨rfl, z, hz, h3⟩)
          · exact Or.inl ⟨rfl, z, by simp [hz], h3⟩
          · exact Or.inr ⟨rfl, z, by simp [hz], h3⟩

theorem ends_dumpMembers (H : Prints A P) (ms : List (List Nat × Value F)) (d : Nat) (b : Bool) (t : Token) (out : List Nat)
    (s : Ser) (ht : t ≠ .nameSeparator) (h : Is A d b t out s) :
    Ends (dumpMembers A ms s)
      (fun s' => (∀ k v, (k, v) ∈ ms → Fine A k ∧ GoodVal A v) ∧ ∃ b' t', t' ≠ .nameSeparator ∧
        Is A d b' t' (out ++ if ms = [] then [] else (if b then A.style.nl else []) ++ P.items d (P.members d ms)) s')
      (fun e => (e = .exn .serialization ∧ ∃ k v, (k, v) ∈ ms ∧ (¬ Fine A k ∨ ∃ s, HasText v s ∧ ¬ Fine A s)) ∨
        (e = .ub ∧ ∃ k v, (k, v) ∈ ms ∧ ∃ f, HasFloat v f ∧ ¬ FloatOk A f)) := by
  match ms with
  | [] => exact ⟨nofun, b, t, ht, by simpa using h⟩
  | (k, v) :: ms =>
    unfold dumpMembers
    obtain ⟨s1, h1, i1⟩ := wr_scalar h (tk := .valueString) rfl (Or.inr ⟨rfl, rfl⟩)
    refine Ends.after h1 (Ends.bind (ends_putString H i1 k) ?_ ?_)
    · rintro e ⟨rfl, hn⟩
      exact Or.inl ⟨rfl, k, v, by simp, Or.inl hn⟩
    rintro s2 ⟨hk, i2⟩
    obtain ⟨s3, h3, i3⟩ := wr_colon i2
    refine Ends.after h3 (Ends.bind (ends_doDump H v d false .nameSeparator _ s3 i3) ?_ ?_)
    · rintro e (⟨rfl, s, hs, hn⟩ | ⟨rfl, f, hf, hn⟩)
      · exact Or.inl ⟨rfl, k, v, by simp, Or.inr ⟨s, hs, hn⟩⟩
      · exact Or.inr ⟨rfl, k, v, by simp, f, hf, hn⟩
    · rintro s4 ⟨hg, t4, ht4, i4⟩
      rw [pre_sep _ _ ht] at i4
      cases ms with
      | nil =>
        refine ⟨?_, false, t4, ht4, ?_⟩
        · intro k' v' hm
          simp at hm
          rw [hm.1, hm.2]; exact ⟨hk, hg⟩
        · simp only [Printer.members, printItems_cons, H.style]
          simpa [pre] using i4
      | cons y ys =>
        obtain ⟨s5, h5, i5⟩ := wr_comma i4
        refine Ends.after h5 ((ends_dumpMembers H (y :: ys) d false .valueSeparator _ s5 (by decide) i5).imp ?_ ?_)
        · rintro s6 ⟨hg', b', t', ht', i6⟩
          refine ⟨?_, b', t', ht', ?_⟩
          · intro k' v' hm
            rcases List.mem_cons.1 hm with hm | hm
            · simp at hm
              rw [hm.1, hm.2]; exact ⟨hk, hg⟩
            · exact hg' k' v' hm
          · obtain ⟨yk, yv⟩ := y
            simp only [Printer.members, printItems_cons P d _ (_ :: _), H.style] at i6 ⊢
            simpa [pre] using i6
        · rintro e (⟨rfl, k', v', hm, h6⟩ | ⟨rfl, k', v', hm, h6⟩)
          · exact Or.inl ⟨rfl, k', v', by simp [hm], h6⟩
          · exact Or.inr ⟨rfl, k', v', by simp [hm], h6⟩

end

/-- What a call of `json::dump` does. -/
theorem jsonDump_spec (H : Prints A P) (str : List Nat) (v : Value F) :
    match jsonDump A none str v with
    | (.ok _, r) => GoodVal A v ∧ r = str ++ P.text 0 v
    | (.error e, _) => BadVal A v e := by
  have hi : Is A 0 false .uninitialized str (init A str) := ⟨rfl, rfl, rfl, indOk_make A⟩
  have h := ends_doDump H v 0 false .uninitialized str _ hi
  have h2 : Ends ((do doDump A v; next A .endOfInput : M Ser Unit) (init A str))
      (fun s' => GoodVal A v ∧ s'.os.out = str ++ P.text 0 v) (BadVal A v) := by
    refine Ends.bind h (fun _ h => h) ?_
    rintro s1 ⟨hg, t', ht', i1⟩
    obtain ⟨s2, h2, i2⟩ := wr_next (tk := .endOfInput) (d' := 0) (b' := false) (cs := []) i1 (by
      intro s1 out1 h1
      exact ⟨s1, rfl, by simpa using h1⟩)
    refine .of_wr h2 ⟨hg, ?_⟩
    rw [i2.os]
    have : pre A.style 0 false .uninitialized = [] := by
      unfold pre Style.indent; simp
    simp [startsValue, this]
  unfold jsonDump dump
  rcases hr : (do doDump A v; next A .endOfInput : M Ser Unit) (init A str) with ⟨e | _, s'⟩
  · rw [hr] at h2
    cases e <;> exact h2
  · rw [hr] at h2
    exact h2

end Configor
