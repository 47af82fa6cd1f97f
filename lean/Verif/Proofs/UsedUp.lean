import Verif.Proofs.Document
/-!
A stream that was parsed is at its end.
-/
namespace Configor

variable {F σ : Type} {A : ParseArgs F} {B : SBuf σ} {R : σ → List Int → Prop}

/-- A buffer at its end stays there. -/
structure Stays (B : SBuf σ) (R : σ → List Int → Prop) : Prop where
  peek : ∀ {s}, R s [] → R (B.sgetc s).2 []
  get : ∀ {s}, R s [] → R (B.sbumpc s).2 []

theorem Stays.of_get (V : View B R) (S : Stays B R) {s : σ} (h : R s []) :
    R ((⟨s, false, false⟩ : IStream σ).get B).2.sb [] := by
  have := (V.nil h).2
  simp [IStream.get, IStream.good, this, S.get h, V.calm h]

theorem Stays.of_peek (V : View B R) (S : Stays B R) {s : σ} (h : R s []) :
    R ((⟨s, false, false⟩ : IStream σ).peek B).2.sb [] := by
  simp [IStream.peek, IStream.good, S.peek h, V.calm h]

theorem Enc.nil_stays (e : Enc) (w : Nat) (V : View B R) (S : Stays B R) {s : σ} (h : R s []) :
    R (e.decode w B ⟨s, false, false⟩).2.2.sb [] := by
  have hg := S.of_get V h
  have hp := S.of_peek V h
  obtain ⟨s1, h1⟩ := V.get_nil h
  obtain ⟨s2, h2⟩ := V.peek_nil h
  rw [h1] at hg
  rw [h2] at hp
  cases e
  · simpa [Enc.decode, ignoreDecode, h1] using hg
  · simpa [Enc.decode, utf8Decode, h2] using hp
  · simpa [Enc.decode, utf16Decode, h1] using hg
  · simpa [Enc.decode, utf32Decode, h1] using hg

theorem Enc.eof_stays (e : Enc) (w : Nat) {s : IStream σ} (h : s.eofb = true) :
    (e.decode w B s).2.2.sb = s.sb := by
  have hg := get_notgood (B := B) (notgood_of_eof h)
  have hp := peek_notgood (B := B) (notgood_of_eof h)
  cases e
  · simp [Enc.decode, ignoreDecode, hg]
  · simp [Enc.decode, utf8Decode, hp, h]
  · simp [Enc.decode, utf16Decode, hg, h]
  · simp [Enc.decode, utf32Decode, hg, h]

/-- As `CanonRel`; and when the stream has seen the end its buffer is at the end. -/
def CanonEnd (R : σ → List Int → Prop) (step : Step) (s : IStream σ) (c : CpS) : Prop :=
  CanonRel R step s c ∧ (s.eofb = true → R s.sb [])

theorem canonEnd_src {e : Enc} {w : Nat} (V : View B R) (S : Stays B R) :
    SrcSim (istreamSrc e w B) canonSrc (CanonEnd R (e.step w)) where
  eof h := (canon_src V).eof h.1
  flag h := (canon_src V).flag h.1
  good h := (canon_src V).good h.1
  cp {s c} h hd hg := by
    obtain ⟨h1, h2⟩ := (canon_src V).cp h.1 hd hg
    refine ⟨h1, h2, fun he => ?_⟩
    have : (e.decode w B s).2.2.good = true := hg
    have he' : (e.decode w B s).2.2.eofb = true := he
    simp [IStream.good, he'] at this
  fin {s c} h hd := by
    refine ⟨(canon_src V).fin h.1 hd, fun _ => ?_⟩
    show R (e.decode w B s).2.2.sb []
    have hd' : (e.decode w B s).1 = false := hd
    have F := e.follows w V
    rcases h.1 with ⟨h1, _⟩ | ⟨h1, h2, _, _, l, hl, _⟩
    · rw [e.eof_stays w h1]; exact h.2 h1
    · obtain ⟨sb, _, _⟩ := s
      simp only at h1 h2 hl
      subst h1 h2
      cases l with
      | nil => exact e.nil_stays w V S hl
      | cons u us =>
        exfalso
        cases hst : e.step w (u :: us) with
        | none => exact F.stepcons u us hst
        | some p =>
          obtain ⟨o, r⟩ := p
          cases o with
          | some cp =>
            obtain ⟨s', hd2, _⟩ := F.good hl hst
            rw [hd2] at hd'
            simp at hd'
          | none => exact absurd ((F.bad hl hst).1.symm.trans hd') (by simp)

/-- Successful parses end in related states. -/
theorem parse_sim_ok {S T : Type} {C : Cfg S F} {D : Cfg T F} {R : S → T → Prop} (H : CfgSim C D R) {n m : Nat} (hnm : n ≤ m)
    (c : Value F) {s : Lex S F} {t : Lex T F} (hs : LexSim (fun _ => R) s t)
    (hok : (parse C n none c s).1 = .ok ()) :
    R (parse C n none c s).2.1.is (parse D m none c t).2.1.is := by
  have H' : EofSim C D (fun _ => R) False := H.eofSim
  unfold parse at hok ⊢
  have := Sim.readNext H'.toNextSim s t hs
  revert hok
  refine this.elim ?_ ?_ ?_ ?_
  · intro s' hr; rw [hr]; simp
  · intro hE; exact hE.elim
  · intro e s' t' hr hq hd; rw [hr, hq]; simp
  · intro a s' t' hr hq hl; rw [hr, hq]; simp only
    intro hok
    have hp := parseBody_sim H'.parserSim hnm c hl
    revert hok
    refine hp.elim ?_ ?_ ?_ ?_
    · intro s v hr; rw [hr]; simp [handled]
    · intro hE; exact hE.elim
    · intro e s t v hr hq hd; rw [hr]; cases e <;> simp [handled]
    · intro s t v hr hq hl _
      rw [hr, hq]
      exact hl.1

/-- After a parse that succeeded, the buffer is at its end, if the text has no NUL. -/
theorem parse_usedUp (V : View B R) (S : Stays B R) (hA : A.Usual) {b : σ} {l : List Int} (hb : R b l) (c : Value F)
    {m : Nat} (hm : 2 * (items (A.se.step A.sw) l).length + 2 ≤ m)
    (h0 : some 0 ∉ items (A.se.step A.sw) l)
    (hok : (parse (A.cfg B m) m none c (Lex.init (.ofBuf b) (A.fo.ofInt 0))).1 = .ok ()) :
    R (parse (A.cfg B m) m none c (Lex.init (.ofBuf b) (A.fo.ofInt 0))).2.1.is.sb [] := by
  have hsame := parseFrom_items (n := m) V hb (Nat.le_refl m) none c (parseItems_nofuel hA none c hm)
  have hok' : (parseItems A m none c (items (A.se.step A.sw) l)).1 = .ok () := by
    rw [← hsame]; exact hok
  have hdoc := parseItems_sound hA c hm
  rcases hp : parseItems A m none c (items (A.se.step A.sw) l) with ⟨_ | _, v⟩
  · rw [hp] at hok'; simp at hok'
  rw [hp] at hdoc
  simp only at hdoc
  have H : CfgSim (A.canon m) (A.cfg B m) (fun c s => CanonEnd R (A.se.step A.sw) s c) :=
    ⟨(canonEnd_src V S).symm, rfl, rfl, rfl, rfl, Nat.le_refl m⟩
  have hrel := parse_sim_ok H (Nat.le_refl m) c (s := Lex.init ⟨items (A.se.step A.sw) l, false, false⟩ (A.fo.ofInt 0))
    (t := Lex.init (.ofBuf b) (A.fo.ofInt 0))
    ⟨⟨Or.inr ⟨rfl, rfl, rfl, rfl, l, hb, rfl⟩, by simp [Lex.init, IStream.ofBuf]⟩, rfl, rfl, rfl, rfl, rfl⟩ hok'
  rw [parse_start m m none c (document_ok hdoc)] at hrel
  obtain ⟨l', d', hs, hl'⟩ := body_complete (canon_canon hA m) (A.te.sticky A.tw) (data0 A) c hdoc
    (show (items (A.se.step A.sw) l).length + 1 ≤ m by omega) hm
  have hl' := hl' h0
  subst hl'
  rw [hs] at hrel
  refine hrel.2 ?_
  rcases hrel.1 with h | h
  · exact h.1
  · exact absurd h.2.2.1 (by simp [handled, At])

end Configor
