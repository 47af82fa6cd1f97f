import Verif.Proofs.Document
/-!
Parsing depends on the stream only through what its decoder delivers; streams whose buffer
throws.
-/
namespace Configor
open Spec

variable {σ F : Type} {B : SBuf σ}

/-! ## Any stream -/

theorem Enc.decode_end (e : Enc) (w : Nat) (s : IStream σ) (h : (e.decode w B s).1 = false) :
    (e.decode w B s).2.2.eofb = true := by
  cases e
  · simpa [Enc.decode, ignoreDecode] using h
  · simp only [Enc.decode, utf8Decode] at h ⊢
    split at h <;> simp_all
  · simp only [Enc.decode, utf16Decode] at h ⊢
    split at h
    · simp_all
    · split at h
      · split at h <;> simp at h
      · simp at h
  · simp only [Enc.decode, utf32Decode] at h ⊢
    split at h <;> simp_all

theorem Enc.decode_ended (e : Enc) (w : Nat) (s : IStream σ) (h : s.eofb = true) :
    (e.decode w B s).1 = false ∧ (e.decode w B s).2.2.eofb = true := by
  have hg := notgood_of_eof h
  cases e <;>
    simp [Enc.decode, ignoreDecode, utf8Decode, utf16Decode, utf32Decode, get_notgood hg, peek_notgood hg, h]

/-- A stream and the list it still delivers. -/
def DelRel (dec : IStream σ → Decoded σ) (s : IStream σ) (c : CpS) : Prop :=
  (s.eofb = true ∧ c.ended = true) ∨
  (s.eofb = false ∧ c.ended = false ∧ c.dead = false ∧ Delivers dec s c.rest)

theorem delivers_src (e : Enc) (w : Nat) : SrcSim (istreamSrc e w B) canonSrc (DelRel (e.decode w B)) := by
  have live : ∀ (s : IStream σ) (c : CpS), c.ended = false → c.dead = false → Delivers (e.decode w B) s c.rest →
      ((e.decode w B s).1 = false ∧ (e.decode w B s).2.2.eofb = true ∧
        (canonSrc.decode c).1 = false ∧ (canonSrc.decode c).2.2.ended = true) ∨
      ((e.decode w B s).1 = true ∧ (e.decode w B s).2.2.good = true ∧
        (canonSrc.decode c).1 = true ∧ (canonSrc.decode c).2.2.dead = false ∧
        (e.decode w B s).2.1 = (canonSrc.decode c).2.1 ∧
        DelRel (e.decode w B) (e.decode w B s).2.2 (canonSrc.decode c).2.2) ∨
      ((e.decode w B s).1 = true ∧ (e.decode w B s).2.2.good = false ∧
        (canonSrc.decode c).1 = true ∧ (canonSrc.decode c).2.2.dead = true) := by
    rintro s ⟨rest, _, _⟩ h3 h4 hd
    simp only at h3 h4 hd
    subst h3 h4
    cases hd with
    | done h => exact Or.inl ⟨h, e.decode_end w s h, by simp [canonSrc], by simp [canonSrc]⟩
    | bad h hg => exact Or.inr (Or.inr ⟨h, hg, by simp [canonSrc], by simp [canonSrc]⟩)
    | more h hg hr =>
      rename_i cp s' l
      refine Or.inr (Or.inl ?_)
      rw [h]
      refine ⟨rfl, hg, by simp [canonSrc], by simp [canonSrc], by simp [canonSrc], Or.inr ⟨?_, by simp [canonSrc],
        by simp [canonSrc], by simpa [canonSrc] using hr⟩⟩
      simp only [IStream.good, Bool.and_eq_true, Bool.not_eq_true'] at hg
      exact hg.1
  refine ⟨?_, ?_, ?_, ?_, ?_⟩
  · intro s c h
    rcases h with ⟨h1, h2⟩ | ⟨h1, h2, _⟩ <;> simp [istreamSrc, canonSrc, h1, h2]
  · intro s c h
    rcases h with ⟨h1, h2⟩ | ⟨h1, h3, h4, h5⟩
    · have := e.decode_ended (B := B) w s h1
      simp [istreamSrc, canonSrc, this.1, h2]
    · rcases live s c h3 h4 h5 with h | h | h
      · exact h.1.trans h.2.2.1.symm
      · exact h.1.trans h.2.2.1.symm
      · exact h.1.trans h.2.2.1.symm
  · intro s c h hd
    rcases h with ⟨h1, h2⟩ | ⟨h1, h3, h4, h5⟩
    · exact absurd ((e.decode_ended (B := B) w s h1).1.symm.trans hd) (by simp)
    · rcases live s c h3 h4 h5 with h | h | h
      · exact absurd (h.1.symm.trans hd) (by simp)
      · exact h.2.1.trans (by simp [canonSrc] at h ⊢; simp [h.2.2.2.1])
      · exact h.2.1.trans (by simp [canonSrc] at h ⊢; simp [h.2.2.2])
  · intro s c h hd hg
    rcases h with ⟨h1, h2⟩ | ⟨h1, h3, h4, h5⟩
    · exact absurd ((e.decode_ended (B := B) w s h1).1.symm.trans hd) (by simp)
    · rcases live s c h3 h4 h5 with h | h | h
      · exact absurd (h.1.symm.trans hd) (by simp)
      · exact ⟨h.2.2.2.2.1, h.2.2.2.2.2⟩
      · exact absurd (h.2.1.symm.trans hg) (by simp)
  · intro s c h hd
    rcases h with ⟨h1, h2⟩ | ⟨h1, h3, h4, h5⟩
    · exact Or.inl ⟨(e.decode_ended w s h1).2, by simp [canonSrc, h2]⟩
    · rcases live s c h3 h4 h5 with h | h | h
      · exact Or.inl ⟨h.2.1, h.2.2.2⟩
      · exact absurd (h.1.symm.trans hd) (by simp)
      · exact absurd (h.1.symm.trans hd) (by simp)

/-- Parsing a stream is parsing what its decoder delivers. -/
theorem parseFrom_delivers {A : ParseArgs F} (hA : A.Usual) {b : σ} {l : List (Option Nat)}
    (hd : Delivers (A.se.decode A.sw B) (.ofBuf b) l) (h : Option Handler) (c : Value F) {n m : Nat}
    (hn : 2 * l.length + 2 ≤ n) (hm : 2 * l.length + 2 ≤ m) :
    parseFrom A B m h c b = parseItems A n h c l := by
  have h1 := parseItems_nofuel hA h c (Nat.le_refl (2 * l.length + 2))
  rw [parseItems_mono hn h c h1]
  have H : CfgSim (A.canon (2 * l.length + 2)) (A.cfg B m) (fun c s => DelRel (A.se.decode A.sw B) s c) :=
    ⟨(delivers_src A.se A.sw).symm, rfl, rfl, rfl, rfl, hm⟩
  have := parse_sim H hm h c (s := Lex.init ⟨l, false, false⟩ (A.fo.ofInt 0))
    (t := Lex.init (.ofBuf b) (A.fo.ofInt 0))
    ⟨Or.inr ⟨rfl, rfl, rfl, hd⟩, rfl, rfl, rfl, rfl, rfl⟩ h1
  unfold parseFrom parseItems
  simp only [Prod.mk.injEq]
  exact ⟨this.1.symm, this.2.symm⟩

/-! ## Buffers that throw -/

/-- The buffer that ends where `B` throws. -/
def SBuf.quiet (B : SBuf σ) : SBuf σ where
  sgetc s := if B.throws s then (-1, s) else B.sgetc s
  sbumpc s := if B.throws s then (-1, s) else B.sbumpc s

theorem get_quiet (s : IStream σ) :
    s.get B = s.get B.quiet ∨
    ((s.get B).2.good = false ∧ (s.get B).2.eofb = false ∧ (s.get B.quiet).2.eofb = true) := by
  unfold IStream.get SBuf.quiet
  cases hg : s.good
  · exact Or.inl rfl
  · cases ht : B.throws s.sb
    · left; simp [ht]
    · right
      simp only [IStream.good, Bool.and_eq_true, Bool.not_eq_true'] at hg
      simp [IStream.good, hg, ht]

theorem peek_quiet (s : IStream σ) :
    s.peek B = s.peek B.quiet ∨
    ((s.peek B).2.good = false ∧ (s.peek B).2.eofb = false ∧ (s.peek B.quiet).2.eofb = true) := by
  unfold IStream.peek SBuf.quiet
  cases hg : s.good
  · exact Or.inl rfl
  · cases ht : B.throws s.sb
    · left; simp [ht]
    · right
      simp only [IStream.good, Bool.and_eq_true, Bool.not_eq_true'] at hg
      simp [IStream.good, hg, ht]

theorem utf8Read_quiet (n cp : Nat) (s : IStream σ) :
    utf8Read B n cp s = utf8Read B.quiet n cp s ∨
    ((utf8Read B n cp s).2.good = false ∧ (utf8Read B.quiet n cp s).2.good = false) := by
  induction n generalizing cp s with
  | zero =>
    simp only [utf8Read]
    rcases get_quiet (B := B) s with h | ⟨h1, _, h2⟩
    · rw [h]; exact Or.inl rfl
    · exact Or.inr ⟨h1, notgood_of_eof h2⟩
  | succ n ih =>
    simp only [utf8Read]
    rcases get_quiet (B := B) s with h | ⟨h1, _, h2⟩
    · rw [h]; exact ih _ _
    · exact Or.inr ⟨utf8Read_dead _ _ _ h1, utf8Read_dead _ _ _ (notgood_of_eof h2)⟩

theorem setFail_good (s : IStream σ) : s.setFail.good = false := by simp [IStream.setFail, IStream.good]

theorem ite_setFail_good {p : Prop} [Decidable p] {s : IStream σ} (h : s.good = false) :
    (if p then s.setFail else s).good = false := by
  split
  · exact setFail_good s
  · exact h

/-- Where a buffer that throws makes a difference: the stream goes bad instead of ending. -/
theorem Enc.decode_quiet (e : Enc) (w : Nat) (s : IStream σ) :
    e.decode w B s = e.decode w B.quiet s ∨
    ((e.decode w B s).1 = true ∧ (e.decode w B s).2.2.good = false ∧
      ((e.decode w B.quiet s).1 = false ∨ (e.decode w B.quiet s).2.2.good = false)) := by
  cases e
  · simp only [Enc.decode, ignoreDecode]
    rcases get_quiet (B := B) s with h | ⟨h1, h2, h3⟩
    · rw [h]; exact Or.inl rfl
    · exact Or.inr ⟨by simp [h2], h1, Or.inl (by simp [h3])⟩
  · simp only [Enc.decode, utf8Decode]
    rcases peek_quiet (B := B) s with h | ⟨h1, h2, h3⟩
    · rw [h]
      split
      · exact Or.inl rfl
      · rcases utf8Read_quiet (B := B) (utf8ExtraTable.getD (castU 8 (s.peek B.quiet).1) 0) 0 (s.peek B.quiet).2 with h | ⟨h1, h2⟩
        · rw [h]; exact Or.inl rfl
        · exact Or.inr ⟨rfl, ite_setFail_good h1, Or.inr (ite_setFail_good h2)⟩
    · right
      rw [if_neg (by simp [h2]), if_pos h3]
      exact ⟨rfl, ite_setFail_good (utf8Read_dead _ _ _ h1), Or.inl rfl⟩
  · simp only [Enc.decode, utf16Decode]
    rcases get_quiet (B := B) s with h | ⟨h1, h2, h3⟩
    · rw [h]
      split
      · exact Or.inl rfl
      · split
        · rcases get_quiet (B := B) (s.get B.quiet).2 with h | ⟨h1, h2, h3⟩
          · rw [h]; exact Or.inl rfl
          · right
            refine ⟨?_, ?_, Or.inr ?_⟩
            · split <;> rfl
            · split
              · split
                · exact setFail_good _
                · exact h1
              · exact setFail_good _
            · split
              · split
                · exact setFail_good _
                · exact (notgood_of_eof h3)
              · exact setFail_good _
        · exact Or.inl rfl
    · right
      rw [if_neg (by simp [h2]), if_pos h3]
      have hd : (((s.get B).2.get B).2).good = false := by rw [get_notgood h1]; simp [IStream.good]
      refine ⟨?_, ?_, Or.inl rfl⟩
      · split
        · split <;> rfl
        · rfl
      · split
        · split
          · split
            · exact setFail_good _
            · exact hd
          · exact setFail_good _
        · split
          · exact setFail_good _
          · exact h1
  · simp only [Enc.decode, utf32Decode]
    rcases get_quiet (B := B) s with h | ⟨h1, h2, h3⟩
    · rw [h]; exact Or.inl rfl
    · right
      rw [if_neg (by simp [h2]), if_pos h3]
      exact ⟨rfl, ite_setFail_good h1, Or.inl rfl⟩

theorem Enc.decode_bad (e : Enc) (w : Nat) (s : IStream σ) (h1 : (s.get B).2.good = false) (h2 : (s.get B).2.eofb = false)
    (h3 : (s.peek B).2.good = false) (h4 : (s.peek B).2.eofb = false) :
    (e.decode w B s).1 = true ∧ (e.decode w B s).2.2.good = false := by
  cases e
  · simp only [Enc.decode, ignoreDecode]
    exact ⟨by simp [h2], h1⟩
  · simp only [Enc.decode, utf8Decode]
    rw [if_neg (by simp [h4])]
    exact ⟨rfl, ite_setFail_good (utf8Read_dead _ _ _ h3)⟩
  · simp only [Enc.decode, utf16Decode]
    rw [if_neg (by simp [h2])]
    have hd : (((s.get B).2.get B).2).good = false := by rw [get_notgood h1]; simp [IStream.good]
    refine ⟨?_, ?_⟩
    · split
      · split <;> rfl
      · rfl
    · split
      · split
        · split
          · exact setFail_good _
          · exact hd
        · exact setFail_good _
      · split
        · exact setFail_good _
        · exact h1
  · simp only [Enc.decode, utf32Decode]
    rw [if_neg (by simp [h2])]
    refine ⟨rfl, ?_⟩
    split
    · exact setFail_good _
    · exact h1

/-- Reading a buffer that throws at once. -/
theorem Enc.decode_throws (e : Enc) (w : Nat) {b : σ} (h : B.throws b = true) :
    (e.decode w B (.ofBuf b)).1 = true ∧ (e.decode w B (.ofBuf b)).2.2.good = false := by
  have hg : (IStream.ofBuf b).get B = (-1, ⟨b, false, true⟩) := by simp [IStream.get, IStream.good, IStream.ofBuf, h]
  have hp : (IStream.ofBuf b).peek B = (-1, ⟨b, false, true⟩) := by simp [IStream.peek, IStream.good, IStream.ofBuf, h]
  exact e.decode_bad w _ (by rw [hg]; rfl) (by rw [hg]) (by rw [hp]; rfl) (by rw [hp])

/-- A stream whose buffer throws behind the characters `l` delivers the code points of `l` up to
the first malformed one, and then a malformed one. -/
theorem broken_delivers {R : σ → List Int → Prop} (e : Enc) (w : Nat) (V : View B.quiet R)
    (ht : ∀ s, R s [] → B.throws s = true) {b : σ} {u : List Int} (hb : R b u) :
    Delivers (e.decode w B) (.ofBuf b) ((items (e.step w) u).takeWhile Option.isSome ++ [none]) := by
  have F := e.follows w V
  have hs := e.shrinks w
  generalize hn : u.length = n
  induction n using Nat.strongRecOn generalizing u b with
  | ind n ih =>
    subst hn
    cases hst : e.step w u with
    | none =>
      have : u = [] := by
        cases u with
        | nil => rfl
        | cons u us => exact absurd hst (F.stepcons u us)
      subst this
      rw [items_nil F.stepnil]
      have := e.decode_throws (B := B) w (ht b hb)
      exact .bad this.1 this.2
    | some p =>
      obtain ⟨o, r⟩ := p
      cases o with
      | none =>
        rw [items_bad F.stepnil hst]
        have h1 := F.bad hb hst
        rcases e.decode_quiet (B := B) w ⟨b, false, false⟩ with h | ⟨h2, h3, _⟩
        · rw [← h] at h1
          exact .bad h1.1 h1.2
        · exact .bad h2 h3
      | some cp =>
        rw [items_cons hs F.stepnil hst]
        obtain ⟨s', h1, h2⟩ := F.good hb hst
        rcases e.decode_quiet (B := B) w ⟨b, false, false⟩ with h | ⟨_, _, h4⟩
        · rw [h1] at h
          exact .more h rfl (ih _ (hs _ _ _ hst) h2 rfl)
        · rw [h1] at h4
          rcases h4 with h4 | h4
          · cases h4
          · cases h4

/-- What is delivered ends with a malformed character and has no NUL in front: not accepted. -/
theorem document_broken {D : Dialect F} {l : List (Option Nat)} (h0 : some 0 ∉ l) {v : Value F} :
    ¬ Document D (l ++ [none]) v := by
  rintro ⟨g, t, e, more, hl, _, _, hf⟩
  have key : ∀ more, l ++ [none] = (g ++ t ++ e).map some ++ more → more = [] ∨ more.head? = some (some 0) → False := by
    intro more hl h
    rcases h with rfl | h
    · have := congrArg List.getLast? hl
      rw [List.append_nil, List.getLast?_append] at this
      simp only [List.getLast?_singleton, Option.some_or, List.getLast?_map] at this
      cases hx : (g ++ t ++ e).getLast? <;> rw [hx] at this <;> simp at this
    · obtain ⟨m, rfl⟩ : ∃ m, more = some 0 :: m := by
        cases more with
        | nil => simp at h
        | cons a m => simp only [List.head?_cons, Option.some.injEq] at h; exact ⟨m, by rw [h]⟩
      have : some 0 ∈ l ++ [none] := by rw [hl]; simp
      rcases List.mem_append.mp this with h | h
      · exact h0 h
      · simp at h
  cases hf with
  | eof => exact key _ hl (Or.inl rfl)
  | eofInLine => exact key _ hl (Or.inl rfl)
  | nul => exact key _ hl (Or.inr rfl)

end Configor
