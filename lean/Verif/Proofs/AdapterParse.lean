import Verif.Proofs.Sources
/-!
Parsing from files, C strings and adapters.
-/
namespace Configor
open Lexer Spec

variable {F σ : Type} {A : ParseArgs F} {B : SBuf σ} {R : σ → List Int → Prop}

/-- The scanner configuration on the source that does not end. -/
def ParseArgs.zcfg (A : ParseArgs F) (n : Nat) : Cfg (List (Option Nat) × Bool) F where
  src := zSrc
  enc := A.te.encode A.tw
  w := A.sw
  debug := A.debug
  bound := n
  fo := A.fo

theorem parseFrom_mono {b : σ} {n m : Nat} (hnm : n ≤ m) (h : Option Handler) (c : Value F)
    (hf : (parseFrom A B n h c b).1 ≠ .error .fuel) : parseFrom A B m h c b = parseFrom A B n h c b := by
  have H : CfgSim (A.cfg B n) (A.cfg B m) Eq :=
    ⟨⟨fun h => by rw [h]; rfl, fun h => by rw [h]; rfl, fun h _ => by rw [h]; rfl,
      fun h _ _ => by rw [h]; exact ⟨rfl, rfl⟩, fun h _ => by rw [h]; rfl⟩, rfl, rfl, rfl, rfl, hnm⟩
  have := parse_sim H hnm h c (s := Lex.init (.ofBuf b) (A.fo.ofInt 0))
    (t := Lex.init (.ofBuf b) (A.fo.ofInt 0)) ⟨rfl, rfl, rfl, rfl, rfl, rfl⟩ hf
  unfold parseFrom
  simp only [Prod.mk.injEq]
  exact ⟨this.1.symm, this.2.symm⟩

/-- Parsing a stream that delivers a text and then NULs. -/
theorem parseFrom_feed (V : Feed B R) {b : σ} {l : List Int} (hb : R b l)
    (hl : (∀ x ∈ items (A.se.step A.sw) l, x ≠ none) ∨ Safe l) {n m : Nat} (hnm : n ≤ m)
    (h : Option Handler) (c : Value F)
    (hf : (parseItems A n h c (items (A.se.step A.sw) l)).1 ≠ .error .fuel) :
    parseFrom A B m h c b = parseItems A n h c (items (A.se.step A.sw) l) ∨
      (Unclosed (items (A.se.step A.sw) l) ∧ (parseFrom A B m h c b).1 = .error .fuel) := by
  have Z : ZCfg (A.canon n) (A.zcfg m) := ⟨rfl, rfl, rfl, rfl, rfl, rfl, hnm⟩
  have hz := Z.parse hnm h c (A.fo.ofInt 0) hf
  have hst : LexSim (fun _ => ZSt R (A.se.step A.sw)) (Lex.init (.ofBuf b) (A.fo.ofInt 0))
      (Lex.init (items (A.se.step A.sw) l, false) (A.fo.ofInt 0)) :=
    ⟨⟨rfl, rfl, rfl, l, hb, rfl, hl⟩, rfl, rfl, rfl, rfl, rfl⟩
  have H1 : CfgSim (A.cfg B m) (A.zcfg m) (ZSt R (A.se.step A.sw)) :=
    ⟨z_src V, rfl, rfl, rfl, rfl, Nat.le_refl _⟩
  have H2 : CfgSim (A.zcfg m) (A.cfg B m) (fun x y => ZSt R (A.se.step A.sw) y x) :=
    ⟨(z_src V).symm, rfl, rfl, rfl, rfl, Nat.le_refl _⟩
  rcases hz with hz | ⟨hu, hz⟩
  · left
    have hf2 : (parse (A.zcfg m) m h c (Lex.init (items (A.se.step A.sw) l, false) (A.fo.ofInt 0))).1 ≠ .error .fuel := by
      rw [← hz.1]; exact hf
    have := parse_sim H2 (Nat.le_refl m) h c (s := Lex.init (items (A.se.step A.sw) l, false) (A.fo.ofInt 0))
      (t := Lex.init (.ofBuf b) (A.fo.ofInt 0)) ⟨hst.1, rfl, rfl, rfl, rfl, rfl⟩ hf2
    unfold parseFrom parseItems
    simp only [Prod.mk.injEq]
    exact ⟨(hz.1.trans this.1).symm, (hz.2.trans this.2).symm⟩
  · right
    refine ⟨hu, ?_⟩
    refine Classical.byContradiction fun hne => ?_
    have := parse_sim H1 (Nat.le_refl m) h c hst hne
    exact hne (this.1.trans hz)

/-- The same, as a statement about calls. -/
theorem feed_call (V : Feed B R) {b : σ} {l : List Int} (hb : R b l)
    (hl : (∀ x ∈ items (A.se.step A.sw) l, x ≠ none) ∨ Safe l) (hA : A.Usual)
    (h : Option Handler) (c : Value F) {n : Nat} (hn : 2 * (items (A.se.step A.sw) l).length + 2 ≤ n) :
    EndsWith (fun m => parseFrom A B m h c b) (parseItems A n h c (items (A.se.step A.sw) l)) ∨
      (Unclosed (items (A.se.step A.sw) l) ∧ Hangs (fun m => parseFrom A B m h c b)) := by
  have hf := parseItems_nofuel hA h c hn
  by_cases hh : Hangs (fun m => parseFrom A B m h c b)
  · right
    refine ⟨?_, hh⟩
    rcases parseFrom_feed V hb hl (Nat.le_refl n) h c hf with he | he
    · exact absurd ((congrArg Prod.fst he).symm.trans (hh n)) hf
    · exact he.1
  · left
    refine ⟨hf, ?_⟩
    obtain ⟨m0, h0⟩ := Classical.not_forall.mp hh
    refine ⟨max m0 n, fun m hm => ?_⟩
    have h1 : parseFrom A B m h c b = parseFrom A B m0 h c b := parseFrom_mono (by omega) h c h0
    rcases parseFrom_feed V hb hl (show n ≤ m by omega) h c hf with he | he
    · exact he
    · exact absurd (congrArg Prod.fst h1 |>.symm.trans he.2) h0

theorem signExtend_nonzero {w u : Nat} (hu : u < 2 ^ w) (h0 : u ≠ 0) : signExtend w u ≠ 0 := by
  unfold signExtend
  split <;> omega

theorem signExtend_noEof {w u : Nat} (h0 : u ≠ 2 ^ w - 1) : signExtend w u ≠ -1 := by
  unfold signExtend
  split <;> omega

/-- An adapter buffer that runs into a character equal to `eof` after `l`. -/
def CutAt (w : Nat) (b : CacheBuf (List Nat)) (l : List Int) : Prop :=
  (b.last = -1 ∧ l = []) ∨
  (b.last ≠ -1 ∧ ∃ p e q, b.dev = p ++ e :: q ∧ signExtend w e = -1 ∧ (∀ u ∈ p, signExtend w u ≠ 0 ∧ signExtend w u ≠ -1) ∧
    l = (if b.last = 0 then [] else [b.last]) ++ p.map (signExtend w))

theorem cutView (w : Nat) : View (cacheSBuf (adapterRead w)) (CutAt w) where
  calm := fun _ => rfl
  nil {b} h := by
    obtain ⟨dev, last⟩ := b
    rcases h with ⟨h1, _⟩ | ⟨_, p, e, q, h1, h2, h3, h4⟩
    · simp only at h1; subst h1
      simp [cacheSBuf, CacheBuf.underflow]
    · simp only at h1 h4
      by_cases hz : last = 0
      · subst hz
        simp only [if_true, List.nil_append] at h4
        have : p = [] := by simpa using h4.symm
        subst this h1
        simp [cacheSBuf, CacheBuf.underflow, adapterRead, h2]
      · simp [hz] at h4
  cons {b u us} h := by
    obtain ⟨dev, last⟩ := b
    rcases h with ⟨_, h1⟩ | ⟨h0, p, e, q, h1, h2, h3, h4⟩
    · simp at h1
    · simp only at h0 h1 h4
      subst h1
      by_cases hz : last = 0
      · subst hz
        simp only [if_true, List.nil_append] at h4
        cases p with
        | nil => simp at h4
        | cons v vs =>
          simp only [List.map_cons, List.cons.injEq] at h4
          obtain ⟨rfl, rfl⟩ := h4
          obtain ⟨hv0, hv1⟩ := h3 v (by simp)
          have hvs : ∀ x ∈ vs, signExtend w x ≠ 0 ∧ signExtend w x ≠ -1 := fun x hx => h3 x (by simp [hx])
          have e : CacheBuf.underflow (adapterRead w) ⟨v :: vs ++ e :: q, 0⟩ = (signExtend w v, ⟨vs ++ e :: q, signExtend w v⟩) := by
            simp [CacheBuf.underflow, adapterRead]
          simp only [cacheSBuf, e]
          refine ⟨hv1, trivial, Or.inr ⟨hv1, vs, _, q, rfl, h2, hvs, ?_⟩, trivial, Or.inr ⟨by simp, vs, _, q, rfl, h2, hvs, ?_⟩⟩
          · simp [hv0]
          · simp
      · rw [if_neg hz] at h4
        simp only [List.cons_append, List.nil_append, List.cons.injEq] at h4
        obtain ⟨rfl, rfl⟩ := h4
        have e' : CacheBuf.underflow (adapterRead w) ⟨p ++ e :: q, u⟩ = (u, ⟨p ++ e :: q, u⟩) := by
          simp [CacheBuf.underflow, hz]
        simp only [cacheSBuf, e']
        refine ⟨h0, trivial, Or.inr ⟨h0, p, e, q, rfl, h2, h3, ?_⟩, trivial, Or.inr ⟨by simp, p, e, q, rfl, h2, h3, ?_⟩⟩
        · simp [hz]
        · simp

/-- Parsing from any buffer that holds a text. -/
theorem parseFrom_view (V : View B R) (hA : A.Usual) {b : σ} {l : List Int} (hb : R b l) (h : Option Handler) (c : Value F)
    {n m : Nat} (hn : 2 * (items (A.se.step A.sw) l).length + 2 ≤ n)
    (hm : 2 * (items (A.se.step A.sw) l).length + 2 ≤ m) :
    parseFrom A B m h c b = parseItems A n h c (items (A.se.step A.sw) l) := by
  have h1 := parseItems_nofuel hA h c (Nat.le_refl (2 * (items (A.se.step A.sw) l).length + 2))
  rw [parseFrom_items V hb hm h c h1, ← parseItems_mono hn h c h1]

end Configor
