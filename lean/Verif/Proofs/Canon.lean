import Verif.Model.Api
import Verif.Proofs.Encoding
import Verif.Proofs.Sim
/-!
The canonical source: the list of code points a stream delivers.
-/
namespace Configor

/-- What the decoder still delivers; `none` stands for a malformed character. -/
structure CpS where
  rest : List (Option Nat)
  ended : Bool
  dead : Bool

/-- A source that delivers a list. -/
def canonSrc : Src CpS where
  decode s :=
    if s.ended then (false, 0, s)
    else match s.rest with
      | [] => (false, 0, ⟨[], true, s.dead⟩)
      | some c :: r => (true, c, ⟨r, false, s.dead⟩)
      | none :: r => (true, 0, ⟨r, false, true⟩)
  eof s := s.ended
  good s := !s.dead

/-- The code points of a sequence of units; `n` bounds their number. -/
def itemsN (step : Step) : Nat → List Int → List (Option Nat)
  | 0, _ => []
  | n + 1, l =>
    match step l with
    | none => []
    | some (some c, r) => some c :: itemsN step n r
    | some (none, _) => [none]

/-- The code points of a sequence of units. -/
def items (step : Step) (l : List Int) : List (Option Nat) := itemsN step l.length l

/-- Steps consume something. -/
def Shrinks (step : Step) : Prop := ∀ l c r, step l = some (some c, r) → r.length < l.length

theorem Enc.shrinks (e : Enc) (w : Nat) : Shrinks (e.step w) := by
  intro l c r h
  obtain ⟨k, h1, h2, h3⟩ := Enc.step_good h
  rw [h3, List.length_drop]; omega

theorem itemsN_eq {step : Step} (hs : Shrinks step) (hn : step [] = none) (n : Nat) (l : List Int)
    (h : l.length ≤ n) : itemsN step n l = items step l := by
  unfold items
  suffices ∀ m, l.length ≤ m → itemsN step n l = itemsN step m l from this _ (Nat.le_refl _)
  intro m hm
  induction n generalizing l m with
  | zero =>
    have : l = [] := List.length_eq_zero_iff.mp (by omega)
    subst this
    cases m <;> simp [itemsN, hn]
  | succ n ih =>
    cases m with
    | zero =>
      have : l = [] := List.length_eq_zero_iff.mp (by omega)
      subst this
      simp [itemsN, hn]
    | succ m =>
      simp only [itemsN]
      split
      · rfl
      · rename_i c r hst
        have := hs l c r hst
        rw [ih r (by omega) m (by omega)]
      · rfl

theorem items_length (step : Step) (l : List Int) : (items step l).length ≤ l.length := by
  have : ∀ n l, (itemsN step n l).length ≤ n := by
    intro n
    induction n with
    | zero => intro l; simp [itemsN]
    | succ n ih =>
      intro l
      simp only [itemsN]
      split
      · simp
      · rename_i c r _; have := ih r; simp; omega
      · simp
  exact this _ _

theorem items_cons {step : Step} (hs : Shrinks step) (hn : step [] = none) {l r : List Int} {c : Nat}
    (h : step l = some (some c, r)) : items step l = some c :: items step r := by
  have hlt := hs l c r h
  obtain ⟨m, hm⟩ : ∃ m, l.length = m + 1 := ⟨l.length - 1, by omega⟩
  have : items step l = itemsN step (m + 1) l := by unfold items; rw [hm]
  rw [this]
  simp only [itemsN, h]
  rw [itemsN_eq hs hn m r (by omega)]

theorem items_bad {step : Step} (hn : step [] = none) {l r : List Int}
    (h : step l = some (none, r)) : items step l = [none] := by
  have : l ≠ [] := by rintro rfl; rw [hn] at h; simp at h
  obtain ⟨m, hm⟩ : ∃ m, l.length = m + 1 :=
    ⟨l.length - 1, by have := List.length_pos_iff.mpr this; omega⟩
  have : items step l = itemsN step (m + 1) l := by unfold items; rw [hm]
  rw [this]
  simp [itemsN, h]

theorem items_nil {step : Step} (_hn : step [] = none) : items step [] = [] := by
  simp [items, itemsN]

/-- A stream that still delivers the code points of the canonical source. -/
def CanonRel {σ : Type} (R : σ → List Int → Prop) (step : Step) (s : IStream σ) (c : CpS) : Prop :=
  (s.eofb = true ∧ c.ended = true) ∨
  (s.eofb = false ∧ s.failb = false ∧ c.ended = false ∧ c.dead = false ∧
    ∃ l, R s.sb l ∧ c.rest = items step l)

theorem canon_src {σ : Type} {R : σ → List Int → Prop} {e : Enc} {w : Nat} {B : SBuf σ}
    (V : View B R) : SrcSim (istreamSrc e w B) canonSrc (CanonRel R (e.step w)) := by
  have F := e.follows w V
  have hs := e.shrinks w
  -- the three possible reads of a live stream
  have live : ∀ (s : IStream σ) (c : CpS), s.eofb = false → s.failb = false → c.ended = false →
      c.dead = false → (∃ l, R s.sb l ∧ c.rest = items (e.step w) l) →
      ((e.decode w B s).1 = false ∧ (e.decode w B s).2.2.eofb = true ∧
        (canonSrc.decode c).1 = false ∧ (canonSrc.decode c).2.2.ended = true) ∨
      ((e.decode w B s).1 = true ∧ (e.decode w B s).2.2.good = true ∧
        (canonSrc.decode c).1 = true ∧ (canonSrc.decode c).2.2.dead = false ∧
        (e.decode w B s).2.1 = (canonSrc.decode c).2.1 ∧
        CanonRel R (e.step w) (e.decode w B s).2.2 (canonSrc.decode c).2.2) ∨
      ((e.decode w B s).1 = true ∧ (e.decode w B s).2.2.good = false ∧
        (canonSrc.decode c).1 = true ∧ (canonSrc.decode c).2.2.dead = true) := by
    rintro ⟨sb, _, _⟩ ⟨rest, _, _⟩ h1 h2 h3 h4 ⟨l, hl, hr⟩
    simp only at h1 h2 h3 h4 hr hl
    subst h1 h2 h3 h4
    cases hst : e.step w l with
    | none =>
      left
      have : l = [] := by
        cases l with
        | nil => rfl
        | cons u us => exact absurd hst (F.stepcons u us)
      subst this
      rw [items_nil F.stepnil] at hr
      subst hr
      exact ⟨(F.nil hl).1, (F.nil hl).2, by simp [canonSrc], by simp [canonSrc]⟩
    | some p =>
      obtain ⟨o, r⟩ := p
      cases o with
      | some cp =>
        right; left
        rw [items_cons hs F.stepnil hst] at hr
        subst hr
        obtain ⟨s', hd, hr'⟩ := F.good hl hst
        rw [hd]
        exact ⟨rfl, rfl, by simp [canonSrc], by simp [canonSrc], by simp [canonSrc],
          Or.inr ⟨rfl, rfl, by simp [canonSrc], by simp [canonSrc], r, hr', by simp [canonSrc]⟩⟩
      | none =>
        right; right
        rw [items_bad F.stepnil hst] at hr
        subst hr
        exact ⟨(F.bad hl hst).1, (F.bad hl hst).2, by simp [canonSrc], by simp [canonSrc]⟩
  refine ⟨?_, ?_, ?_, ?_, ?_⟩
  · intro s c h
    rcases h with ⟨h1, h2⟩ | ⟨h1, _, h2, _⟩
    · simp [istreamSrc, canonSrc, h1, h2]
    · simp [istreamSrc, canonSrc, h1, h2]
  · intro s c h
    rcases h with ⟨h1, h2⟩ | ⟨h1, h2, h3, h4, h5⟩
    · have := F.eof h1
      simp [istreamSrc, canonSrc, this.1, h2]
    · rcases live s c h1 h2 h3 h4 h5 with h | h | h
      · exact h.1.trans h.2.2.1.symm
      · exact h.1.trans h.2.2.1.symm
      · exact h.1.trans h.2.2.1.symm
  · intro s c h hd
    rcases h with ⟨h1, h2⟩ | ⟨h1, h2, h3, h4, h5⟩
    · have := F.eof h1
      exact absurd (this.1.symm.trans hd) (by simp)
    · rcases live s c h1 h2 h3 h4 h5 with h | h | h
      · exact absurd (h.1.symm.trans hd) (by simp)
      · exact h.2.1.trans (by simp [canonSrc] at h ⊢; simp [h.2.2.2.1])
      · exact h.2.1.trans (by simp [canonSrc] at h ⊢; simp [h.2.2.2])
  · intro s c h hd hg
    rcases h with ⟨h1, h2⟩ | ⟨h1, h2, h3, h4, h5⟩
    · have := F.eof h1
      exact absurd (this.1.symm.trans hd) (by simp)
    · rcases live s c h1 h2 h3 h4 h5 with h | h | h
      · exact absurd (h.1.symm.trans hd) (by simp)
      · exact ⟨h.2.2.2.2.1, h.2.2.2.2.2⟩
      · exact absurd (h.2.1.symm.trans hg) (by simp)
  · intro s c h hd
    rcases h with ⟨h1, h2⟩ | ⟨h1, h2, h3, h4, h5⟩
    · have := F.eof h1
      exact Or.inl ⟨this.2, by simp [canonSrc, h2]⟩
    · rcases live s c h1 h2 h3 h4 h5 with h | h | h
      · exact Or.inl ⟨h.2.1, h.2.2.2⟩
      · exact absurd (h.1.symm.trans hd) (by simp)
      · exact absurd (h.1.symm.trans hd) (by simp)

/-- The scanner configuration on the canonical source. -/
def ParseArgs.canon {F : Type} (A : ParseArgs F) (n : Nat) : Cfg CpS F where
  src := canonSrc
  enc := A.te.encode A.tw
  w := A.sw
  debug := A.debug
  bound := n
  fo := A.fo

/-- Parsing the code points `l`. -/
def parseItems {F : Type} (A : ParseArgs F) (n : Nat) (h : Option Handler) (c : Value F)
    (l : List (Option Nat)) : Outcome F :=
  let r := parse (A.canon n) n h c (Lex.init ⟨l, false, false⟩ (A.fo.ofInt 0))
  (r.1, r.2.2)

/-- The inverse of `SrcSim`. -/
theorem SrcSim.symm {S T : Type} {A : Src S} {B : Src T} {R : S → T → Prop} (H : SrcSim A B R) :
    SrcSim B A (fun b a => R a b) where
  eof h := (H.eof h).symm
  flag h := (H.flag h).symm
  good h hf := (H.good h ((H.flag h).trans hf)).symm
  cp {b a} h hf hg := by
    have hf' := (H.flag h).trans hf
    have := H.cp h hf' ((H.good h hf').trans hg)
    exact ⟨this.1.symm, this.2⟩
  fin h hf := H.fin h ((H.flag h).trans hf)

variable {F σ : Type} {A : ParseArgs F} {B : SBuf σ} {R : σ → List Int → Prop}

/-- Parsing a stream is parsing the code points it delivers, if the loop bound of the latter
is not used up. -/
theorem parseFrom_items (V : View B R) {b : σ} {l : List Int} (hb : R b l) {n m : Nat} (hnm : n ≤ m)
    (h : Option Handler) (c : Value F)
    (hf : (parseItems A n h c (items (A.se.step A.sw) l)).1 ≠ .error .fuel) :
    parseFrom A B m h c b = parseItems A n h c (items (A.se.step A.sw) l) := by
  have H : CfgSim (A.canon n) (A.cfg B m) (fun c s => CanonRel R (A.se.step A.sw) s c) :=
    ⟨(canon_src V).symm, rfl, rfl, rfl, rfl, hnm⟩
  have := parse_sim H hnm h c (s := Lex.init ⟨items (A.se.step A.sw) l, false, false⟩ (A.fo.ofInt 0))
    (t := Lex.init (.ofBuf b) (A.fo.ofInt 0))
    ⟨Or.inr ⟨rfl, rfl, rfl, rfl, l, hb, rfl⟩, rfl, rfl, rfl, rfl, rfl⟩ hf
  unfold parseFrom parseItems
  simp only [Prod.mk.injEq]
  exact ⟨this.1.symm, this.2.symm⟩

/-- More iterations do not change the result. -/
theorem parseItems_mono {l : List (Option Nat)} {n m : Nat} (hnm : n ≤ m)
    (h : Option Handler) (c : Value F) (hf : (parseItems A n h c l).1 ≠ .error .fuel) :
    parseItems A m h c l = parseItems A n h c l := by
  have H : CfgSim (A.canon n) (A.canon m) Eq :=
    ⟨⟨fun h => by rw [h]; rfl, fun h => by rw [h]; rfl, fun h _ => by rw [h]; rfl,
      fun h _ _ => by rw [h]; exact ⟨rfl, rfl⟩, fun h _ => by rw [h]; rfl⟩, rfl, rfl, rfl, rfl, hnm⟩
  have := parse_sim H hnm h c (s := Lex.init ⟨l, false, false⟩ (A.fo.ofInt 0))
    (t := Lex.init ⟨l, false, false⟩ (A.fo.ofInt 0)) ⟨rfl, rfl, rfl, rfl, rfl, rfl⟩ hf
  unfold parseItems
  simp only [Prod.mk.injEq]
  exact ⟨this.1.symm, this.2.symm⟩

/-- The characters a string buffer delivers: up to a character equal to `eof`. -/
def unitsOf (w : Nat) (str : List Nat) : List Int := (str.map (toIntType w)).takeWhile (· ≠ -1)

theorem unitsOf_length (w : Nat) (str : List Nat) : (unitsOf w str).length ≤ str.length := by
  have := (List.takeWhile_sublist (fun x : Int => decide (x ≠ -1)) (l := str.map (toIntType w))).length_le
  simpa [unitsOf] using this

/-- The code points of a string. -/
def itemsOf (e : Enc) (w : Nat) (str : List Nat) : List (Option Nat) := items (e.step w) (unitsOf w str)

theorem itemsOf_length (e : Enc) (w : Nat) (str : List Nat) : (itemsOf e w str).length ≤ str.length :=
  Nat.le_trans (items_length _ _) (unitsOf_length w str)

/-- Parsing a string is parsing its code points. -/
theorem parseString_items {str : List Nat} {n m : Nat} (hnm : n ≤ m) (h : Option Handler) (c : Value F)
    (hf : (parseItems A n h c (itemsOf A.se A.sw str)).1 ≠ .error .fuel) :
    parseFrom A (strSBuf A.sw) m h c (.ofString str) = parseItems A n h c (itemsOf A.se A.sw str) := by
  refine parseFrom_items (strView A.sw) ?_ hnm h c hf
  refine ⟨?_, (str.map (toIntType A.sw)).dropWhile (· ≠ -1), ?_, ?_⟩
  · unfold unitsOf
    rw [List.all_takeWhile]
  · simp [StrBuf.ofString, unitsOf, List.takeWhile_append_dropWhile]
  · cases hd : (str.map (toIntType A.sw)).dropWhile (· ≠ -1) with
    | nil => exact Or.inl rfl
    | cons a as =>
      right
      have := List.head_dropWhile_not (fun x : Int => decide (x ≠ -1)) (l := str.map (toIntType A.sw)) (by rw [hd]; simp)
      simp only [hd, List.head_cons] at this
      simpa using this

end Configor
