import Verif.Model.ObjectType
import Verif.Spec.ObjectType
import Verif.Proofs.Sim
/-! # Parsing with any object type: independence of the source, and of the order of members -/
namespace Configor
open Lexer Spec

variable {S T F : Type}

section
variable (ins : Emplace F)

theorem doParseO_none (C : Cfg S F) (n : Nat) (c : Value F) (s : Lex S F) :
    doParseO C ins (n + 1) c none s = match Lexer.scan C s with
      | (.error e, s) => (.error e, s, c)
      | (.ok t, s) => doParseO C ins (n + 1) c (some t) s := by
  rw [doParseO]
  simp only
  rcases hs : Lexer.scan C s with ⟨_ | t, s'⟩
  · rfl
  · simp only
    cases t <;> rw [doParseO] <;> simp


variable {C : Cfg S F} {D : Cfg T F} {R : Nat → S → T → Prop} {E : Prop}

theorem parser_simO (H : ParserSim C D R E) (n : Nat) : ∀ m, n ≤ m →
    (∀ c tok s t, LexSim R s t → PSim R E (doParseO C ins n c tok s) (doParseO D ins m c tok t)) ∧
    (∀ xs s t, LexSim R s t → PSim R E (parseArrayO C ins n xs s) (parseArrayO D ins m xs t)) ∧
    (∀ ms s t, LexSim R s t → PSim R E (parseObjectO C ins n ms s) (parseObjectO D ins m ms t)) := by
  induction n with
  | zero =>
    intro m _
    refine ⟨fun _ _ _ _ _ => Or.inl ?_, fun _ _ _ _ => Or.inl ?_, fun _ _ _ _ => Or.inl ?_⟩
    · simp [doParseO]
    · simp [parseArrayO]
    · simp [parseObjectO]
  | succ n ih =>
    intro m hm
    obtain ⟨m, rfl⟩ : ∃ k, m = k + 1 := ⟨m - 1, by omega⟩
    obtain ⟨ih1, ih2, ih3⟩ := ih m (by omega)
    refine ⟨?_, ?_, ?_⟩
    · intro c tok s t h
      have step : ∀ tk s t, LexSim R s t →
          PSim R E (doParseO C ins (n + 1) c (some tk) s) (doParseO D ins (m + 1) c (some tk) t) := by
        intro tk s t h
        have hi : getInteger s = getInteger t := by
          unfold getInteger; rw [h.2.2.1, h.2.2.2.1]
        have hfl : getFloat C s = getFloat D t := by
          unfold getFloat; rw [h.2.2.1, h.2.2.2.2.1, H.fo]
        unfold doParseO
        cases tk <;> simp only
        case literalTrue => exact PSim.ok h
        case literalFalse => exact PSim.ok h
        case literalNull => exact PSim.ok h
        case valueInteger => rw [hi]; exact PSim.ok h
        case valueFloat => rw [hfl]; exact PSim.ok h
        case beginArray => exact ih2 [] s t h
        case beginObject => exact ih3 [] s t h
        case valueString =>
          have := H.string s t h
          rcases this with h1 | ⟨hE, h1⟩ | ⟨h1, h2, h3⟩
          · exact Or.inl h1
          · exact Or.inr (Or.inl ⟨hE, h1⟩)
          · exact Or.inr (Or.inr ⟨h1, by rw [h2.2.2.2], h2, fun hok => h3 ⟨_, hok⟩⟩)
        all_goals exact PSim.error h.2.2
      cases tok with
      | some tk => exact step tk s t h
      | none =>
        rw [doParseO_none, doParseO_none]
        refine (H.scan s t h).elim ?_ ?_ ?_ ?_
        · intro s' hr; rw [hr]; exact Or.inl rfl
        · intro hE t' hq; rw [hq]; exact Or.inr (Or.inl ⟨hE, rfl⟩)
        · intro e s' t' hr hq hd; rw [hr, hq]; exact PSim.error hd
        · intro a s' t' hr hq hl; rw [hr, hq]; exact step a s' t' hl
    · intro xs s t h
      unfold parseArrayO
      refine (H.scan s t h).elim ?_ ?_ ?_ ?_
      · intro s' hr; rw [hr]; exact Or.inl rfl
      · intro hE t' hq; rw [hq]; exact Or.inr (Or.inl ⟨hE, rfl⟩)
      · intro e s' t' hr hq hd; rw [hr, hq]; exact PSim.error hd
      · intro a s' t' hr hq hl; rw [hr, hq]; simp only
        split
        · refine (ih1 .null (some a) s' t' hl).elim ?_ ?_ ?_ ?_
          · intro s' v hr; rw [hr]; exact Or.inl rfl
          · intro hE t' v hq; rw [hq]; exact Or.inr (Or.inl ⟨hE, rfl⟩)
          · intro e s' t' v hr hq hd; rw [hr, hq]; exact PSim.error hd
          · intro s' t' v hr hq hl; rw [hr, hq]; simp only
            refine (H.scan s' t' hl).elim ?_ ?_ ?_ ?_
            · intro s' hr; rw [hr]; exact Or.inl rfl
            · intro hE t' hq; rw [hq]; exact Or.inr (Or.inl ⟨hE, rfl⟩)
            · intro e s' t' hr hq hd; rw [hr, hq]; exact PSim.error hd
            · intro a s' t' hr hq hl; rw [hr, hq]; simp only
              split
              · exact ih2 _ s' t' hl
              · split
                · exact PSim.ok hl
                · exact PSim.error hl.2.2
        · split
          · exact PSim.ok hl
          · exact PSim.error hl.2.2
    · intro ms s t h
      unfold parseObjectO
      refine (H.scan s t h).elim ?_ ?_ ?_ ?_
      · intro s' hr; rw [hr]; exact Or.inl rfl
      · intro hE t' hq; rw [hq]; exact Or.inr (Or.inl ⟨hE, rfl⟩)
      · intro e s' t' hr hq hd; rw [hr, hq]; exact PSim.error hd
      · intro a s' t' hr hq hl; rw [hr, hq]; simp only
        split
        · refine (H.string s' t' hl).elim ?_ ?_ ?_ ?_
          · intro s' hr; rw [hr]; exact Or.inl rfl
          · intro hE t' hq; rw [hq]; exact Or.inr (Or.inl ⟨hE, rfl⟩)
          · intro e s' t' hr hq hd; rw [hr, hq]; exact PSim.error hd
          · intro _ s' t' hr hq hl; rw [hr, hq]; simp only
            have hout : s'.out = t'.out := hl.2.2.2.2.2
            rw [hout]
            refine (H.scan s' t' hl).elim ?_ ?_ ?_ ?_
            · intro s' hr; rw [hr]; exact Or.inl rfl
            · intro hE t' hq; rw [hq]; exact Or.inr (Or.inl ⟨hE, rfl⟩)
            · intro e s' t' hr hq hd; rw [hr, hq]; exact PSim.error hd
            · intro a s'' t'' hr hq hl; rw [hr, hq]; simp only
              split
              · refine (ih1 .null none s'' t'' hl).elim ?_ ?_ ?_ ?_
                · intro s' v hr; rw [hr]; exact Or.inl rfl
                · intro hE t' v hq; rw [hq]; exact Or.inr (Or.inl ⟨hE, rfl⟩)
                · intro e s' t' v hr hq hd; rw [hr, hq]; exact PSim.error hd
                · intro s' t' v hr hq hl; rw [hr, hq]; simp only
                  refine (H.scan s' t' hl).elim ?_ ?_ ?_ ?_
                  · intro s' hr; rw [hr]; exact Or.inl rfl
                  · intro hE t' hq; rw [hq]; exact Or.inr (Or.inl ⟨hE, rfl⟩)
                  · intro e s' t' hr hq hd; rw [hr, hq]; exact PSim.error hd
                  · intro a s' t' hr hq hl; rw [hr, hq]; simp only
                    split
                    · exact ih3 _ s' t' hl
                    · split
                      · exact PSim.ok hl
                      · exact PSim.error hl.2.2
              · split
                · exact PSim.ok hl
                · exact PSim.error hl.2.2
        · split
          · exact PSim.ok hl
          · exact PSim.error hl.2.2

theorem parseBody_simO (H : ParserSim C D R E) {n m : Nat} (hnm : n ≤ m) (c : Value F) {s : Lex S F}
    {t : Lex T F} (h : LexSim R s t) : PSim R E (parseBodyO C ins n c s) (parseBodyO D ins m c t) := by
  unfold parseBodyO
  refine ((parser_simO ins H n m hnm).1 c none s t h).elim ?_ ?_ ?_ ?_
  · intro s v hr; rw [hr]; exact Or.inl rfl
  · intro hE t' v hq; rw [hq]; exact Or.inr (Or.inl ⟨hE, rfl⟩)
  · intro e s t v hr hq hd; rw [hr, hq]; exact PSim.error hd
  · intro s' t' v hr hq hl; rw [hr, hq]; simp only
    refine (H.scan s' t' hl).elim ?_ ?_ ?_ ?_
    · intro s' hr; rw [hr]; exact Or.inl rfl
    · intro hE t' hq; rw [hq]; exact Or.inr (Or.inl ⟨hE, rfl⟩)
    · intro e s' t' hr hq hd; rw [hr, hq]; exact PSim.error hd
    · intro a s' t' hr hq hl; rw [hr, hq]; simp only
      split
      · exact PSim.ok hl
      · exact PSim.error hl.2.2

theorem parse_simO {R : S → T → Prop} (H : CfgSim C D R) {n m : Nat} (hnm : n ≤ m) (h : Option Handler) (c : Value F)
    {s : Lex S F} {t : Lex T F} (hs : LexSim (fun _ => R) s t)
    (hfuel : (parseO C ins n h c s).1 ≠ .error .fuel) :
    SameParse (parseO C ins n h c s) (parseO D ins m h c t) := by
  have H' : EofSim C D (fun _ => R) False := H.eofSim
  unfold parseO at hfuel ⊢
  have := Sim.readNext H'.toNextSim s t hs
  revert hfuel
  refine this.elim ?_ ?_ ?_ ?_
  · intro s' hr; rw [hr]; simp
  · intro hE; exact hE.elim
  · intro e s' t' hr hq hd; rw [hr, hq]; intro _; exact ⟨rfl, rfl⟩
  · intro a s' t' hr hq hl; rw [hr, hq]; simp only
    intro hfuel
    have hp := parseBody_simO ins H'.parserSim hnm c hl
    revert hfuel
    refine hp.elim ?_ ?_ ?_ ?_
    · intro s v hr hfuel; exact absurd (handled_fuel (by rw [hr])) hfuel
    · intro hE; exact hE.elim
    · intro e s t v hr hq hd _
      rw [hr, hq]
      cases e <;> cases h <;> simp only [handled, SameParse] <;> try exact ⟨trivial, trivial⟩
      split <;> simp
    · intro s t v hr hq hl _
      rw [hr, hq]
      cases h <;> simp [handled, SameParse]

end

end Configor
