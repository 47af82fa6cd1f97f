import Verif.Proofs.ObjSim
/-! # Parsing with any object type is parsing the tree and then inserting the members -/
namespace Configor
open Lexer Spec

variable {S F : Type} (C : Cfg S F)

/-- All members are kept, in order. -/
def allMembers : Emplace F := fun k v ms => ms ++ [(k, v)]

/-- What an object makes of members that are inserted one after the other. -/
def keepOf (ins : Emplace F) (ms : MemberList F) : MemberList F := ms.foldl (fun r m => ins m.1 m.2 r) []

theorem keepOf_snoc (ins : Emplace F) (ms : MemberList F) (k : List Nat) (v : Value F) :
    keepOf ins (ms ++ [(k, v)]) = ins k v (keepOf ins ms) := by
  simp [keepOf, List.foldl_append]

theorem arrangedElems_append (keep : MemberList F → MemberList F) (xs ys : List (Value F)) :
    arrangedElems keep (xs ++ ys) = arrangedElems keep xs ++ arrangedElems keep ys := by
  induction xs with
  | nil => rfl
  | cons x xs ih => simp only [List.cons_append, arrangedElems, ih]

theorem arrangedMembers_append (keep : MemberList F → MemberList F) (xs ys : MemberList F) :
    arrangedMembers keep (xs ++ ys) = arrangedMembers keep xs ++ arrangedMembers keep ys := by
  induction xs with
  | nil => rfl
  | cons x xs ih => obtain ⟨k, v⟩ := x; simp only [List.cons_append, arrangedMembers, ih]

/-- The same end in the same state, with the arranged value. -/
def Arr (keep : MemberList F → MemberList F) (r q : PRes S F) : Prop :=
  r = (q.1, q.2.1, arranged keep q.2.2)

theorem scanned (t : Except Stop Token × Lex S F) : (∃ e s, t = (.error e, s)) ∨ ∃ a s, t = (.ok a, s) := by
  rcases t with ⟨e | a, s⟩
  · exact Or.inl ⟨e, s, rfl⟩
  · exact Or.inr ⟨a, s, rfl⟩

theorem scanned' (t : Except Stop Unit × Lex S F) : (∃ e s, t = (.error e, s)) ∨ ∃ a s, t = (.ok a, s) := by
  rcases t with ⟨e | a, s⟩
  · exact Or.inl ⟨e, s, rfl⟩
  · exact Or.inr ⟨a, s, rfl⟩

theorem parser_arranged (ins : Emplace F) (n : Nat) :
    (∀ c c' tok s, (doParseO C ins n c tok s).1 = (doParseO C allMembers n c' tok s).1 ∧
      (doParseO C ins n c tok s).2.1 = (doParseO C allMembers n c' tok s).2.1 ∧
      ((doParseO C ins n c tok s).2.2 = arranged (keepOf ins) (doParseO C allMembers n c' tok s).2.2 ∨
        ((doParseO C ins n c tok s).1 ≠ .ok () ∧ (doParseO C ins n c tok s).2.2 = c ∧ (doParseO C allMembers n c' tok s).2.2 = c'))) ∧
    (∀ xs s, Arr (keepOf ins) (parseArrayO C ins n (arrangedElems (keepOf ins) xs) s) (parseArrayO C allMembers n xs s)) ∧
    (∀ ms s, Arr (keepOf ins) (parseObjectO C ins n (keepOf ins (arrangedMembers (keepOf ins) ms)) s) (parseObjectO C allMembers n ms s)) := by
  induction n with
  | zero =>
    refine ⟨fun c c' tok s => ?_, fun xs s => ?_, fun ms s => ?_⟩
    · simp [doParseO]
    · simp [Arr, parseArrayO, arranged]
    · simp [Arr, parseObjectO, arranged]
  | succ n ih =>
    obtain ⟨ih1, ih2, ih3⟩ := ih
    have nul : ∀ tok s, Arr (keepOf ins) (doParseO C ins n .null tok s) (doParseO C allMembers n .null tok s) := by
      intro tok s
      obtain ⟨h1, h2, h3⟩ := ih1 .null .null tok s
      refine Prod.ext h1 (Prod.ext h2 ?_)
      rcases h3 with h3 | ⟨_, h3, h4⟩
      · exact h3
      · simp only [h4]
        exact h3
    refine ⟨fun c c' tok s => ?_, fun xs s => ?_, fun ms s => ?_⟩
    · have step : ∀ tk s, (doParseO C ins (n + 1) c (some tk) s).1 = (doParseO C allMembers (n + 1) c' (some tk) s).1 ∧
          (doParseO C ins (n + 1) c (some tk) s).2.1 = (doParseO C allMembers (n + 1) c' (some tk) s).2.1 ∧
          ((doParseO C ins (n + 1) c (some tk) s).2.2 = arranged (keepOf ins) (doParseO C allMembers (n + 1) c' (some tk) s).2.2 ∨
            ((doParseO C ins (n + 1) c (some tk) s).1 ≠ .ok () ∧ (doParseO C ins (n + 1) c (some tk) s).2.2 = c ∧
              (doParseO C allMembers (n + 1) c' (some tk) s).2.2 = c')) := by
        intro tk s
        unfold doParseO
        cases tk <;> simp only [arranged]
        case beginArray =>
          have := ih2 [] s
          unfold Arr at this
          rw [show arrangedElems (keepOf ins) ([] : List (Value F)) = [] from rfl] at this
          rw [this]
          exact ⟨rfl, rfl, Or.inl rfl⟩
        case beginObject =>
          have := ih3 [] s
          unfold Arr at this
          rw [show keepOf ins (arrangedMembers (keepOf ins) ([] : MemberList F)) = [] from rfl] at this
          rw [this]
          exact ⟨rfl, rfl, Or.inl rfl⟩
        all_goals simp
      cases tok with
      | some tk => exact step tk s
      | none =>
        rw [doParseO_none, doParseO_none]
        rcases scanned (scan C s) with ⟨e, s', hs⟩ | ⟨a, s', hs⟩
        · rw [hs]; exact ⟨rfl, rfl, Or.inr ⟨by simp, rfl, rfl⟩⟩
        · rw [hs]; exact step a s'
    · unfold Arr parseArrayO
      rcases scanned (scan C s) with ⟨e, s', hs⟩ | ⟨a, s', hs⟩
      · rw [hs]; rfl
      · rw [hs]; simp only
        split
        · have := nul (some a) s'
          unfold Arr at this
          rw [this]
          rcases doParseO C allMembers n .null (some a) s' with ⟨e | _, s2, v⟩
          · simp [arranged, arrangedElems_append, arrangedElems]
          · simp only
            rcases scanned (scan C s2) with ⟨e, s3, hs⟩ | ⟨a, s3, hs⟩
            · rw [hs]; simp [arranged, arrangedElems_append, arrangedElems]
            · rw [hs]; simp only
              split
              · have := ih2 (xs ++ [v]) s3
                unfold Arr at this
                rw [arrangedElems_append] at this
                simp only [arrangedElems] at this
                rw [this]
              · split <;> simp [arranged, arrangedElems_append, arrangedElems]
        · split <;> simp [arranged]
    · unfold Arr parseObjectO
      rcases scanned (scan C s) with ⟨e, s', hs⟩ | ⟨a, s', hs⟩
      · rw [hs]; rfl
      · rw [hs]; simp only
        split
        · rcases scanned' (scanString C s') with ⟨e, s2, hs⟩ | ⟨_, s2, hs⟩
          · rw [hs]; rfl
          · rw [hs]; simp only
            rcases scanned (scan C s2) with ⟨e, s3, hs⟩ | ⟨a, s3, hs⟩
            · rw [hs]; rfl
            · rw [hs]; simp only
              split
              · have := nul none s3
                unfold Arr at this
                rw [this]
                rcases doParseO C allMembers n .null none s3 with ⟨e | _, s4, v⟩
                · rfl
                · simp only
                  have hk : ins s2.out.out (arranged (keepOf ins) v) (keepOf ins (arrangedMembers (keepOf ins) ms)) =
                      keepOf ins (arrangedMembers (keepOf ins) (allMembers s2.out.out v ms)) := by
                    rw [allMembers, arrangedMembers_append]
                    exact (keepOf_snoc ins _ _ _).symm
                  rw [hk]
                  rcases scanned (scan C s4) with ⟨e, s5, hs⟩ | ⟨a, s5, hs⟩
                  · rw [hs]; rfl
                  · rw [hs]; simp only
                    split
                    · exact ih3 _ s5
                    · split <;> rfl
              · split <;> rfl
        · split <;> rfl

theorem parser_map (n : Nat) :
    (∀ c tok s, doParseO C Map.emplace n c tok s = doParse C n c tok s) ∧
    (∀ xs s, parseArrayO C Map.emplace n xs s = parseArray C n xs s) ∧
    (∀ ms s, parseObjectO C Map.emplace n ms s = parseObject C n ms s) := by
  induction n with
  | zero => exact ⟨fun _ _ _ => by rw [doParseO, doParse], fun _ _ => by rw [parseArrayO, parseArray], fun _ _ => by rw [parseObjectO, parseObject]⟩
  | succ n ih =>
    obtain ⟨ih1, ih2, ih3⟩ := ih
    refine ⟨fun c tok s => ?_, fun xs s => ?_, fun ms s => ?_⟩
    · have step : ∀ tk s, doParseO C Map.emplace (n + 1) c (some tk) s = doParse C (n + 1) c (some tk) s := by
        intro tk s
        unfold doParseO doParse
        cases tk <;> simp only [ih2, ih3]
      cases tok with
      | some tk => exact step tk s
      | none =>
        rw [doParseO_none, doParse_none]
        rcases scanned (scan C s) with ⟨e, s', hs⟩ | ⟨a, s', hs⟩
        · rw [hs]
        · rw [hs]; exact step a s'
    · rw [parseArrayO, parseArray]; simp only [ih1, ih2]; rfl
    · rw [parseObjectO, parseObject]; simp only [ih1, ih3]; rfl

end Configor
