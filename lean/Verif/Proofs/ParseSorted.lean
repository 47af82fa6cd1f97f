import Verif.Proofs.ValueOps
import Verif.Model.Api
/-! # The parser leaves objects sorted, also when it fails -/
namespace Configor
open Spec Lexer

variable {S F : Type} (C : Cfg S F)

theorem push_sorted {xs : List (Value F)} {v : Value F} (h : KeysSorted (.arr xs)) (hv : KeysSorted v) : KeysSorted (.arr (xs ++ [v])) := by
  rw [sorted_arr] at *
  intro x hx
  rcases List.mem_append.1 hx with hx | hx
  · exact h x hx
  · rw [List.mem_singleton.1 hx]; exact hv

theorem atom_sorted {v : Value F} (h : v.type ≠ .arr ∧ v.type ≠ .obj := by constructor <;> simp [Value.type]) : KeysSorted v :=
  sorted_scalar h.1 h.2

mutual
theorem doParse_sorted : ∀ n (c : Value F) tok s, KeysSorted c → KeysSorted (doParse C n c tok s).2.2
  | 0, c, _, s, h => h
  | n + 1, c, tok, s, h => by
    unfold doParse
    split
    · exact h
    · split
      · exact atom_sorted
      · exact atom_sorted
      · exact atom_sorted
      · exact atom_sorted
      · exact atom_sorted
      · exact atom_sorted
      · exact parseArray_sorted n [] _ (sorted_arr.2 (by simp))
      · exact parseObject_sorted n [] _ (sorted_obj.2 (by simp [Sorted]))
      · exact h

theorem parseArray_sorted : ∀ n (xs : List (Value F)) s, KeysSorted (.arr xs) → KeysSorted (parseArray C n xs s).2.2
  | 0, _, _, h => h
  | n + 1, xs, s, h => by
    rw [parseArray]
    split
    · exact h
    · rename_i t s1 _
      split
      · have := doParse_sorted n .null (some t) s1 null_sorted
        split
        · rename_i e; rw [e] at this; exact push_sorted h this
        · rename_i e; rw [e] at this
          have hp := push_sorted h this
          split
          · exact hp
          · split
            · exact parseArray_sorted n _ _ hp
            · split <;> exact hp
      · split <;> exact h

theorem parseObject_sorted : ∀ n (ms : Map.T (Value F)) s, KeysSorted (.obj ms) → KeysSorted (parseObject C n ms s).2.2
  | 0, _, _, h => h
  | n + 1, ms, s, h => by
    rw [parseObject]
    split
    · exact h
    · split
      · split
        · exact h
        · dsimp only
          split
          · exact h
          · rename_i s3 _
            split
            · have := doParse_sorted n .null none s3 null_sorted
              split
              · exact h
              · rename_i e; rw [e] at this
                have hp := fun k => emplace_keysSorted h this k
                split
                · exact hp _
                · split
                  · exact parseObject_sorted n _ _ (hp _)
                  · split <;> exact hp _
            · split <;> exact h
      · split <;> exact h
end

theorem parse_sorted (n : Nat) (h : Option Handler) (c : Value F) (s : Lex S F) (hc : KeysSorted c) : KeysSorted (parse C n h c s).2.2 := by
  have hb : ∀ s, KeysSorted (parseBody C n c s).2.2 := by
    intro s
    have := doParse_sorted C n c none s hc
    unfold parseBody
    split
    · rename_i e; rw [e] at this; exact this
    · rename_i e; rw [e] at this
      split
      · exact this
      · split <;> exact this
  unfold parse
  split
  · exact hc
  · rename_i s1 _
    have := hb s1
    revert this
    generalize parseBody C n c s1 = r
    intro this
    unfold handled
    split
    · split <;> exact this
    · exact this

end Configor
