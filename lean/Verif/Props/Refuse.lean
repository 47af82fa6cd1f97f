import Verif.Proofs.Refuse
import Verif.Props.ConvertMessage
import Verif.Proofs.Compare
/-!
# What the messages of refused calls say: C135

`c.said a v` is how the call `c` on the value `v` (at address `a`) or on an iterator of it ends, with the message of the exception, and
`Refused v c e m` says when it should be refused, and with which message.
-/
set_option autoImplicit false
namespace Configor.Props
open Spec ValueOps

variable {F : Type}

theorem seq_hush (r : Except Stop Unit) (s : Except Said Unit) (h : r = s.mapError Prod.fst) (f : Except Stop Unit) (g : Except Said Unit)
    (hf : s = .ok () → f = g.mapError Prod.fst) : (do r; f) = (do s; g : Except Said Unit).mapError Prod.fst := by
  cases s with
  | error e => subst h; rfl
  | ok u => subst h; exact hf rfl

theorem map_bind_unit {α : Type} (r : Except Stop Unit) (f : Except Stop α) : (do r; f : Except Stop α).map (fun _ => ()) = (do r; f.map fun _ => ()) := by
  cases r <;> rfl

/-- C135. The messages belong to the exceptions of the calls of C25 to C40: a call ends in the same way with its message and
without. -/
theorem C135_follows (a : Nat) (v : Value F) (c : Call F) : c.ends a v = (c.said a v).mapError Prod.fst := by
  have pass : ∀ (it : Iter), it.dataSaid = .ok () → it.checkData = .ok () := fun it h => by rw [dataSaid_hush, h]; rfl
  cases c with
  | eraseKey k => cases v <;> rfl
  | eraseIndex i =>
    cases v <;> try rfl
    simp only [Call.ends, Call.said, Value.type, if_true]
    rw [← quietly_hush]
    cases (ValueOps.eraseIndex i _).1 <;> rfl
  | eraseIter p => cases v <;> first | rfl | exact quietly_hush _
  | eraseRange p q => cases v <;> first | rfl | exact quietly_hush _
  | pushBack x => cases v <;> rfl
  | index i =>
    simp only [Call.ends, Call.said]
    cases v <;> first
      | rfl
      | (simp only [Value.type, or_true, true_or, if_true]; cases (withIndex i ValueOps.read _).1 <;> rfl)
  | key k => cases v <;> first | rfl | exact quietly_hush _
  | name k => cases v <;> first | rfl | exact quietly_hush _
  | atIndex i =>
    cases v <;> try rfl
    rename_i xs
    simp only [Call.ends, Call.said, ValueOps.atIndex, Value.atIndexSaid]
    split
    · next h => rw [List.getElem?_eq_none h]; rfl
    · next h =>
      rw [List.getElem?_eq_getElem (by omega)]
      simp only [onElem, List.getElem?_eq_getElem (show i < xs.length by omega)]
      rfl
  | atKey k =>
    cases v <;> try rfl
    rename_i ms
    simp only [Call.ends, Call.said, ValueOps.atKey, Value.atKeySaid]
    cases h : Map.find k ms with
    | none => rfl
    | some x => simp only [Option.isNone_some, Bool.false_eq_true, if_false, onMember, h]; rfl
  | iterKey it =>
    simp only [Call.ends, Call.said]
    rw [key_hush]
    cases it.keySaid v <;> rfl
  | iterValue it =>
    simp only [Call.ends, Call.said]
    rw [deref_hush]
    cases it.derefSaid v <;> rfl
  | iterNext it =>
    simp only [Call.ends, Call.said]
    cases h : it.dataSaid with
    | error e =>
      have hd := dataSaid_hush it
      rw [h] at hd
      unfold Iter.incr Iter.step
      rw [hd]; rfl
    | ok u => exact quietly_hush _
  | iterBack it =>
    simp only [Call.ends, Call.said]
    cases h : it.dataSaid with
    | error e =>
      have hd := dataSaid_hush it
      rw [h] at hd
      unfold Iter.decr Iter.step
      rw [hd]; rfl
    | ok u => exact quietly_hush _
  | iterPlus off it =>
    simp only [Call.ends, Call.said]
    cases h : it.dataSaid with
    | error e =>
      have hd := dataSaid_hush it
      rw [h] at hd
      unfold Iter.plus
      rw [hd]; rfl
    | ok u =>
      by_cases hv : v.type = .obj
      · simp only [if_pos hv, bind, Except.bind]
        unfold Iter.plus
        rw [pass it h]
        cases v <;> first | rfl | cases hv
      · simp only [if_neg hv, bind, Except.bind]
        exact quietly_hush _
  | iterMinus off it =>
    simp only [Call.ends, Call.said, Iter.minus]
    split
    · cases h : it.dataSaid with
      | error e =>
        have hd := dataSaid_hush it
        rw [h] at hd
        unfold Iter.plus
        rw [hd]; rfl
      | ok u =>
        by_cases hv : v.type = .obj
        · simp only [if_pos hv, bind, Except.bind]
          unfold Iter.plus
          rw [pass it h]
          cases v <;> first | rfl | cases hv
        · simp only [if_neg hv, bind, Except.bind]
          exact quietly_hush _
    · rfl
  | iterDiff it jt =>
    simp only [Call.ends, Call.said]
    cases h : it.dataSaid with
    | error e =>
      have hd := dataSaid_hush it
      rw [h] at hd
      unfold Iter.diff
      rw [hd]; rfl
    | ok u =>
      cases h' : jt.dataSaid with
      | error e =>
        have hd := dataSaid_hush jt
        rw [h'] at hd
        unfold Iter.diff
        rw [pass it h, hd]; rfl
      | ok u =>
        simp only [bind, Except.bind]
        by_cases hn : it.target ≠ jt.target
        · rw [if_pos hn]
          unfold Iter.diff
          rw [pass it h, pass jt h']
          simp only [bind, Except.bind, if_pos hn]
          rfl
        · rw [if_neg hn]
          by_cases hv : v.type ≠ .arr
          · rw [if_pos hv]
            unfold Iter.diff
            rw [pass it h, pass jt h']
            simp only [bind, Except.bind, if_neg hn]
            cases v <;> first | rfl | exact absurd rfl hv
          · rw [if_neg hv]
            exact quietly_hush _
  | iterLess it jt =>
    simp only [Call.ends, Call.said]
    cases h : it.dataSaid with
    | error e =>
      have hd := dataSaid_hush it
      rw [h] at hd
      unfold Iter.lt
      rw [hd]; rfl
    | ok u =>
      cases h' : jt.dataSaid with
      | error e =>
        have hd := dataSaid_hush jt
        rw [h'] at hd
        unfold Iter.lt
        rw [pass it h, hd]; rfl
      | ok u =>
        simp only [bind, Except.bind]
        by_cases hn : it.target ≠ jt.target
        · rw [if_pos hn]
          unfold Iter.lt
          rw [pass it h, pass jt h']
          simp only [bind, Except.bind, if_pos hn]
          rfl
        · rw [if_neg hn]
          by_cases hv : v.type = .obj
          · rw [if_pos hv]
            unfold Iter.lt
            rw [pass it h, pass jt h']
            simp only [bind, Except.bind, if_neg hn]
            cases v <;> first | rfl | cases hv
          · rw [if_neg hv]
            exact quietly_hush _

/-- C135, partial. A call throws if, and only if, it has to be refused, with the exception and the message for the reason. What is
missing is that the message names the call: `C135_violated`. -/
theorem C135_message_partial (a : Nat) (v : Value F) (hv : KeysSorted v) (c : Call F) (e : Err) (m : List Nat) :
    c.said a v = .error (.exn e, m) ↔ Refused v c e m :=
  ⟨said_refused a hv, refused_said a hv⟩

/-- A call on a value of another kind, one for a missing element, and one on an iterator at the end. -/
example : KeysSorted (.arr [.int 1] : Value Unit) ∧
    Call.said 0 (.arr [.int 1] : Value Unit) (.eraseKey []) = .error (.exn .invalidKey, text! "invalid value key error: cannot use erase() with non-object value") ∧
    Call.said 0 (.arr [.int 1] : Value Unit) (.atIndex 1) = .error (.exn .outOfRange, text! "operator[] index out of range") ∧
    Call.said 0 (.arr [.int 1] : Value Unit) (.iterValue ⟨some 0, some 1, none, 0⟩) = .error (.exn .outOfRange, text! "array iterator out of range") :=
  ⟨sorted_arr.2 (by simp; exact sorted_scalar (by simp [Value.type]) (by simp [Value.type])), rfl, rfl, rfl⟩

theorem kindWord_cases (v : Value F) : kindWord v = text! "object" ∨ kindWord v = text! "array" ∨ kindWord v = text! "null" ∨ kindWord v = text! "primitive" := by
  cases v <;> simp [kindWord, Value.type]

/-- C135, partial. The reason can be read off the message: it speaks of a "non-array" only if the value is none, of a "non-object" only
if it is none, of an "object type" only if it is one, of "out of range" only with that exception, of an empty iterator only if there is one,
and of different values only if the iterators have different ones. -/
theorem C135_tells_partial (v : Value F) (c : Call F) (e : Err) (m : List Nat) (h : Refused v c e m) :
    (text! "non-array" <:+: m → v.type ≠ .arr) ∧ (text! "non-object" <:+: m → v.type ≠ .obj) ∧ (text! "with object type" <:+: m → v.type = .obj) ∧
    (text! "out of range" <:+: m ↔ e = .outOfRange) ∧ (text! "iterator is empty" <:+: m → ∃ it ∈ Call.iters c, it.target = none) ∧
    (text! "different value objects" <:+: m → ∃ it ∈ Call.iters c, ∃ jt ∈ Call.iters c, it.target ≠ jt.target) := by
  have diff : ∀ {it jt : Iter} {c : Call F}, Call.iters c = [it, jt] → it.target ≠ jt.target →
      ∃ i ∈ Call.iters c, ∃ j ∈ Call.iters c, i.target ≠ j.target := fun {it jt c} hc hn => ⟨it, by simp [hc], jt, by simp [hc], hn⟩
  cases h
  case pastKey h _ =>
    rcases kindWord_cases v with hw | hw | hw | hw <;> rw [hw] <;> exact ⟨fun h => absurd h (by decide +kernel), fun h => absurd h (by decide +kernel), fun h => absurd h (by decide +kernel),
      ⟨fun _ => rfl, fun _ => by decide +kernel⟩, fun h => absurd h (by decide +kernel), fun h => absurd h (by decide +kernel)⟩
  case pastValue h _ =>
    rcases kindWord_cases v with hw | hw | hw | hw <;> rw [hw] <;> exact ⟨fun h => absurd h (by decide +kernel), fun h => absurd h (by decide +kernel), fun h => absurd h (by decide +kernel),
      ⟨fun _ => rfl, fun _ => by decide +kernel⟩, fun h => absurd h (by decide +kernel), fun h => absurd h (by decide +kernel)⟩
  case elementKey h1 h2 h3 h4 =>
    subst h2
    exact ⟨fun h => absurd h (by decide +kernel), fun _ => by simp [Value.type], fun h => absurd h (by decide +kernel),
      ⟨fun h => absurd h (by decide +kernel), fun h => by cases h⟩, fun h => absurd h (by decide +kernel), fun h => absurd h (by decide +kernel)⟩
  case noValue it _ _ _ =>
    exact ⟨fun h => absurd h (by decide +kernel), fun h => absurd h (by decide +kernel), fun h => absurd h (by decide +kernel),
      ⟨fun h => absurd h (by decide +kernel), fun h => by cases h⟩, fun _ => ⟨it, by assumption, by assumption⟩, fun h => absurd h (by decide +kernel)⟩
  all_goals
    refine ⟨?_, ?_, ?_, ?_, fun h => absurd h (by decide +kernel), ?_⟩
  all_goals first
    | exact fun h => absurd h (by decide +kernel)
    | exact ⟨fun h => absurd h (by decide +kernel), fun h => by cases h⟩
    | exact ⟨fun _ => rfl, fun _ => by decide +kernel⟩
    | exact fun _ => by assumption
    | exact fun _ => diff rfl (by assumption)

/-- C135, partial. But for a vector that would be too long, there is always a reason in the message. -/
theorem C135_reason_partial (v : Value F) (c : Call F) (e : Err) (m : List Nat) (h : Refused v c e m) (he : e ≠ .lengthError) :
    text! "non-array" <:+: m ∨ text! "non-object" <:+: m ∨ text! "with object type" <:+: m ∨ text! "out of range" <:+: m ∨
    text! "iterator is empty" <:+: m ∨ text! "different value objects" <:+: m := by
  cases h
  case pastKey => rcases kindWord_cases v with hw | hw | hw | hw <;> rw [hw] <;> decide +kernel
  case pastValue => rcases kindWord_cases v with hw | hw | hw | hw <;> rw [hw] <;> decide +kernel
  case tooLong => exact absurd rfl he
  all_goals decide +kernel

/-- C135, partial. The messages of `erase`, `push_back` and `operator[]` name the function. -/
theorem C135_names_partial (v : Value F) (c : Call F) (e : Err) (m : List Nat) (h : Refused v c e m) (he : e ≠ .lengthError)
    (hc : Call.iters c = []) (ha : Call.writes c ≠ text! "at()") : Call.writes c <:+: m := by
  cases h
  case tooLong => exact absurd rfl he
  case noValue it _ _ _ => exact absurd (show it ∈ Call.iters c by assumption) (by rw [hc]; exact List.not_mem_nil)
  all_goals first
    | (cases hc; done)
    | exact absurd rfl ha
    | (simp only [Call.writes]; decide +kernel)

/-- A member asked of an array, and elements pushed to a string. -/
example : Refused (.arr [] : Value Unit) (.key [1]) .invalidKey (text! "invalid value key error: operator[] called on a non-object type") ∧
    Refused (.str [1] : Value Unit) (.pushBack .null) .typeError (text! "value type error: use push_back() or emplace_back() with non-array value") ∧
    (∀ k, Call.iters (.key k : Call Unit) = [] ∧ Call.writes (.key k : Call Unit) ≠ text! "at()") :=
  ⟨.key (by simp [Value.type]) (by simp [Value.type]), .pushBack (by simp [Value.type]) (by simp [Value.type]), fun _ => ⟨rfl, by simp [Call.writes]⟩⟩

/-- C135 is false: `at` on a value of another kind, or for a missing element, does not speak of `at` but of `operator[]`. For a null
value the message says that `operator[]` cannot be called on it, which it can. -/
theorem C135_violated (a i : Nat) (k : List Nat) (hi : i < 1000) :
    (∃ m, Call.said a (.null : Value F) (.atIndex i) = .error (.exn .invalidKey, m) ∧ ¬ text! "at(" <:+: m ∧
      text! "operator[] called on a non-array" <:+: m) ∧ Call.said a (.null : Value F) (.index i) = .ok () ∧
    (∃ m, Call.said a (.null : Value F) (.atKey k) = .error (.exn .invalidKey, m) ∧ ¬ text! "at(" <:+: m ∧
      text! "operator[] called on a non-object" <:+: m) ∧ Call.said a (.null : Value F) (.name k) = .ok () := by
  refine ⟨⟨_, rfl, by decide +kernel, by decide +kernel⟩, ?_, ⟨_, rfl, by decide +kernel, by decide +kernel⟩, ?_⟩
  · have h : ¬ i + 1 > vectorMax - 0 := by simp only [vectorMax]; omega
    have hm : (i - 0 + 1) % sizeRange = i + 1 := by simp only [sizeRange]; omega
    have hl : (List.replicate (i + 1) (.null : Value F))[i]? = some .null := by simp
    simp only [Call.said, Value.type, true_or, if_true, withIndex, growTo, List.length_nil, Nat.zero_le, ge_iff_le, if_neg h, hm, onElem, List.nil_append, hl]
    rfl
  · have irr : ltKey k k = false := ltKey_irrefl k
    simp [Call.said, Value.type, withKey, onMember, Map.emplace, Map.find, irr, quietly, ValueOps.read]

end Configor.Props
