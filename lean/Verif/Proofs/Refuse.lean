import Verif.Spec.Refuse
import Verif.Proofs.ConvertMessage
import Verif.Proofs.Map
/-!
# Proofs about the messages of refused operations
-/
set_option autoImplicit false
namespace Configor
open Spec ValueOps

variable {F : Type}

theorem quietly_hush {α : Type} (r : Except Stop α) : r.map (fun _ => ()) = (quietly r).mapError Prod.fst := by
  cases r <;> rfl

theorem quietly_exn {α : Type} {r : Except Stop α} {e : Err} {m : List Nat} (h : quietly r = .error (.exn e, m)) : r = .error (.exn e) := by
  cases r with
  | ok _ => cases h
  | error x => simp only [quietly, Except.error.injEq, Prod.mk.injEq] at h; rw [h.1]

theorem dataSaid_hush (it : Iter) : it.checkData = it.dataSaid.mapError Prod.fst := by
  unfold Iter.dataSaid
  cases it.checkData <;> rfl

theorem dataSaid_none {it : Iter} (h : it.target = none) :
    it.dataSaid = .error (.exn .invalidIterator, text! "invalid value iterator error: iterator is empty") := by
  unfold Iter.dataSaid Iter.checkData
  rw [if_pos h]; rfl

theorem dataSaid_some {it : Iter} (h : it.target ≠ none) : it.dataSaid = .ok () ∧ it.checkData = .ok () := by
  unfold Iter.dataSaid Iter.checkData
  rw [if_neg h]; exact ⟨rfl, rfl⟩

/-- Checks that pass. -/
def Passes (v : Value F) (it : Iter) : Prop :=
  match v with
  | .obj ms => ∃ p, it.objIt = some p ∧ p ≠ ms.length
  | .arr xs => ∃ p, it.arrIt = some p ∧ p ≠ xs.length
  | .null => False
  | _ => it.prim = 0

theorem checkSaid_none {v : Value F} {it : Iter} (h : it.target = none) :
    it.checkSaid v = .error (.exn .invalidIterator, text! "invalid value iterator error: iterator is empty") := by
  unfold Iter.checkSaid Iter.checkData
  rw [if_pos h]; rfl

theorem checkSaid_past {v : Value F} {it : Iter} (h : it.target ≠ none) (hp : PastLast v it) :
    it.checkSaid v = .error (.exn .outOfRange, kindWord v ++ text! " iterator out of range") := by
  unfold Iter.checkSaid
  rw [(dataSaid_some h).2]
  cases v <;> simp only [PastLast] at hp <;> simp [Iter.checkIterator, Iter.sameIt, hp, kindWord, Value.type, bind, Except.bind]

theorem checkSaid_passes {v : Value F} {it : Iter} (h : it.target ≠ none) (hp : Passes v it) : it.checkSaid v = .ok () := by
  unfold Iter.checkSaid
  rw [(dataSaid_some h).2]
  cases v <;> simp only [Passes] at hp <;> first
    | (obtain ⟨p, h1, h2⟩ := hp; simp [Iter.checkIterator, Iter.sameIt, h1, h2, bind, Except.bind])
    | exact hp.elim
    | simp [Iter.checkIterator, hp]

theorem key_passes {v : Value F} {it : Iter} (h : it.target ≠ none) (hp : Passes v it) : it.key v = match v with
    | .obj ms => do let m ← Iter.member ms it.objIt; .ok m.1
    | _ => .error (.exn .invalidIterator) := by
  have hc := check_hush v it
  rw [checkSaid_passes h hp, (dataSaid_some h).2] at hc
  have hc : it.checkIterator v = .ok () := hc
  unfold Iter.key
  rw [(dataSaid_some h).2, hc]
  cases v <;> rfl

/-- What `checkSaid` answers. -/
theorem checkSaid_cases (v : Value F) (it : Iter) : it.target = none ∨ (it.target ≠ none ∧ PastLast v it) ∨ (it.target ≠ none ∧ Passes v it ∧ ¬ PastLast v it) ∨
    (it.target ≠ none ∧ ¬ PastLast v it ∧ (∃ m, it.checkSaid v = .error (.ub, m)) ∧ ((v.type = .obj ∧ it.objIt = none) ∨ (v.type = .arr ∧ it.arrIt = none))) := by
  by_cases h : it.target = none
  · exact Or.inl h
  by_cases hp : PastLast v it
  · exact Or.inr (Or.inl ⟨h, hp⟩)
  refine Or.inr (Or.inr ?_)
  cases v with
  | obj ms =>
    cases ho : it.objIt with
    | none =>
      refine Or.inr ⟨h, hp, ⟨text! "object iterator out of range", ?_⟩, Or.inl ⟨rfl, rfl⟩⟩
      unfold Iter.checkSaid
      rw [(dataSaid_some h).2]
      simp [Iter.checkIterator, Iter.sameIt, ho, bind, Except.bind]
    | some p => exact Or.inl ⟨h, ⟨p, ho, fun e => hp (by simp only [PastLast]; rw [ho, e])⟩, hp⟩
  | arr xs =>
    cases ho : it.arrIt with
    | none =>
      refine Or.inr ⟨h, hp, ⟨text! "array iterator out of range", ?_⟩, Or.inr ⟨rfl, rfl⟩⟩
      unfold Iter.checkSaid
      rw [(dataSaid_some h).2]
      simp [Iter.checkIterator, Iter.sameIt, ho, bind, Except.bind]
    | some p => exact Or.inl ⟨h, ⟨p, ho, fun e => hp (by simp only [PastLast]; rw [ho, e])⟩, hp⟩
  | null => exact absurd trivial hp
  | _ => exact Or.inl ⟨h, Classical.not_not.1 hp, hp⟩

theorem advance_noexn {n : Nat} {off : Int} {p : Option Nat} {e : Err} : Iter.advance n off p ≠ .error (.exn e) := by
  cases p with
  | none => simp [Iter.advance]
  | some p => simp only [Iter.advance]; split <;> simp

theorem primAdd_noexn {it : Iter} {off : Int} {e : Err} : it.primAdd off ≠ .error (.exn e) := by
  unfold Iter.primAdd; split <;> simp

theorem step_noexn {it : Iter} (h : it.target ≠ none) {off : Int} {v : Value F} {e : Err} : it.step off v ≠ .error (.exn e) := by
  unfold Iter.step
  rw [(dataSaid_some h).2]
  simp only [bind, Except.bind]
  cases v with
  | obj ms =>
    simp only
    cases ha : Iter.advance ms.length off it.objIt with
    | ok p => simp
    | error x => intro hx; simp only [Except.error.injEq] at hx; rw [hx] at ha; exact advance_noexn ha
  | arr xs =>
    simp only
    cases ha : Iter.advance xs.length off it.arrIt with
    | ok p => simp
    | error x => intro hx; simp only [Except.error.injEq] at hx; rw [hx] at ha; exact advance_noexn ha
  | null => simp
  | _ => exact primAdd_noexn

theorem plus_noexn {it : Iter} (h : it.target ≠ none) {off : Int} {v : Value F} (hv : v.type ≠ .obj) {e : Err} : it.plus off v ≠ .error (.exn e) := by
  unfold Iter.plus
  rw [(dataSaid_some h).2]
  simp only [bind, Except.bind]
  cases v with
  | obj ms => exact absurd rfl hv
  | arr xs =>
    simp only
    cases ha : Iter.advance xs.length off it.arrIt with
    | ok p => simp
    | error x => intro hx; simp only [Except.error.injEq] at hx; rw [hx] at ha; exact advance_noexn ha
  | null => simp
  | _ => exact primAdd_noexn

theorem refused_said (a : Nat) {v : Value F} (hs : KeysSorted v) {c : Call F} {e : Err} {m : List Nat} (h : Refused v c e m) : c.said a v = .error (.exn e, m) := by
  cases h with
  | eraseKey h => simp only [Call.said, if_neg h]; rfl
  | eraseIndex h => simp only [Call.said, if_neg h]; rfl
  | eraseIter h h' => cases v <;> first | exact absurd rfl h | exact absurd rfl h' | rfl
  | eraseRange h h' => cases v <;> first | exact absurd rfl h | exact absurd rfl h' | rfl
  | pushBack h h' => simp only [Call.said, if_pos (And.intro h h')]; rfl
  | index h h' => simp only [Call.said, if_neg (not_or.2 ⟨h, h'⟩)]; rfl
  | key h h' => simp only [Call.said, if_neg (not_or.2 ⟨h, h'⟩)]; rfl
  | name h h' => simp only [Call.said, if_neg (not_or.2 ⟨h, h'⟩)]; rfl
  | atIndex h => cases v <;> first | exact absurd rfl h | rfl
  | atKey h => cases v <;> first | exact absurd rfl h | rfl
  | noIndex h h' => subst h; simp only [Call.said, Value.atIndexSaid, List.getElem?_eq_none h']; rfl
  | noKey h h' => subst h; simp only [Call.said, Value.atKeySaid, find_lookup (sorted_obj.1 hs).1, h']; rfl
  | @tooLong xs i h h' h'' =>
    have hg : (growTo i read xs).1 = .error (.exn .lengthError) := by
      unfold growTo
      rw [if_pos h', if_pos (show (i - xs.length + 1) % sizeRange > vectorMax - xs.length from h'')]
    rcases h with ⟨rfl, rfl⟩ | rfl
    · simp only [Call.said, Value.type, withIndex, hg]; rfl
    · simp only [Call.said, Value.type, withIndex, hg]; rfl
  | @noValue c it h h' hc =>
    cases c <;> simp only [Call.iters, List.mem_cons, List.not_mem_nil, or_false] at h
    case iterKey => subst h; simp only [Call.said, Iter.keySaid, checkSaid_none h']; rfl
    case iterValue => subst h; simp only [Call.said, Iter.derefSaid, checkSaid_none h']; rfl
    case iterNext => subst h; simp only [Call.said, dataSaid_none h']; rfl
    case iterBack => subst h; simp only [Call.said, dataSaid_none h']; rfl
    case iterPlus => subst h; simp only [Call.said, dataSaid_none h']; rfl
    case iterMinus => subst h; simp only [Call.said, if_pos (show inPtrdiff _ = true from hc), dataSaid_none h']; rfl
    case iterDiff it jt =>
      rcases h with rfl | rfl
      · simp only [Call.said, dataSaid_none h']; rfl
      · by_cases hi : it.target = none
        · simp only [Call.said, dataSaid_none hi]; rfl
        · simp only [Call.said, dataSaid_none h', (dataSaid_some hi).1]; rfl
    case iterLess it jt =>
      rcases h with rfl | rfl
      · simp only [Call.said, dataSaid_none h']; rfl
      · by_cases hi : it.target = none
        · simp only [Call.said, dataSaid_none hi]; rfl
        · simp only [Call.said, dataSaid_none h', (dataSaid_some hi).1]; rfl
  | pastKey h h' => simp only [Call.said, Iter.keySaid, checkSaid_past h h']; rfl
  | pastValue h h' => simp only [Call.said, Iter.derefSaid, checkSaid_past h h']; rfl
  | @iterKey it h h1 h2 h3 =>
    rcases checkSaid_cases v it with k | ⟨_, k⟩ | ⟨_, k, _⟩ | ⟨_, _, _, k⟩
    · exact absurd k h
    · exact absurd k h3
    · have hk : it.key v = .error (.exn .invalidIterator) := by
        have := check_hush v it
        rw [checkSaid_passes h k, (dataSaid_some h).2] at this
        have this : it.checkIterator v = .ok () := this
        unfold Iter.key
        rw [(dataSaid_some h).2, this]
        cases v <;> first | rfl | exact absurd rfl h1
      simp only [Call.said, Iter.keySaid, checkSaid_passes h k, hk]; rfl
    · rcases k with k | k
      · exact absurd k.1 h1
      · exact absurd k.1 h2
  | @elementKey xs it p h h1 h2 h3 =>
    subst h1
    have k : Passes (.arr xs : Value F) it := ⟨p, h2, h3⟩
    have hk : it.key (.arr xs : Value F) = .error (.exn .invalidIterator) := by
      have := check_hush (.arr xs : Value F) it
      rw [checkSaid_passes h k, (dataSaid_some h).2] at this
      have this : it.checkIterator (.arr xs : Value F) = .ok () := this
      unfold Iter.key
      rw [(dataSaid_some h).2, this]
      rfl
    simp only [Call.said, Iter.keySaid, checkSaid_passes h k, hk]; rfl
  | plus h h' => simp only [Call.said, (dataSaid_some h).1, if_pos h']; rfl
  | minus h h' h'' => simp only [Call.said, (dataSaid_some h).1, if_pos h', if_pos h'']; rfl
  | diffOther h h' h'' => simp only [Call.said, (dataSaid_some h).1, (dataSaid_some h').1, if_pos h'']; rfl
  | diff h h' h'' => simp only [Call.said, (dataSaid_some h).1, (dataSaid_some (h' ▸ h)).1, if_neg (not_not_intro h'), if_pos h'']; rfl
  | lessOther h h' h'' => simp only [Call.said, (dataSaid_some h).1, (dataSaid_some h').1, if_pos h'']; rfl
  | less h h' h'' => simp only [Call.said, (dataSaid_some h).1, (dataSaid_some (h' ▸ h)).1, if_neg (not_not_intro h'), if_pos h'']; rfl

theorem onElem_read_noexn {i : Nat} {xs : List (Value F)} {e : Err} : (onElem i read xs).1 ≠ .error (.exn e) := by
  unfold onElem
  split <;> simp [ValueOps.read]

theorem onMember_read_noexn {k : List Nat} {ms : Map.T (Value F)} {e : Err} : (onMember k read ms).1 ≠ .error (.exn e) := by
  unfold onMember
  split <;> simp [ValueOps.read]

theorem growTo_exn {i : Nat} {xs : List (Value F)} {e : Err} (h : (growTo i read xs).1 = .error (.exn e)) :
    e = .lengthError ∧ xs.length ≤ i ∧ 576460752303423487 - xs.length < (i - xs.length + 1) % 2 ^ 64 := by
  unfold growTo at h
  split at h
  · next h1 =>
    split at h
    · next h2 => simp at h; exact ⟨h.symm, h1, h2⟩
    · exact absurd h onElem_read_noexn
  · exact absurd h onElem_read_noexn

theorem said_refused (a : Nat) {v : Value F} (hs : KeysSorted v) {c : Call F} {e : Err} {m : List Nat} (h : c.said a v = .error (.exn e, m)) : Refused v c e m := by
  have inj : ∀ {s : Said} {α : Type}, (Except.error s : Except Said α) = .error (.exn e, m) → s = (.exn e, m) := fun h => Except.error.inj h
  cases c with
  | eraseKey k =>
    simp only [Call.said] at h
    split at h
    · next hv =>
      have := quietly_exn h
      cases v <;> first | (cases hv; done) | (cases this; done)
    · next hv => cases inj h; exact .eraseKey hv
  | eraseIndex i =>
    simp only [Call.said] at h
    split at h
    · next hv =>
      have := quietly_exn h
      cases v <;> first | (cases hv; done) | (simp only [ValueOps.eraseIndex] at this; split at this <;> cases this)
    · next hv => cases inj h; exact .eraseIndex hv
  | eraseIter p =>
    cases v with
    | obj ms =>
      have := quietly_exn h
      simp only [ValueOps.eraseIter, Value.fin, Iter.setEnd, Iter.make, Iter.checkData, bind, Except.bind] at this
      simp at this
      split at this
      · split at this <;> simp at this
      · simp at this
    | arr xs =>
      have := quietly_exn h
      simp only [ValueOps.eraseIter, Value.fin, Iter.setEnd, Iter.make, Iter.checkData, bind, Except.bind] at this
      simp at this
      split at this
      · split at this <;> simp at this
      · simp at this
    | _ => cases inj h; exact .eraseIter (by simp [Value.type]) (by simp [Value.type])
  | eraseRange p q =>
    cases v with
    | obj ms =>
      have := quietly_exn h
      simp only [ValueOps.eraseRange, Value.fin, Iter.setEnd, Iter.make, Iter.checkData, bind, Except.bind] at this
      simp at this
      split at this
      · split at this <;> simp at this
      · simp at this
    | arr xs =>
      have := quietly_exn h
      simp only [ValueOps.eraseRange, Value.fin, Iter.setEnd, Iter.make, Iter.checkData, bind, Except.bind] at this
      simp at this
      split at this
      · split at this <;> simp at this
      · simp at this
    | _ => cases inj h; exact .eraseRange (by simp [Value.type]) (by simp [Value.type])
  | pushBack x =>
    simp only [Call.said] at h
    split at h
    · next hv => cases inj h; exact .pushBack hv.1 hv.2
    · next hv =>
      have := quietly_exn h
      cases v <;> first | (cases this; done) | exact absurd ⟨by simp [Value.type], by simp [Value.type]⟩ hv
  | index i =>
    simp only [Call.said] at h
    split at h
    · next hv =>
      split at h
      · next e' he =>
        simp only [Except.error.injEq, Prod.mk.injEq] at h
        obtain ⟨rfl, rfl⟩ := h
        cases v with
        | null => obtain ⟨rfl, h1, h2⟩ := growTo_exn he; exact .tooLong (xs := []) (Or.inl ⟨rfl, rfl⟩) h1 h2
        | arr xs => obtain ⟨rfl, h1, h2⟩ := growTo_exn he; exact .tooLong (xs := xs) (Or.inr rfl) h1 h2
        | _ => simp [Value.type] at hv
      · cases h
    · next hv => cases inj h; exact .index (not_or.1 hv).1 (not_or.1 hv).2
  | key k =>
    simp only [Call.said] at h
    split at h
    · next hv =>
      have := quietly_exn h
      cases v <;> first | exact absurd this onMember_read_noexn | simp [Value.type] at hv
    · next hv => cases inj h; exact .key (not_or.1 hv).1 (not_or.1 hv).2
  | name k =>
    simp only [Call.said] at h
    split at h
    · next hv =>
      have := quietly_exn h
      cases v <;> first | exact absurd this onMember_read_noexn | simp [Value.type] at hv
    · next hv => cases inj h; exact .name (not_or.1 hv).1 (not_or.1 hv).2
  | atIndex i =>
    cases v with
    | arr xs =>
      simp only [Call.said, Value.atIndexSaid] at h
      split at h
      · next x hx => rw [show Except.map _ (Except.ok _ : Except Said (Value F)) = _ from rfl] at h; cases h
      · next hx =>
        cases inj (α := Unit) h
        exact .noIndex rfl (List.getElem?_eq_none_iff.1 hx)
    | _ => cases inj (α := Unit) h; exact .atIndex (by simp [Value.type])
  | atKey k =>
    cases v with
    | obj ms =>
      simp only [Call.said, Value.atKeySaid] at h
      split at h
      · cases h
      · next hx =>
        cases inj (α := Unit) h
        exact .noKey rfl (by rw [← find_lookup (sorted_obj.1 hs).1]; exact hx)
    | _ => cases inj (α := Unit) h; exact .atKey (by simp [Value.type])
  | iterKey it =>
    rcases checkSaid_cases v it with k | ⟨hk, k⟩ | ⟨hk, k, kp⟩ | ⟨_, _, ⟨_, k⟩, _⟩
    · simp only [Call.said, Iter.keySaid, checkSaid_none k] at h
      cases inj (α := Unit) h
      exact .noValue (List.mem_singleton.2 rfl) k trivial
    · simp only [Call.said, Iter.keySaid, checkSaid_past hk k] at h
      cases inj (α := Unit) h
      exact .pastKey hk k
    · simp only [Call.said, Iter.keySaid, checkSaid_passes hk k] at h
      have hkey := key_passes hk k
      cases v with
      | obj ms =>
        rw [hkey] at h
        simp only [Iter.member] at h
        split at h
        · next e' he =>
          cases inj (α := Unit) h
          split at he
          · split at he <;> simp [bind, Except.bind] at he
          · simp [bind, Except.bind] at he
        · cases h
      | arr xs =>
        rw [hkey] at h
        cases inj (α := Unit) h
        obtain ⟨p, h1, h2⟩ := k
        exact .elementKey hk rfl h1 h2
      | null => exact k.elim
      | _ => rw [hkey] at h; cases inj (α := Unit) h; exact .iterKey hk (by simp [Value.type]) (by simp [Value.type]) kp
    · simp only [Call.said, Iter.keySaid, k] at h
      cases inj (α := Unit) h
  | iterValue it =>
    rcases checkSaid_cases v it with k | ⟨hk, k⟩ | ⟨hk, k, kp⟩ | ⟨_, _, ⟨_, k⟩, _⟩
    · simp only [Call.said, Iter.derefSaid, checkSaid_none k] at h
      cases inj (α := Unit) h
      exact .noValue (List.mem_singleton.2 rfl) k trivial
    · simp only [Call.said, Iter.derefSaid, checkSaid_past hk k] at h
      cases inj (α := Unit) h
      exact .pastValue hk k
    · simp only [Call.said, Iter.derefSaid, checkSaid_passes hk k] at h
      have hc := check_hush v it
      rw [checkSaid_passes hk k, (dataSaid_some hk).2] at hc
      have hc : it.checkIterator v = .ok () := hc
      exfalso
      have hd : it.deref v ≠ .error (.exn e) := by
        unfold Iter.deref
        rw [(dataSaid_some hk).2, hc]
        simp only [bind, Except.bind]
        cases v with
        | obj ms =>
          simp only [Iter.member]
          split
          · next x hx =>
            split at hx
            · split at hx
              · cases hx
              · cases hx; simp
            · cases hx; simp
          · simp
        | arr xs =>
          simp only
          split
          · split <;> simp
          · simp
        | _ => simp
      split at h
      · next e' he => cases inj (α := Unit) h; exact hd he
      · cases h
    · simp only [Call.said, Iter.derefSaid, k] at h
      cases inj (α := Unit) h
  | iterNext it =>
    by_cases k : it.target = none
    · simp only [Call.said, dataSaid_none k] at h
      cases inj (α := Unit) h
      exact .noValue (List.mem_singleton.2 rfl) k trivial
    · simp only [Call.said, (dataSaid_some k).1] at h
      exact absurd (quietly_exn h) (step_noexn k)
  | iterBack it =>
    by_cases k : it.target = none
    · simp only [Call.said, dataSaid_none k] at h
      cases inj (α := Unit) h
      exact .noValue (List.mem_singleton.2 rfl) k trivial
    · simp only [Call.said, (dataSaid_some k).1] at h
      exact absurd (quietly_exn h) (step_noexn k)
  | iterPlus off it =>
    by_cases k : it.target = none
    · simp only [Call.said, dataSaid_none k] at h
      cases inj (α := Unit) h
      exact .noValue (List.mem_singleton.2 rfl) k trivial
    · by_cases hv : v.type = .obj
      · simp only [Call.said, (dataSaid_some k).1, if_pos hv] at h
        cases inj (α := Unit) h
        exact .plus k hv
      · simp only [Call.said, (dataSaid_some k).1, if_neg hv] at h
        exact absurd (quietly_exn h) (plus_noexn k hv)
  | iterMinus off it =>
    by_cases ho : inPtrdiff (-off) = true
    · by_cases k : it.target = none
      · simp only [Call.said, if_pos ho, dataSaid_none k] at h
        cases inj (α := Unit) h
        exact .noValue (List.mem_singleton.2 rfl) k ho
      · by_cases hv : v.type = .obj
        · simp only [Call.said, if_pos ho, (dataSaid_some k).1, if_pos hv] at h
          cases inj (α := Unit) h
          exact .minus k hv ho
        · simp only [Call.said, if_pos ho, (dataSaid_some k).1, if_neg hv] at h
          exact absurd (quietly_exn h) (plus_noexn k hv)
    · simp only [Call.said, if_neg ho] at h
      cases inj (α := Unit) h
  | iterDiff it jt =>
    by_cases k : it.target = none
    · simp only [Call.said, dataSaid_none k] at h
      cases inj (α := Unit) h
      exact .noValue (it := it) (by simp [Call.iters]) k trivial
    by_cases k' : jt.target = none
    · simp only [Call.said, (dataSaid_some k).1, dataSaid_none k'] at h
      cases inj (α := Unit) h
      exact .noValue (it := jt) (by simp [Call.iters]) k' trivial
    simp only [Call.said, (dataSaid_some k).1, (dataSaid_some k').1, bind, Except.bind] at h
    split at h
    · next hn => cases inj (α := Unit) h; exact .diffOther k k' hn
    · next hn =>
      split at h
      · next hv => cases inj (α := Unit) h; exact .diff k (Classical.not_not.1 hn) hv
      · next hv =>
        have := quietly_exn h
        unfold Iter.diff at this
        rw [(dataSaid_some k).2, (dataSaid_some k').2] at this
        simp only [bind, Except.bind, if_neg hn] at this
        cases v <;> first | (simp only at this; split at this <;> cases this; done) | exact absurd (by simp [Value.type]) hv
  | iterLess it jt =>
    by_cases k : it.target = none
    · simp only [Call.said, dataSaid_none k] at h
      cases inj (α := Unit) h
      exact .noValue (it := it) (by simp [Call.iters]) k trivial
    by_cases k' : jt.target = none
    · simp only [Call.said, (dataSaid_some k).1, dataSaid_none k'] at h
      cases inj (α := Unit) h
      exact .noValue (it := jt) (by simp [Call.iters]) k' trivial
    simp only [Call.said, (dataSaid_some k).1, (dataSaid_some k').1, bind, Except.bind] at h
    split at h
    · next hn => cases inj (α := Unit) h; exact .lessOther k k' hn
    · next hn =>
      split at h
      · next hv => cases inj (α := Unit) h; exact .less k (Classical.not_not.1 hn) hv
      · next hv =>
        have := quietly_exn h
        unfold Iter.lt at this
        rw [(dataSaid_some k).2, (dataSaid_some k').2] at this
        simp only [bind, Except.bind, if_neg hn] at this
        cases v with
        | obj ms => exact absurd rfl hv
        | arr xs => simp only at this; split at this <;> cases this
        | _ => cases this

end Configor
