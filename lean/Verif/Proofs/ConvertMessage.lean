import Verif.Spec.ConvertMessage
import Verif.Proofs.Iter
import Verif.Proofs.Convert
/-! Lemmas for `Props/ConvertMessage`. -/
set_option autoImplicit false
namespace Configor
open Spec ValueOps

variable {F T S : Type}

/-! ## The readers do what the conversions do -/

theorem get_hush {R : Reader F T} {E : Conv F T} (h : Narrates R E) (v : Value F) : E.get v = (R.get v).mapError Prod.fst := by
  unfold Conv.get Reader.get
  rw [h.2, h.1]
  rcases R.fromValue v E.zero with ⟨e | a, t⟩ <;> rfl

theorem atIndex_hush (c : Value F) (i : Nat) : (atIndex i read c).1 = (c.atIndexSaid i).mapError Prod.fst := by
  cases c with
  | arr xs =>
    show (if i ≥ xs.length then ((.error (.exn .outOfRange), .arr xs) : Except Stop (Value F) × Value F) else onElem i read xs).1 =
      (match xs[i]? with | some x => Except.ok x | none => .error (outOfRangeSaid _)).mapError Prod.fst
    by_cases h : i ≥ xs.length
    · rw [if_pos h, List.getElem?_eq_none h]; rfl
    · rw [if_neg h]
      have h : i < xs.length := by omega
      unfold onElem
      rw [List.getElem?_eq_getElem h]
      rfl
  | _ => rfl

theorem atKey_hush (c : Value F) (k : List Nat) : (atKey k read c).1 = (c.atKeySaid k).mapError Prod.fst := by
  cases c with
  | obj ms =>
    show (if (Map.find k ms).isNone then ((.error (.exn .outOfRange), .obj ms) : Except Stop (Value F) × Value F) else onMember k read ms).1 =
      (match Map.find k ms with | some x => Except.ok x | none => .error (outOfRangeSaid _)).mapError Prod.fst
    unfold onMember
    cases h : Map.find k ms with
    | none => rfl
    | some x => rfl
  | _ => rfl

theorem item_hush {R : Reader F T} {E : Conv F T} (h : Narrates R E) (c : Value F) (i : Nat) : E.item c i = (R.item c i).mapError Prod.fst := by
  unfold Conv.item Reader.item
  rw [atIndex_hush]
  cases c.atIndexSaid i with
  | error e => rfl
  | ok x => exact get_hush h x

/-- What is left when the messages are dropped. -/
def hush {α : Type} (r : Except Said α × T) : Except Stop α × T := (r.1.mapError Prod.fst, r.2)

theorem fill_hush {R : Reader F T} {E : Conv F T} (h : Narrates R E) (c : Value F) :
    ∀ (is : List Nat) (t : List T), E.fill c is t = hush (R.each c (fun i x t => t.set i x) is t)
  | [], _ => rfl
  | i :: is, t => by
    unfold Conv.fill Reader.each
    rw [item_hush h]
    cases R.item c i with
    | error e => rfl
    | ok x => exact fill_hush h c is _

theorem push_hush {R : Reader F T} {E : Conv F T} (h : Narrates R E) (c : Value F) :
    ∀ (is : List Nat) (t : List T), E.push c is t = hush (R.each c (fun _ x t => t ++ [x]) is t)
  | [], _ => rfl
  | i :: is, t => by
    unfold Conv.push Reader.each
    rw [item_hush h]
    cases R.item c i with
    | error e => rfl
    | ok x => exact push_hush h c is _

theorem pushFront_hush {R : Reader F T} {E : Conv F T} (h : Narrates R E) (c : Value F) :
    ∀ (is : List Nat) (t : List T), E.pushFront c is t = hush (R.each c (fun _ x t => x :: t) is t)
  | [], _ => rfl
  | i :: is, t => by
    unfold Conv.pushFront Reader.each
    rw [item_hush h]
    cases R.item c i with
    | error e => rfl
    | ok x => exact pushFront_hush h c is _

theorem insertAll_hush {R : Reader F T} {E : Conv F T} (h : Narrates R E) (insert : T → List T → List T) (c : Value F) :
    ∀ (is : List Nat) (t : List T), E.insertAll insert c is t = hush (R.each c (fun _ x t => insert x t) is t)
  | [], _ => rfl
  | i :: is, t => by
    unfold Conv.insertAll Reader.each
    rw [item_hush h]
    cases R.item c i with
    | error e => rfl
    | ok x => exact insertAll_hush h insert c is _

theorem check_hush (v : Value F) (it : Iter) : (do it.checkData; it.checkIterator v) = (it.checkSaid v).mapError Prod.fst := by
  unfold Iter.checkSaid
  cases it.checkData with
  | error e => rfl
  | ok _ =>
    show it.checkIterator v = _
    generalize it.checkIterator v = r
    cases r with
    | error e => cases v <;> rfl
    | ok _ => cases v <;> rfl

theorem key_hush (v : Value F) (it : Iter) : it.key v = (it.keySaid v).mapError Prod.fst := by
  have h := check_hush v it
  unfold Iter.keySaid
  cases hc : it.checkSaid v with
  | error e =>
    rw [hc] at h
    have h : (do it.checkData; it.checkIterator v) = .error e.1 := h
    show it.key v = .error e.1
    unfold Iter.key
    cases h1 : it.checkData with
    | error e' => rw [h1] at h; have h : (Except.error e' : Except Stop Unit) = .error e.1 := h; injection h with h; rw [h]; rfl
    | ok _ =>
      rw [h1] at h
      have h : it.checkIterator v = .error e.1 := h
      show (do it.checkIterator v; _) = _
      rw [h]; rfl
  | ok _ =>
    show it.key v = (match it.key v with | .error e => _ | .ok k => Except.ok k).mapError Prod.fst
    cases it.key v <;> rfl

theorem deref_hush (v : Value F) (it : Iter) : it.deref v = (it.derefSaid v).mapError Prod.fst := by
  have h := check_hush v it
  unfold Iter.derefSaid
  cases hc : it.checkSaid v with
  | error e =>
    rw [hc] at h
    have h : (do it.checkData; it.checkIterator v) = .error e.1 := h
    show it.deref v = .error e.1
    unfold Iter.deref
    cases h1 : it.checkData with
    | error e' => rw [h1] at h; have h : (Except.error e' : Except Stop Unit) = .error e.1 := h; injection h with h; rw [h]; rfl
    | ok _ =>
      rw [h1] at h
      have h : it.checkIterator v = .error e.1 := h
      show (do it.checkIterator v; _) = _
      rw [h]; rfl
  | ok _ =>
    show it.deref v = (match it.deref v with | .error e => _ | .ok k => Except.ok k).mapError Prod.fst
    cases it.deref v <;> rfl

theorem emplaceAll_hush {R : Reader F T} {E : Conv F T} (h : Narrates R E) (em : List Nat → T → List (List Nat × T) → List (List Nat × T)) (c : Value F) :
    ∀ (n : Nat) (it last : Iter) (t : List (List Nat × T)), E.emplaceAll em c n it last t = hush (R.emplaceAll em false c n it last t)
  | 0, _, _, _ => rfl
  | n + 1, it, last, t => by
    unfold Conv.emplaceAll Reader.emplaceAll
    cases it.eq c last with
    | error e => rfl
    | ok b =>
      cases b with
      | true => rfl
      | false =>
        simp only [key_hush, deref_hush]
        unfold Reader.entry
        cases it.keySaid c with
        | error e => rfl
        | ok k =>
          cases it.derefSaid c with
          | error e => rfl
          | ok v =>
            show (match E.get v with | .error e => _ | .ok x => _) = _
            rw [get_hush h]
            dsimp only
            cases R.get v with
            | error e => rfl
            | ok x =>
              show (match it.incr c with | .error e => _ | .ok it => _) = hush (match it.incr c with | .error e => _ | .ok it => _)
              cases it.incr c with
              | error e => rfl
              | ok jt => exact emplaceAll_hush h em c n jt last _

theorem readAll_hush (c : Value F) : ∀ (fs : List (Field F S)) (s : S), readAll c fs s = hush (readAllSaid c fs s)
  | [], _ => rfl
  | f :: fs, s => by
    have h : f.read c s = hush (f.readSaid c s) := by
      unfold Field.read Field.readSaid
      by_cases hc : (f.optional && c.count f.name == 0) = true
      · rw [if_pos hc, if_pos hc]; rfl
      · rw [if_neg hc, if_neg hc, atKey_hush]
        cases c.atKeySaid f.name with
        | error e => rfl
        | ok x =>
          show (match f.conv.getInto x (f.get s) with | (.ok _, t) => _ | (.error e, t) => _) = hush (match f.conv.getInto x (f.get s) with | (.ok _, t) => _ | (.error e, t) => _)
          rcases f.conv.getInto x (f.get s) with ⟨e | a, t⟩ <;> rfl
    unfold readAll readAllSaid
    rw [h]
    rcases f.readSaid c s with ⟨e | a, s'⟩
    · rfl
    · exact readAll_hush c fs s'

end Configor
