import Verif.Proofs.ConvertRun
import Verif.Proofs.Convert
import Verif.Proofs.Bind
set_option autoImplicit false
/-!
# Conversions in memory: calls, and the conversions on trees
-/
namespace Spec
open Configor ValueOps

variable {F T S : Type}

/-! ## Calls -/

theorem over_self {E : Env F} {k : Nat} (hk : ∀ j, k ≤ j → E j = none) : Over E (E.bind k (some .null)) k where
  low x hx := by
    have : x < k := by
      rcases Nat.lt_or_ge x k with h | h
      · exact h
      · exact (hx (hk x h)).elim
    exact ⟨this, by rw [bind_ne _ (by omega)]⟩
  high j hj := by rw [bind_ne _ (by omega)]; exact hk j (by omega)

theorem making_made (fo : FloatOps F) (d : Order) {s : State F} {E : Env F} {L : Nat → Prop} (hs : Holds s E L) {k : Nat}
    (hk : ∀ j, k ≤ j → E j = none) {o : Obj F} (hv : Valid E o) :
    Made k (State.making (.user k) (State.toValue d k o)) s E L (convert d E o) :=
  Conv'.made fo hs (hk k (Nat.le_refl _)) fun _ h1 => toValue_conv fo d o hv h1 (over_self hk) (bind_at _ _ _)

theorem constructFrom_made (fo : FloatOps F) (d : Order) {s : State F} {E : Env F} {L : Nat → Prop} (hs : Holds s E L) {k : Nat}
    (hk : ∀ j, k ≤ j → E j = none) {o : Obj F} (hv : Valid E o) :
    Made k (State.constructFrom d k o) s E L (convert d E o) := by
  by_cases hx : ∃ x p, o = .value x p
  · obtain ⟨x, p, rfl⟩ := hx
    have h1 := hv ⟨x, p⟩ (by simp [valuesIn])
    cases h3 : E.get ⟨x, p⟩ with
    | none => exact (h1 h3).elim
    | some v =>
      simp only [State.constructFrom, convert, h3, Option.getD_some]
      rcases cmd_cases fo (.copy k ⟨x, p⟩) hs ⟨hk k (Nat.le_refl _), by rw [h3]; simp⟩ with ⟨s2, k1, k2, k3, k4⟩ | ⟨s2, E1, L1, k1, k2, k3, k4, k5, k6⟩
      · refine .inl ⟨s2, v, k1, rfl, ?_, k3, k4⟩
        simp only [Cmd.meaning, h3] at k2
        exact k2
      · have : E1 = E := by rcases k3 with k3 | k3 <;> exact k3
        subst this
        exact .inr ⟨s2, .badAlloc, L1, k1, k2, k5, .inr ⟨k6, rfl, k4⟩⟩
  · have e : State.constructFrom d k o = State.making (.user k) (State.toValue d k o) := by
      cases o <;> first | rfl | exact absurd ⟨_, _, rfl⟩ hx
    rw [e]
    exact making_made fo d hs hk hv

theorem assignFrom_ends (fo : FloatOps F) (d : Order) {s : State F} {E : Env F} {L : Nat → Prop} (hs : Holds s E L) {x : Nat} {p : List Nat}
    (hx : E.get ⟨x, p⟩ ≠ none) {t : Nat} (ht : ∀ j, t ≤ j → E j = none) {o : Obj F} (hv : Valid E o) :
    (∃ s' v, State.assignFrom d x p t o s = (.ok (), s') ∧ convert d E o = .ok v ∧ Holds s' (E.set ⟨x, p⟩ v) L ∧ Later s s' ∧ NoFailure s s') ∨
    (∃ s' e L', State.assignFrom d x p t o s = (.error (.exn e), s') ∧ Holds s' E L' ∧ Later s s' ∧
      ((NoFailure s s' ∧ ∃ n, MoreBy n L L' ∧ convert d E o = .error (e, n)) ∨ (¬ NoFailure s s' ∧ e = .badAlloc ∧ ∀ a, L a → L' a))) := by
  by_cases hy : ∃ y q, o = .value y q
  · obtain ⟨y, q, rfl⟩ := hy
    have h1 := hv ⟨y, q⟩ (by simp [valuesIn])
    cases h3 : E.get ⟨y, q⟩ with
    | none => exact (h1 h3).elim
    | some v =>
      simp only [State.assignFrom, State.assignObj, convert, h3, Option.getD_some]
      rcases cmd_cases fo (.copyAssign ⟨x, p⟩ ⟨y, q⟩) hs ⟨hx, h1⟩ with ⟨s2, k1, k2, k3, k4⟩ | ⟨s2, E1, L1, k1, k2, k3, k4, k5, k6⟩
      · refine .inl ⟨s2, v, k1, rfl, ?_, k3, k4⟩
        simp only [Cmd.meaning, h3, Env.put] at k2
        exact k2
      · have : E1 = E := by rcases k3 with k3 | k3 <;> exact k3
        subst this
        exact .inr ⟨s2, .badAlloc, L1, k1, k2, k5, .inr ⟨k6, rfl, k4⟩⟩
  · have e : State.assignFrom d x p t o =
        (State.making (.user t) (State.toValue d t o) >>= fun _ => State.moveFrom (State.ref (.user x) p) t) := by
      cases o <;> first | rfl | exact absurd ⟨_, _, rfl⟩ hy
    rw [e]
    obtain ⟨tv, htv⟩ : ∃ tv, E x = some tv := by
      cases h : E x with
      | none => simp [Env.get, h] at hx
      | some tv => exact ⟨tv, rfl⟩
    have hxt : x ≠ t := by
      rintro rfl
      rw [ht x (Nat.le_refl _)] at htv; cases htv
    rcases making_made fo d hs ht hv with ⟨s1, v, h1, h2, h3, h4, h5⟩ | ⟨s1, e, L', h1, h2, h3, h4⟩
    · obtain ⟨s2, j1, j2, j3, j4⟩ := moveFrom_holds fo h3 hxt (bind_at _ _ _) (by rw [bind_ne _ hxt, htv]) (p := p)
        (by simpa [Env.get, htv] using hx) rfl
      refine .inl ⟨s2, v, ?_, h2, ?_, h4.trans j3, (noFailure_trans h4 j3).2 ⟨h5, j4⟩⟩
      · rw [M.bind_ok h1, j1]
      · rw [← bind_comm hxt, bind_bind] at j2
        rw [bind_set htv]
        rw [bind_same] at j2
        · exact j2
        · rw [bind_ne _ (Ne.symm hxt)]; exact ht t (Nat.le_refl _)
    · exact .inr ⟨s1, e, L', by rw [M.bind_error h1], h2, h3, h4⟩

/-! ## The same on trees -/

/-- The value, or the exception without the number of blocks. -/
theorem tree_ok {r : Except (Err × Nat) (Value F)} {v : Value F} : outcome r = .ok v ↔ r = .ok v := by
  cases r with
  | ok w => simp [outcome]
  | error x => simp [outcome]

theorem tree_seq {d : Order} {E : Env F} {C : Conv F T} {obj : T → Obj F} : ∀ (xs : List T) (done : List (Value F)), done.length + xs.length ≤ vectorMax →
    (∀ x ∈ xs, outcome (convert d E (obj x)) = C.toValue x) →
    outcome (convertAll d E done (xs.map obj)) = Conv.toLoop C done.length xs (.arr done)
  | [], done, _, _ => rfl
  | x :: xs, done, hl, h => by
    rw [List.length_cons] at hl
    have hx := h x (by simp)
    unfold Conv.toLoop
    simp only [List.map_cons, convertAll]
    rw [← hx]
    cases convert d E (obj x) with
    | error e => obtain ⟨e, n⟩ := e; rfl
    | ok v =>
      have ih := tree_seq xs (done ++ [v]) (by simp; omega) fun y hy => h y (by simp [hy])
      have := withIndex_arr (F := F) (i := done.length) (by omega) (assign v) done
      simp only [outcome]
      show _ = (match withIndex done.length (assign v) (.arr done) with | (.ok _, c) => _ | (.error e, _) => _)
      rw [this]
      show _ = Conv.toLoop C (done.length + 1) xs (.arr (setAt done done.length v))
      rw [setAt_end, ← (show (done ++ [v]).length = done.length + 1 by simp)]
      exact ih

theorem ltKey_self (k : List Nat) : ltKey k k = false := (ltKey_false k k).2 (List.lt_irrefl k)

theorem emplace_find (k : List Nat) : ∀ ms : List (List Nat × Value F), ∃ x, Map.find k (Map.emplace k .null ms) = some x
  | [] => ⟨.null, by simp [Map.emplace, Map.find, ltKey_self]⟩
  | (k', v') :: ms => by
    simp only [Map.emplace]
    split
    · exact ⟨.null, by simp [Map.find, ltKey_self]⟩
    · next h1 =>
      split
      · next h2 =>
        obtain ⟨x, hx⟩ := emplace_find k ms
        exact ⟨x, by simp only [Map.find, h1, h2]; simpa using hx⟩
      · next h2 => exact ⟨v', by simp [Map.find, h1, h2]⟩

theorem emplace_assign (k : List Nat) (v : Value F) : ∀ ms : List (List Nat × Value F), Map.assign k v (Map.emplace k .null ms) = setMember k v ms
  | [] => by simp [Map.emplace, Map.assign, setMember, ltKey_self]
  | (k', v') :: ms => by
    simp only [Map.emplace, setMember]
    split
    · simp [Map.assign, ltKey_self]
    · next h1 =>
      split
      · next h2 => simp only [Map.assign, h1, h2]; simp [emplace_assign k v ms]
      · next h2 => simp [Map.assign, h1, h2]

theorem withKey_set {c : Value F} (hc : c = .null ∨ ∃ ms, c = .obj ms) (k : List Nat) (v : Value F) :
    withKey k (assign v) c = (.ok (), .obj (setMember k v (membersOf c))) := by
  have : ∀ ms : List (List Nat × Value F), onMember k (assign v) (Map.emplace k .null ms) = (.ok (), .obj (setMember k v ms)) := by
    intro ms
    obtain ⟨x, hx⟩ := emplace_find k ms
    simp only [onMember, hx, assign, emplace_assign]
  rcases hc with rfl | ⟨ms, rfl⟩
  · exact this []
  · exact this ms

theorem tree_map {d : Order} {E : Env F} {C : Conv F T} {obj : T → Obj F} (left : Bool) : ∀ (xs : List (List Nat × T)) (c : Value F), (c = .null ∨ ∃ ms, c = .obj ms) →
    (∀ x ∈ xs, outcome (convert d E (obj x.2)) = C.toValue x.2) →
    outcome (convertMembers d E left c (xs.map fun x => (x.1, obj x.2))) = Conv.toMembers C xs c
  | [], c, _, _ => rfl
  | (k, x) :: xs, c, hc, h => by
    have hx := h (k, x) (by simp)
    unfold Conv.toMembers
    simp only [List.map_cons, convertMembers]
    rw [← hx]
    cases convert d E (obj x) with
    | error e => obtain ⟨e, n⟩ := e; rfl
    | ok v =>
      have ih := tree_map left xs (.obj (setMember k v (membersOf c))) (.inr ⟨_, rfl⟩) fun y hy => h y (by simp [hy])
      show _ = (match withKey k (assign v) c with | (.ok _, c) => _ | (.error e, _) => _)
      rw [withKey_set hc]
      exact ih

theorem tree_bind {d : Order} {E : Env F} (left : Bool) (s : S) {obj : Field F S → Obj F} : ∀ (fs : List (Field F S)) (c : Value F), (c = .null ∨ ∃ ms, c = .obj ms) →
    (∀ f ∈ fs, outcome (convert d E (obj f)) = f.conv.toValue (f.get s)) →
    outcome (convertMembers d E left c ((fs.filter fun f => !(f.optional && f.isZero (f.get s))).map fun f => (f.name, obj f))) = Configor.writeAll s fs c
  | [], c, _, _ => rfl
  | f :: fs, c, hc, h => by
    have hx := h f (by simp)
    unfold Configor.writeAll
    simp only [Field.write]
    by_cases ho : (f.optional && f.isZero (f.get s)) = true
    · rw [List.filter_cons_of_neg (by simp [ho]), if_pos ho]
      exact tree_bind left s fs c hc fun g hg => h g (by simp [hg])
    · rw [List.filter_cons_of_pos (by rw [Bool.not_eq_true] at ho; simp only [ho, Bool.not_false]), if_neg ho]
      simp only [List.map_cons, convertMembers]
      rw [← hx]
      cases convert d E (obj f) with
      | error e => obtain ⟨e, n⟩ := e; rfl
      | ok v =>
        have ih := tree_bind left s fs (.obj (setMember f.name v (membersOf c))) (.inr ⟨_, rfl⟩) fun y hy => h y (by simp [hy])
        show _ = ((match withKey f.name (assign v) c with | (.ok _, c) => Except.ok c | (.error e, _) => .error e) >>= fun c => Configor.writeAll s fs c)
        rw [withKey_set hc]
        exact ih

/-! ## The order of evaluation -/

mutual

theorem convert_order (d d' : Order) (E : Env F) (o : Obj F) : outcome (convert d E o) = outcome (convert d' E o) := by
  match o with
  | .null | .bool _ | .int _ | .flt _ | .str _ | .value _ _ | .throws _ => simp [convert]
  | .ptr o => simp only [convert]; exact convert_order d d' E o
  | .seq os => simp only [convert]; exact convertAll_order d d' E [] os
  | .map ms => simp only [convert]; exact convertMembers_order d d' E _ _ _ ms
  | .bound ms => simp only [convert]; exact convertMembers_order d d' E _ _ _ ms

theorem convertAll_order (d d' : Order) (E : Env F) (done : List (Value F)) (os : List (Obj F)) :
    outcome (convertAll d E done os) = outcome (convertAll d' E done os) := by
  match os with
  | [] => rfl
  | o :: os =>
    have h := convert_order d d' E o
    simp only [convertAll]
    cases h1 : convert d E o with
    | ok v =>
      rw [h1] at h
      rw [tree_ok.1 h.symm]
      exact convertAll_order d d' E _ os
    | error x =>
      obtain ⟨e, n⟩ := x
      rw [h1] at h
      cases h2 : convert d' E o with
      | ok v => rw [h2] at h; cases h
      | error y => rw [h2] at h; simp only [outcome] at h ⊢; exact h

theorem convertMembers_order (d d' : Order) (E : Env F) (left left' : Bool) (c : Value F) (ms : List (List Nat × Obj F)) :
    outcome (convertMembers d E left c ms) = outcome (convertMembers d' E left' c ms) := by
  match ms with
  | [] => rfl
  | (k, o) :: ms =>
    have h := convert_order d d' E o
    simp only [convertMembers]
    cases h1 : convert d E o with
    | ok v =>
      rw [h1] at h
      rw [tree_ok.1 h.symm]
      exact convertMembers_order d d' E _ _ _ ms
    | error x =>
      obtain ⟨e, n⟩ := x
      rw [h1] at h
      cases h2 : convert d' E o with
      | ok v => rw [h2] at h; cases h
      | error y => rw [h2] at h; simp only [outcome] at h ⊢; exact h

end

end Spec
