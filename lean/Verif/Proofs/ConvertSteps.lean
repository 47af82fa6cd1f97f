import Verif.Proofs.ConvertHeap
set_option autoImplicit false
/-!
# Conversions in memory: assignments of parts
-/
namespace Spec
open Configor

variable {F : Type}

theorem cmd_cases (fo : FloatOps F) (c : Cmd F) {s : State F} {E : Env F} {L : Nat → Prop} (hs : Holds s E L) (hc : c.Allowed E) :
    (∃ s', c.run fo s = (.ok (), s') ∧ Holds s' (c.meaning fo E) L ∧ Later s s' ∧ NoFailure s s') ∨
    (∃ s' E' L', c.run fo s = (.error (.exn .badAlloc), s') ∧ Holds s' E' L' ∧ (E' = E ∨ E' = c.begun E) ∧ (∀ a, L a → L' a) ∧ Later s s' ∧
      ¬ NoFailure s s') := by
  rcases Cmd.correct fo c hs hc with ⟨s', h1, h2, h3, h4, h5, _⟩ | ⟨s', E', L', h1, h2, h3, h4, _, h6, t, t1, t2, t3⟩
  · exact .inl ⟨s', h1, h2, ⟨h3, h4⟩, h5⟩
  · refine .inr ⟨s', E', L', h1, h2, h3, fun a ha => (h4 a ha).1, ⟨h6, by omega⟩, fun h => ?_⟩
    have := h t t1 t2
    rw [t3] at this
    cases this

theorem cmd_still (fo : FloatOps F) (c : Cmd F) {s : State F} {E : Env F} {L : Nat → Prop} (hs : Holds s E L) (hc : c.Allowed E)
    (hn : c.AllocatesNothing) : ∃ s', c.run fo s = (.ok (), s') ∧ Holds s' (c.meaning fo E) L ∧ Later s s' ∧ NoFailure s s' := by
  rcases cmd_cases fo c hs hc with h | ⟨s', E', L', h1, _, _, _, _, h6⟩
  · exact h
  · have := Cmd.still fo c hn s
    rw [h1] at this
    simp only at this
    exact (h6 fun t t1 t2 => by omega).elim

/-- How a call on variable `k` ends: with what `res` says; or by an exception, with anything in the variable. The blocks lost and
those of the variable are then as many as `res` says, unless an allocation has failed. -/
def Conv' (k : Nat) (m : M (State F) Unit) (s : State F) (E : Env F) (L : Nat → Prop) (res : Except (Err × Nat) (Value F)) : Prop :=
  (∃ s' v, m s = (.ok (), s') ∧ res = .ok v ∧ Holds s' (E.bind k (some v)) L ∧ Later s s' ∧ NoFailure s s') ∨
  (∃ s' e w L', m s = (.error (.exn e), s') ∧ Holds s' (E.bind k w) L' ∧ Later s s' ∧
    ((NoFailure s s' ∧ ∃ n u, w = some u ∧ MoreBy n L L' ∧ res = .error (e, n + blocks u)) ∨
     (¬ NoFailure s s' ∧ e = .badAlloc ∧ ∀ a, L a → L' a)))

/-- How the construction of variable `t` ends. -/
def Made (t : Nat) (m : M (State F) Unit) (s : State F) (E : Env F) (L : Nat → Prop) (res : Except (Err × Nat) (Value F)) : Prop :=
  (∃ s' v, m s = (.ok (), s') ∧ res = .ok v ∧ Holds s' (E.bind t (some v)) L ∧ Later s s' ∧ NoFailure s s') ∨
  (∃ s' e L', m s = (.error (.exn e), s') ∧ Holds s' E L' ∧ Later s s' ∧
    ((NoFailure s s' ∧ ∃ n, MoreBy n L L' ∧ res = .error (e, n)) ∨ (¬ NoFailure s s' ∧ e = .badAlloc ∧ ∀ a, L a → L' a)))

theorem Conv'.bind {k : Nat} {m m' : M (State F) Unit} {s : State F} {E : Env F} {L : Nat → Prop} {res res'}
    (h : Conv' k m s E L res)
    (h' : ∀ s1 v, res = .ok v → Holds s1 (E.bind k (some v)) L → Conv' k m' s1 (E.bind k (some v)) L res')
    (he : ∀ e, res = .error e → res' = .error e) : Conv' k (m >>= fun _ => m') s E L res' := by
  rcases h with ⟨s1, v, h1, h2, h3, h4, h5⟩ | ⟨s1, e, w, L', h1, h2, h3, h4⟩
  · rcases h' s1 v h2 h3 with ⟨s2, v', k1, k2, k3, k4, k5⟩ | ⟨s2, e, w, L', k1, k2, k3, k4⟩
    · refine .inl ⟨s2, v', ?_, k2, ?_, h4.trans k4, (noFailure_trans h4 k4).2 ⟨h5, k5⟩⟩
      · rw [M.bind_ok h1, k1]
      · rw [bind_bind] at k3; exact k3
    · refine .inr ⟨s2, e, w, L', ?_, ?_, h4.trans k3, ?_⟩
      · rw [M.bind_ok h1, k1]
      · rw [bind_bind] at k2; exact k2
      · rcases k4 with ⟨k5, k6⟩ | ⟨k5, k6⟩
        · exact .inl ⟨(noFailure_trans h4 k3).2 ⟨h5, k5⟩, k6⟩
        · exact .inr ⟨fun h => k5 ((noFailure_trans h4 k3).1 h).2, k6⟩
  · refine .inr ⟨s1, e, w, L', ?_, h2, h3, ?_⟩
    · rw [M.bind_error h1]
    · rcases h4 with ⟨h5, n, u, h6, h7, h8⟩ | h5
      · exact .inl ⟨h5, n, u, h6, h7, he _ h8⟩
      · exact .inr h5

/-- The converting constructor. -/
theorem Conv'.made {t : Nat} {m : M (State F) Unit} {s : State F} {E : Env F} {L : Nat → Prop} {res} (fo : FloatOps F) (hs : Holds s E L) (ht : E t = none)
    (h : ∀ s1, Holds s1 (E.bind t (some .null)) L → Conv' t m s1 (E.bind t (some .null)) L res) : Made t (State.making (.user t) m) s E L res := by
  obtain ⟨s1, h1, h2, h3, h4⟩ : ∃ s1, State.declare (.user t) .null s = (.ok (), s1) ∧ Holds s1 (E.bind t (some .null)) L ∧ Later s s1 ∧ NoFailure s s1 := by
    rcases cmd_cases fo (.new t .null) hs ⟨ht, rfl⟩ with ⟨s1, h1, h2, h3⟩ | ⟨s1, E', L', h1, _⟩
    · exact ⟨s1, h1, h2, h3⟩
    · simp [Cmd.run, State.construct, State.declare] at h1
  rcases h s1 h2 with ⟨s2, v, k1, k2, k3, k4, k5⟩ | ⟨s2, e, w, L', k1, k2, k3, k4⟩
  · refine .inl ⟨s2, v, ?_, k2, ?_, h3.trans k4, (noFailure_trans h3 k4).2 ⟨h4, k5⟩⟩
    · simp only [State.making]
      rw [M.bind_ok h1]
      simp only [State.abandoning, k1]
    · rw [bind_bind] at k3; exact k3
  · obtain ⟨s3, L3, j1, j2, j3, j4⟩ := forget_holds (k := t) k2
    rw [bind_bind, bind_bind, bind_same ht] at j3
    rw [bind_at] at j4
    have l3 : Later s2 s3 := ⟨by rw [j2], by rw [j2]; exact Nat.le_refl _⟩
    have nf : NoFailure s s3 ↔ NoFailure s1 s2 := by
      rw [noFailure_trans (h3.trans k3) l3, noFailure_trans h3 k3]
      exact ⟨fun h => h.1.2, fun h => ⟨⟨h4, h⟩, fun t1 t2 t3 => by rw [j2] at t3; omega⟩⟩
    refine .inr ⟨s3, e, L3, ?_, j3, (h3.trans k3).trans l3, ?_⟩
    · simp only [State.making]
      rw [M.bind_ok h1]
      simp only [State.abandoning, k1, j1]
    · rw [nf]
      rcases k4 with ⟨k5, n, u, rfl, k6, k7⟩ | ⟨k5, k6, k7⟩
      · exact .inl ⟨k5, _, k6.trans j4, k7⟩
      · exact .inr ⟨k5, k6, fun a ha => j4.sub (k7 a ha)⟩

theorem bind_congr_at {A B : Type} {m m' : M (State F) A} {f : A → M (State F) B} {s : State F} (h : m s = m' s) : (m >>= f) s = (m' >>= f) s := by
  simp only [M.bind_def, h]

theorem bind_set {E : Env F} {k : Nat} {tv : Value F} (h : E k = some tv) (p : List Nat) (v : Value F) :
    E.set ⟨k, p⟩ v = E.bind k (some (replace tv p v)) := by
  funext x
  simp only [Env.set, Env.bind]
  split
  · next e => rw [e, h]; rfl
  · rfl

/-- A temporary is moved into place. -/
theorem moveFrom_holds (fo : FloatOps F) {s : State F} {E : Env F} {L : Nat → Prop} (hs : Holds s E L) {t k : Nat} {v tv : Value F} (hkt : k ≠ t)
    (ht : E t = some v) (hk : E k = some tv) {p : List Nat} (hp : part tv p ≠ none) {dst : M (State F) Loc}
    (hd : dst s = State.ref (.user k) p s) :
    ∃ s', State.moveFrom dst t s = (.ok (), s') ∧ Holds s' ((E.bind k (some (replace tv p v))).bind t none) L ∧ Later s s' ∧ NoFailure s s' := by
  have hne : (⟨k, p⟩ : Ref) ≠ ⟨t, []⟩ := fun e => hkt (congrArg Ref.var e)
  obtain ⟨s1, h1, h2, h3, h4⟩ := cmd_still fo (.moveAssign ⟨k, p⟩ ⟨t, []⟩) hs
    ⟨by simpa [Env.get, hk] using hp, by simp [Env.get, ht, part], fun h => hkt h.1⟩ trivial
  have e1 : Cmd.meaning fo (.moveAssign ⟨k, p⟩ ⟨t, []⟩) E = (E.bind t (some .null)).bind k (some (replace tv p v)) := by
    simp only [Cmd.meaning, if_neg hne]
    have : E.get ⟨t, []⟩ = some v := by simp [Env.get, ht, part]
    rw [this]
    simp only [Env.put]
    rw [bind_set (tv := v) ht, replace, bind_set (tv := tv) (by rw [bind_ne _ hkt, hk])]
  rw [e1] at h2
  obtain ⟨s2, k1, k2, k3, k4⟩ := cmd_still fo (.delete t) h2 (by simp only [Cmd.Allowed]; rw [bind_ne _ (Ne.symm hkt), bind_at]; simp) trivial
  have e2 : Cmd.meaning fo (.delete t) ((E.bind t (some .null)).bind k (some (replace tv p v))) = (E.bind k (some (replace tv p v))).bind t none := by
    simp only [Cmd.meaning]
    rw [← bind_comm hkt, bind_bind]
  rw [e2] at k2
  refine ⟨s2, ?_, k2, h3.trans k3, (noFailure_trans h3 k3).2 ⟨h4, k4⟩⟩
  simp only [Cmd.run] at h1 k1
  rw [← bind_congr_at hd] at h1
  simp only [State.moveFrom]
  have e3 : (dst >>= fun a => State.ref (.user t) [] >>= fun b => State.moveAssign a b >>= fun _ => State.destruct (.user t)) =
      ((dst >>= fun a => State.ref (.user t) [] >>= fun b => State.moveAssign a b) >>= fun _ => State.destruct (.user t)) := by
    funext st
    simp only [M.bind_def]
    rcases dst st with ⟨_ | a, st1⟩
    · rfl
    · simp only
      rcases State.ref (.user t) [] st1 with ⟨_ | b, st2⟩ <;> rfl
  rw [e3, M.bind_ok h1, k1]

/-- What a part is assigned. -/
def placed (tv : Value F) (p : List Nat) (n : Nat) : Except (Err × Nat) (Value F) → Except (Err × Nat) (Value F)
  | .ok v => .ok (replace tv p v)
  | .error (e, m) => .error (e, m + n)

theorem settle {E : Env F} {k : Nat} (ht : E (k + 1) = none) (a b c : Option (Value F)) :
    (((E.bind k a).bind (k + 1) b).bind k c).bind (k + 1) none = E.bind k c := by
  funext x
  simp only [Env.bind]
  by_cases h1 : x = k + 1
  · subst h1; simp [ht]
  · by_cases h2 : x = k <;> simp [h1, h2]

theorem settle' {E : Env F} {k : Nat} (ht : E (k + 1) = none) (a b c : Option (Value F)) :
    (((E.bind (k + 1) b).bind k a).bind k c).bind (k + 1) none = E.bind k c := by
  funext x
  simp only [Env.bind]
  by_cases h1 : x = k + 1
  · subst h1; simp [ht]
  · by_cases h2 : x = k <;> simp [h1, h2]

/-- `c[i] = o` for objects that are not values. -/
theorem assignPart_conv (fo : FloatOps F) (left : Bool) {s : State F} {E : Env F} {L : Nat → Prop} (hs : Holds s E L) {k : Nat} {c bv tv : Value F} (hk : E k = some c)
    (ht : E (k + 1) = none) {tc : Cmd F} (hA : ∀ E1 : Env F, E1 k = some c → tc.Allowed E1)
    (hM : ∀ E1 : Env F, E1 k = some c → tc.meaning fo E1 = E1.bind k (some tv))
    (hB : ∀ E1 : Env F, E1 k = some c → tc.begun E1 = E1.bind k (some bv)) {p : List Nat} (hp : part tv p ≠ none) {dst : M (State F) Loc}
    (hd : ∀ s1 E1 L1, Holds s1 E1 L1 → E1 k = some tv → dst s1 = State.ref (.user k) p s1) {o : Obj F} (ho : ∀ x q, o ≠ .value x q)
    {m : M (State F) Unit} {res}
    (hm : ∀ s1 w, Holds s1 (E.bind k (some w)) L → Made (k + 1) (State.making (.user (k + 1)) m) s1 (E.bind k (some w)) L res) :
    Conv' k (State.assignPart left (tc.run fo) dst (k + 1) o m) s E L (placed tv p (blocks (if left then tv else c)) res) := by
  have hkt : k ≠ k + 1 := by omega
  cases left with
  | true =>
    have e : State.assignPart true (tc.run fo) dst (k + 1) o m = (tc.run fo >>= fun _ => State.making (.user (k + 1)) m >>= fun _ => State.moveFrom dst (k + 1)) := by
      cases o <;> first | rfl | exact absurd rfl (ho _ _)
    rw [e]
    rcases cmd_cases fo tc hs (hA E hk) with ⟨s1, h1, h2, h3, h4⟩ | ⟨s1, E1, L1, h1, h2, h3, h4, h5, h6⟩
    · rw [hM E hk] at h2
      rcases hm s1 tv h2 with ⟨s2, v, k1, k2, k3, k4, k5⟩ | ⟨s2, e, L', k1, k2, k3, k4⟩
      · have hk' : ((E.bind k (some tv)).bind (k + 1) (some v)) k = some tv := by rw [bind_ne _ hkt, bind_at]
        obtain ⟨s3, j1, j2, j3, j4⟩ := moveFrom_holds fo k3 hkt (bind_at _ _ _) hk' hp (hd s2 _ _ k3 hk')
        refine .inl ⟨s3, _, ?_, by rw [k2]; rfl, ?_, (h3.trans k4).trans j3,
          (noFailure_trans (h3.trans k4) j3).2 ⟨(noFailure_trans h3 k4).2 ⟨h4, k5⟩, j4⟩⟩
        · rw [M.bind_ok h1, M.bind_ok k1, j1]
        · rw [settle ht] at j2; exact j2
      · refine .inr ⟨s2, e, some tv, L', ?_, k2, h3.trans k3, ?_⟩
        · rw [M.bind_ok h1, M.bind_error k1]
        · rcases k4 with ⟨k5, n, k6, k7⟩ | ⟨k5, k6⟩
          · exact .inl ⟨(noFailure_trans h3 k3).2 ⟨h4, k5⟩, n, _, rfl, k6, by rw [k7]; rfl⟩
          · exact .inr ⟨fun h => k5 ((noFailure_trans h3 k3).1 h).2, k6⟩
    · obtain ⟨w, hw⟩ : ∃ w, E1 = E.bind k w := by
        rcases h3 with rfl | rfl
        · exact ⟨some c, (bind_same hk).symm⟩
        · exact ⟨_, hB E hk⟩
      subst hw
      refine .inr ⟨s1, .badAlloc, w, L1, ?_, h2, h5, .inr ⟨h6, rfl, h4⟩⟩
      rw [M.bind_error h1]
  | false =>
    have e : State.assignPart false (tc.run fo) dst (k + 1) o m =
        (State.making (.user (k + 1)) m >>= fun _ => State.leavingTemp (.user (k + 1)) (tc.run fo) >>= fun _ => State.moveFrom dst (k + 1)) := by
      cases o <;> first | rfl | exact absurd rfl (ho _ _)
    rw [e]
    have hE : E.bind k (some c) = E := bind_same hk
    have hm0 := hm s c (by rw [hE]; exact hs)
    rw [hE] at hm0
    rcases hm0 with ⟨s1, v, h1, h2, h3, h4, h5⟩ | ⟨s1, e, L', k1, k2, k3, k4⟩
    · have hk1 : (E.bind (k + 1) (some v)) k = some c := by rw [bind_ne _ hkt, hk]
      rcases cmd_cases fo tc h3 (hA _ hk1) with ⟨s2, k1, k2, k3, k4⟩ | ⟨s2, E1, L1, k1, k2, k3, k4, k5, k6⟩
      · rw [hM _ hk1] at k2
        have hk2 : ((E.bind (k + 1) (some v)).bind k (some tv)) k = some tv := bind_at _ _ _
        obtain ⟨s3, j1, j2, j3, j4⟩ := moveFrom_holds fo k2 hkt (by rw [bind_ne _ (Ne.symm hkt), bind_at]) hk2 hp (hd s2 _ _ k2 hk2)
        refine .inl ⟨s3, _, ?_, by rw [h2]; rfl, ?_, (h4.trans k3).trans j3,
          (noFailure_trans (h4.trans k3) j3).2 ⟨(noFailure_trans h4 k3).2 ⟨h5, k4⟩, j4⟩⟩
        · have : State.leavingTemp (.user (k + 1)) (tc.run fo) s1 = (.ok (), s2) := by simp only [State.leavingTemp, k1]
          rw [M.bind_ok h1, M.bind_ok this, j1]
        · rw [settle' ht] at j2; exact j2
      · obtain ⟨w, hw⟩ : ∃ w, E1 = (E.bind k w).bind (k + 1) (some v) := by
          rcases k3 with rfl | rfl
          · exact ⟨some c, by rw [hE]⟩
          · exact ⟨some bv, by rw [hB _ hk1, bind_comm hkt]⟩
        subst hw
        obtain ⟨s3, j1, j2, j3, j4⟩ := cmd_still fo (.delete (k + 1)) k2 (by simp only [Cmd.Allowed]; rw [bind_at]; simp) trivial
        refine .inr ⟨s3, .badAlloc, w, L1, ?_, ?_, (h4.trans k5).trans j3, .inr ⟨?_, rfl, k4⟩⟩
        · have : State.leavingTemp (.user (k + 1)) (tc.run fo) s1 = (.error (.exn .badAlloc), s3) := by
            have j1' : State.destruct (.user (k + 1)) s2 = (.ok (), s3) := j1
            simp only [State.leavingTemp, k1, j1']
          rw [M.bind_ok h1, M.bind_error this]
        · simp only [Cmd.meaning] at j2
          rw [bind_bind, bind_same] at j2
          · exact j2
          · rw [bind_ne _ (Ne.symm hkt), ht]
        · intro h
          exact k6 ((noFailure_trans h4 k5).1 ((noFailure_trans (h4.trans k5) j3).1 h).1).2
    · refine .inr ⟨s1, e, some c, L', ?_, by rw [hE]; exact k2, k3, ?_⟩
      · rw [M.bind_error k1]
      · rcases k4 with ⟨k5, n, k6, k7⟩ | ⟨k5, k6⟩
        · exact .inl ⟨k5, n, _, rfl, k6, by rw [k7]; rfl⟩
        · exact .inr ⟨k5, k6⟩

/-- `c[i] = v` for a value. -/
theorem assignPart_value (fo : FloatOps F) (left : Bool) {s : State F} {E : Env F} {L : Nat → Prop} (hs : Holds s E L) {k : Nat} {c bv tv : Value F} (hk : E k = some c)
    {tc : Cmd F} (hA : ∀ E1 : Env F, E1 k = some c → tc.Allowed E1)
    (hM : ∀ E1 : Env F, E1 k = some c → tc.meaning fo E1 = E1.bind k (some tv))
    (hB : ∀ E1 : Env F, E1 k = some c → tc.begun E1 = E1.bind k (some bv)) {p : List Nat} (hp : part tv p ≠ none) {dst : M (State F) Loc}
    (hd : ∀ s1 E1 L1, Holds s1 E1 L1 → E1 k = some tv → dst s1 = State.ref (.user k) p s1) {x : Nat} {q : List Nat} {v : Value F} (hx : x ≠ k)
    (hv : E.get ⟨x, q⟩ = some v) (t : Nat) (m : M (State F) Unit) (n : Nat) :
    Conv' k (State.assignPart left (tc.run fo) dst t (.value x q) m) s E L (placed tv p n (.ok v)) := by
  have e : State.assignPart left (tc.run fo) dst t (.value x q) m = (tc.run fo >>= fun _ => dst >>= fun a => State.ref (.user x) q >>= fun b => State.copyAssign a b) := rfl
  rw [e]
  rcases cmd_cases fo tc hs (hA E hk) with ⟨s1, h1, h2, h3, h4⟩ | ⟨s1, E1, L1, h1, h2, h3, h4, h5, h6⟩
  · rw [hM E hk] at h2
    have hv1 : (E.bind k (some tv)).get ⟨x, q⟩ = some v := by
      simp only [Env.get] at hv ⊢
      rw [bind_ne _ hx]; exact hv
    have e2 : (dst >>= fun a => State.ref (.user x) q >>= fun b => State.copyAssign a b) s1 = (Cmd.copyAssign ⟨k, p⟩ ⟨x, q⟩).run fo s1 := by
      rw [bind_congr_at (hd s1 _ _ h2 (bind_at _ _ _))]; rfl
    rcases cmd_cases fo (.copyAssign ⟨k, p⟩ ⟨x, q⟩) h2 ⟨by simpa [Env.get, bind_at] using hp, by rw [hv1]; simp⟩ with
      ⟨s2, k1, k2, k3, k4⟩ | ⟨s2, E1, L1, k1, k2, k3, k4, k5, k6⟩
    · refine .inl ⟨s2, _, ?_, rfl, ?_, h3.trans k3, (noFailure_trans h3 k3).2 ⟨h4, k4⟩⟩
      · rw [M.bind_ok h1, e2, k1]
      · simp only [Cmd.meaning, hv1, Env.put] at k2
        rw [bind_set (bind_at _ _ _), bind_bind] at k2
        exact k2
    · have : E1 = E.bind k (some tv) := by rcases k3 with k3 | k3 <;> exact k3
      subst this
      refine .inr ⟨s2, .badAlloc, _, L1, ?_, k2, h3.trans k5, .inr ⟨fun h => k6 ((noFailure_trans h3 k5).1 h).2, rfl, k4⟩⟩
      rw [M.bind_ok h1, e2, k1]
  · obtain ⟨w, hw⟩ : ∃ w, E1 = E.bind k w := by
      rcases h3 with rfl | rfl
      · exact ⟨some c, (bind_same hk).symm⟩
      · exact ⟨_, hB E hk⟩
    subst hw
    refine .inr ⟨s1, .badAlloc, w, L1, ?_, h2, h5, .inr ⟨h6, rfl, h4⟩⟩
    rw [M.bind_error h1]

end Spec
