import Verif.Proofs.HeapRun
/-!
# Histories
-/
namespace Spec
open Configor

variable {F : Type}

theorem Holds.shows {s : State F} {E : Env F} {L : Nat → Prop} (h : Holds s E L) : Shows s E := by
  obtain ⟨fp, h, _⟩ := h
  intro x
  have := h.stands (.user x)
  simp only [Env.all] at this
  cases h1 : s.vars (.user x) <;> cases h2 : E x <;> rw [h1, h2] at this <;> simp only
  · exact this
  · exact this
  · obtain ⟨n, hn⟩ := this
    exact ⟨n, _, hn⟩

/-- What is in memory determines the contents of the variables. -/
theorem Shows.unique {s : State F} {E E' : Env F} (h : Shows s E) (h' : Shows s E') : E = E' := by
  funext x
  have h1 := h x
  have h2 := h' x
  cases h3 : s.vars (.user x) <;> cases h4 : E x <;> cases h5 : E' x <;> rw [h3, h4] at h1 <;> rw [h3, h5] at h2 <;>
    simp only at h1 h2
  obtain ⟨n, fp, h1⟩ := h1
  obtain ⟨n', fp', h2⟩ := h2
  rw [(h1.unique h2).1]

theorem start_holds (plan : Nat → Bool) : Holds (start plan : State F) (fun _ => none) nothing := by
  refine ⟨fun _ => [], ⟨?_, by simp, by simp, by simp [start]⟩, ?_⟩
  · intro x
    cases x <;> simp [start, Env.all, Stands]
  · intro a
    simp [nothing, start]

theorem run_unique {A : Type} {m : M (State F) A} {s : State F} {r r' s1 s2} (h : m s = (r, s1)) (h' : m s = (r', s2)) : r = r' ∧ s1 = s2 := by
  rw [h] at h'
  injection h' with h1 h2
  exact ⟨h1, h2⟩

/-- What is true in every state that can be reached. -/
theorem Reach.holds {fo : FloatOps F} {s : State F} (h : Reach fo s) :
    ∃ E L, Holds s E L ∧ (∀ a, L a → s.heap.mem a = some .raw) ∧
      ((∃ a, L a) → ∃ t, t < s.heap.tick ∧ s.heap.plan t = false) := by
  induction h with
  | start plan => exact ⟨_, nothing, start_holds plan, fun _ h => h.elim, fun ⟨_, h⟩ => h.elim⟩
  | @step s s' E c r _ hE hc hr ih =>
    obtain ⟨E', L, h1, h2, h3⟩ := ih
    have := hE.unique h1.shows
    subst this
    rcases c.correct fo h1 hc with ⟨s1, e, k1, k2, k3, k4, k5⟩ | ⟨s1, E1, L1, e, k1, k2, k3, k4, k5, k6⟩
    · obtain ⟨rfl, rfl⟩ := run_unique hr e
      refine ⟨_, L, k1, fun a ha => k5 a ha (h2 a ha), ?_⟩
      intro ha
      obtain ⟨t, t1, t2⟩ := h3 ha
      exact ⟨t, by omega, by rw [k2]; exact t2⟩
    · obtain ⟨rfl, rfl⟩ := run_unique hr e
      refine ⟨_, L1, k1, ?_, ?_⟩
      · intro a ha
        rcases k4 a ha with h | h
        · exact (k3 a h).2 (h2 a h)
        · exact h
      · intro _
        obtain ⟨t, t1, t2, t3⟩ := k6
        exact ⟨t, t2, by rw [k5]; exact t3⟩

/-- From a state that can be reached: a command is done, or an allocation fails. -/
theorem Reach.run {fo : FloatOps F} {s : State F} (h : Reach fo s) {E : Env F} (hE : Shows s E) {c : Cmd F} (hc : c.Allowed E) :
    (∃ s', c.run fo s = (.ok (), s') ∧ Shows s' (c.meaning fo E) ∧ ∀ t, s.heap.tick ≤ t → t < s'.heap.tick → s.heap.plan t = true) ∨
    (∃ s' E', c.run fo s = (.error (.exn .badAlloc), s') ∧ Shows s' E' ∧ (E' = E ∨ E' = c.begun E) ∧
      ∃ t, s.heap.tick ≤ t ∧ t < s'.heap.tick ∧ s.heap.plan t = false) := by
  obtain ⟨E0, L, h1, h2, _⟩ := h.holds
  have := hE.unique h1.shows
  subst this
  rcases c.correct fo h1 hc with ⟨s1, e, k1, k2, k3, k4, k5⟩ | ⟨s1, E1, L1, e, k1, k2, k3, k4, k5, k6⟩
  · exact .inl ⟨s1, e, k1.shows, k4⟩
  · exact .inr ⟨s1, E1, e, k1.shows, k2, k6⟩

theorem Env.put_other (E : Env F) (r : Ref) (o : Option (Value F)) {x : Nat} (h : x ≠ r.var) : E.put r o x = E x := by
  cases o with
  | none => rfl
  | some w => simp only [Env.put, Env.set, if_neg h]

theorem Env.set_other (E : Env F) (r : Ref) (w : Value F) {x : Nat} (h : x ≠ r.var) : E.set r w x = E x := by
  simp only [Env.set, if_neg h]

theorem Env.bind_other (E : Env F) (y : Nat) (o : Option (Value F)) {x : Nat} (h : x ≠ y) : E.bind y o x = E x := by
  simp only [Env.bind, if_neg h]

/-- Commands do not change variables they do not name. -/
theorem Cmd.begun_other (c : Cmd F) (E : Env F) {x : Nat} (h : x ∉ c.targets) : c.begun E x = E x := by
  cases c <;> simp only [Cmd.targets, Cmd.vars, List.mem_cons, List.not_mem_nil, or_false, not_or] at h <;> simp only [Cmd.begun]
  · exact Env.put_other _ _ _ h
  · exact Env.put_other _ _ _ h.1
  · exact Env.put_other _ _ _ h
  · exact Env.put_other _ _ _ h

theorem Cmd.meaning_other (fo : FloatOps F) (c : Cmd F) (E : Env F) {x : Nat} (h : x ∉ c.targets) : c.meaning fo E x = E x := by
  have hb := c.begun_other E h
  cases c <;> simp only [Cmd.targets, Cmd.vars, List.mem_cons, List.not_mem_nil, or_false, not_or] at h <;> simp only [Cmd.meaning]
  · exact Env.bind_other _ _ _ h
  · exact Env.bind_other _ _ _ h
  · rw [Env.bind_other _ _ _ h.1, Env.set_other _ _ _ h.2]
  · exact Env.bind_other _ _ _ h
  · exact Env.put_other _ _ _ h
  · split
    · rfl
    · rw [Env.put_other _ _ _ h.1, Env.set_other _ _ _ h.2]
  · rw [Env.put_other _ _ _ h.2, Env.put_other _ _ _ h.1]
  · exact Env.put_other _ _ _ h
  · rw [Env.put_other _ _ _ h, hb]
  · rw [Env.put_other _ _ _ h.1, Env.set_other _ _ _ h.2, hb]
  · rw [Env.put_other _ _ _ h, hb]
  · rw [Env.put_other _ _ _ h, hb]
  · exact Env.put_other _ _ _ h

theorem Without.reach {fo : FloatOps F} {x : Nat} {s s' : State F} (h : Without fo x s s') (hs : Reach fo s) : Reach fo s' := by
  induction h with
  | refl => exact hs
  | step _ hE hc _ hr ih => exact .step ih hE hc hr

theorem Reach.shows {fo : FloatOps F} {s : State F} (h : Reach fo s) : ∃ E, Shows s E := by
  obtain ⟨E, L, h1, _⟩ := h.holds
  exact ⟨E, h1.shows⟩

theorem Without.same {fo : FloatOps F} {x : Nat} {s s' : State F} (h : Without fo x s s') (hs : Reach fo s) {E E' : Env F} (hE : Shows s E)
    (hE' : Shows s' E') : E' x = E x := by
  induction h generalizing E' with
  | refl => rw [hE'.unique hE]
  | @step s1 s2 E1 c r hw hE1 hc hx hr ih =>
    have h1 := ih hE1
    rcases (hw.reach hs).run hE1 hc with ⟨s3, e, k1, _⟩ | ⟨s3, E3, e, k1, k2, _⟩
    · obtain ⟨rfl, rfl⟩ := run_unique hr e
      rw [hE'.unique k1, c.meaning_other fo E1 hx, h1]
    · obtain ⟨rfl, rfl⟩ := run_unique hr e
      rw [hE'.unique k1]
      rcases k2 with rfl | rfl
      · exact h1
      · rw [c.begun_other E1 hx, h1]

/-! ## Programs that do not fail -/

/-- Without failing allocations a program ends in the contents it means. -/
theorem program (fo : FloatOps F) : ∀ (cs : List (Cmd F)) {s : State F} {E : Env F}, Reach fo s → (∀ t, s.heap.plan t = true) → Shows s E →
    ProgramAllowed fo E cs → ∃ s', Reach fo s' ∧ (∀ t, s'.heap.plan t = true) ∧ Shows s' (cs.foldl (fun E c => c.meaning fo E) E) := by
  intro cs
  induction cs with
  | nil => intro s E h hp hE _; exact ⟨s, h, hp, hE⟩
  | cons c cs ih =>
    intro s E h hp hE ⟨h1, h2⟩
    obtain ⟨E0, L, k1, _⟩ := h.holds
    have := hE.unique k1.shows
    subst this
    rcases c.correct fo k1 h1 with ⟨s1, e, k2, k3, _⟩ | ⟨s1, E1, L1, e, _, _, _, _, _, t, _, _, k6⟩
    · exact ih (.step h hE h1 e) (by rw [k3]; exact hp) k2.shows h2
    · rw [hp t] at k6; cases k6

theorem program_start (fo : FloatOps F) (cs : List (Cmd F)) (h : ProgramAllowed fo (fun _ => none) cs) :
    ∃ s, Reach fo s ∧ (∀ t, s.heap.plan t = true) ∧ Shows s (cs.foldl (fun E c => c.meaning fo E) fun _ => none) :=
  program fo cs (.start fun _ => true) (fun _ => rfl) (start_holds _).shows h

end Spec
