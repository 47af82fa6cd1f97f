import Verif.Proofs.Frame
/-!
# Commands and the part of the memory they need
-/
namespace Spec
open Configor

variable {F : Type}

theorem All3.left {A B : Type} {R : A → B → List Nat → Prop} {as bs cs} (h : All3 R as bs cs) {c : List Nat} (hc : c ∈ cs) :
    ∃ a ∈ as, ∃ b ∈ bs, R a b c := by
  induction h with
  | nil => cases hc
  | cons h _ ih =>
    rcases List.mem_cons.1 hc with rfl | hc
    · exact ⟨_, List.mem_cons_self, _, List.mem_cons_self, h⟩
    · obtain ⟨a, h1, b, h2, h3⟩ := ih hc
      exact ⟨a, List.mem_cons_of_mem _ h1, b, List.mem_cons_of_mem _ h2, h3⟩

theorem All3.right {A B : Type} {R : A → B → List Nat → Prop} {as bs cs} (h : All3 R as bs cs) {a : A} (ha : a ∈ as) :
    ∃ b, ∃ c ∈ cs, R a b c := by
  induction h with
  | nil => cases ha
  | cons h _ ih =>
    rcases List.mem_cons.1 ha with rfl | ha
    · exact ⟨_, _, List.mem_cons_self, h⟩
    · obtain ⟨b, c, h2, h3⟩ := ih ha
      exact ⟨b, c, List.mem_cons_of_mem _ h2, h3⟩

/-- The blocks a cell owns are those within it. -/
theorem Repr.within {mem : Nat → Option (Block F)} : ∀ {n : Nat} {c : Cell F} {v : Value F} {fp : List Nat}, Repr mem n c v fp →
    ∀ a, a ∈ fp → WithinCell mem c a := by
  have flat : ∀ {c : Cell F} {v : Value F} {fp : List Nat}, Flat mem c v fp → ∀ a, a ∈ fp → WithinCell mem c a := by
    intro c v fp h a ha
    cases c <;> cases v <;> simp only [Flat] at h
    · subst h; cases ha
    · rw [h.2] at ha; cases ha
    · rw [h.2] at ha; cases ha
    · rw [h.2] at ha; cases ha
    · rw [h.2] at ha
      rw [List.mem_singleton.1 ha]
      exact .here rfl
  intro n
  induction n with
  | zero => intro c v fp h; exact flat h
  | succ n ih =>
    intro c v fp h a ha
    rcases h with h | ⟨b, k, fps, h1, h2, h3, rfl⟩
    · exact flat h a ha
    · have hb : blockOf c = some b := by
        cases c <;> cases k <;> cases v <;> simp only [Node] at h2
        · rw [h2]; rfl
        · rw [h2.1]; rfl
      rcases List.mem_cons.1 ha with rfl | ha
      · exact .here hb
      · obtain ⟨z, hz, ha⟩ := List.mem_flatten.1 ha
        obtain ⟨d, hd, w, _, hr⟩ := h3.left hz
        exact .inside hb h1 hd (ih hr a ha)

theorem WithinCell.mem_of {mem : Nat → Option (Block F)} {c : Cell F} {a : Nat} (h : WithinCell mem c a) : ∀ {n : Nat} {v : Value F} {fp : List Nat},
    Repr mem n c v fp → a ∈ fp := by
  have flat : ∀ {c : Cell F} {v : Value F} {fp : List Nat} {b : Nat}, Flat mem c v fp → blockOf c = some b → fp = [b] ∧ ∃ s, mem b = some (.str s) := by
    intro c v fp b h hb
    cases c <;> cases v <;> simp only [Flat] at h <;> simp only [blockOf] at hb
    · cases hb
    · cases hb
    · cases hb
    · cases hb
    · injection hb with hb
      subst hb
      exact ⟨h.2, _, h.1⟩
  have node : ∀ {c : Cell F} {v : Value F} {k : Block F} {b b' : Nat}, Node b' c k v → blockOf c = some b → b = b' := by
    intro c v k b b' h hb
    cases c <;> cases k <;> cases v <;> simp only [Node] at h <;> simp only [blockOf] at hb <;> injection hb with hb <;> subst hb
    · exact h
    · exact h.1
  induction h with
  | here hb =>
    intro n v fp h
    cases n with
    | zero => rw [(flat h hb).1]; simp
    | succ n =>
      rcases h with h | ⟨b', k', fps, h1, h2, h3, rfl⟩
      · rw [(flat h hb).1]; simp
      · rw [node h2 hb]; simp
  | @inside c d a b k hb hk hd _ ih =>
    intro n v fp h
    have no : Flat mem c v fp → a ∈ fp := by
      intro h
      obtain ⟨_, s, hs⟩ := flat h hb
      rw [hk] at hs
      injection hs with hs
      subst hs
      cases hd
    cases n with
    | zero => exact no h
    | succ n =>
      rcases h with h | ⟨b', k', fps, h1, h2, h3, rfl⟩
      · exact no h
      · have := node h2 hb
        subst this
        rw [hk] at h1
        injection h1 with h1
        subst h1
        obtain ⟨w, z, hz, hr⟩ := h3.right hd
        exact List.mem_cons_of_mem _ (List.mem_flatten.2 ⟨z, hz, ih hr⟩)

theorem Owns.blocks {s : State F} {V : Var → Option (Value F)} {fp} (h : Owns s V fp) {xs : List Nat} {a : Nat} :
    BlockOfVars s xs a ↔ ∃ x ∈ xs, a ∈ fp (.user x) := by
  constructor
  · rintro ⟨x, hx, c, hc, hw⟩
    have := h.stands (.user x)
    rw [hc] at this
    cases e : V (.user x) with
    | none => rw [e] at this; exact this.elim
    | some v =>
      rw [e] at this
      obtain ⟨n, hn⟩ := this
      exact ⟨x, hx, hw.mem_of hn⟩
  · rintro ⟨x, hx, ha⟩
    have := h.stands (.user x)
    cases e : V (.user x) <;> cases e' : s.vars (.user x) <;> rw [e, e'] at this <;> simp only [Stands] at this
    · rw [this] at ha; cases ha
    · obtain ⟨n, hn⟩ := this
      exact ⟨x, hx, _, e', hn.within a ha⟩

/-- The contents of some of the variables. -/
def Env.only (E : Env F) (xs : List Nat) : Env F := fun x => if x ∈ xs then E x else none

/-- What is left after a cut. -/
theorem Only.holds {xs : List Nat} {s s0 : State F} (h0 : Only xs s s0) {E : Env F} {L} (h : Holds s E L) :
    ∃ L0, Holds s0 (E.only xs) L0 := by
  obtain ⟨fp, h, _⟩ := h
  refine ⟨_, fun y => match y with | .user x => if x ∈ xs then fp (.user x) else [] | _ => [], ⟨?_, ?_, ?_, ?_⟩, fun a => Iff.rfl⟩
  · intro y
    cases y with
    | user x =>
      simp only [Env.all, Env.only]
      by_cases hx : x ∈ xs
      · rw [if_pos hx, if_pos hx, h0.kept x hx]
        have := h.stands (.user x)
        simp only [Env.all] at this
        cases e : E x <;> cases e' : s.vars (.user x) <;> rw [e, e'] at this <;> simp only [Stands] at this ⊢
        · exact this
        · obtain ⟨n, hn⟩ := this
          exact ⟨n, hn.frame fun a ha => h0.keptBlock a (h.blocks.2 ⟨x, hx, ha⟩)⟩
      · rw [if_neg hx, if_neg hx, h0.gone x hx]; rfl
    | tmp => simp only [Env.all, h0.locals.1]; rfl
    | arg => simp only [Env.all, h0.locals.2.1]; rfl
    | ghost => simp only [Env.all, h0.locals.2.2]; rfl
  · intro y
    cases y with
    | user x => simp only; split; exact h.nodup _; exact List.nodup_nil
    | _ => exact List.nodup_nil
  · intro y z hyz a ha hz
    cases y with
    | user x =>
      cases z with
      | user x' =>
        simp only at ha hz
        split at ha
        · split at hz
          · exact h.disjoint _ _ hyz a ha hz
          · cases hz
        · cases ha
      | _ => cases hz
    | _ => cases ha
  · intro a ha
    by_cases hb : BlockOfVars s xs a
    · rw [h0.keptBlock a hb]; exact h.fresh a (by rw [h0.next] at ha; exact ha)
    · exact h0.goneBlock a hb

theorem Env.get_only {E : Env F} {xs : List Nat} {r : Ref} (h : r.var ∈ xs) : (E.only xs).get r = E.get r := by
  simp only [Env.get, Env.only, if_pos h]

theorem Env.only_mem {E : Env F} {xs : List Nat} {x : Nat} (h : x ∈ xs) : E.only xs x = E x := by
  simp only [Env.only, if_pos h]

/-- Whether a command is allowed depends on the variables it names. -/
theorem Cmd.allowed_congr {c : Cmd F} {E E' : Env F} (h : ∀ x ∈ c.vars, E' x = E x) (hc : c.Allowed E) : c.Allowed E' := by
  have g : ∀ r : Ref, r.var ∈ c.vars → E'.get r = E.get r := fun r hr => by simp only [Env.get, h _ hr]
  cases c with
  | new x v => exact ⟨by rw [h x (by simp [Cmd.vars])]; exact hc.1, hc.2⟩
  | copy x r => exact ⟨by rw [h x (by simp [Cmd.vars])]; exact hc.1, by rw [g r (by simp [Cmd.vars])]; exact hc.2⟩
  | move x r => exact ⟨by rw [h x (by simp [Cmd.vars])]; exact hc.1, by rw [g r (by simp [Cmd.vars])]; exact hc.2⟩
  | delete x => simp only [Cmd.Allowed] at hc ⊢; rw [h x (by simp [Cmd.vars])]; exact hc
  | copyAssign d r => exact ⟨by rw [g d (by simp [Cmd.vars])]; exact hc.1, by rw [g r (by simp [Cmd.vars])]; exact hc.2⟩
  | moveAssign d r => exact ⟨by rw [g d (by simp [Cmd.vars])]; exact hc.1, by rw [g r (by simp [Cmd.vars])]; exact hc.2.1, hc.2.2⟩
  | swap d r => exact ⟨by rw [g d (by simp [Cmd.vars])]; exact hc.1, by rw [g r (by simp [Cmd.vars])]; exact hc.2.1, hc.2.2⟩
  | clear d => simp only [Cmd.Allowed] at hc ⊢; rw [g d (by simp [Cmd.vars])]; exact hc
  | push d r =>
    refine ⟨?_, by rw [g r (by simp [Cmd.vars])]; exact hc.2⟩
    simp only [Cmd.ArrayLike]; rw [g d (by simp [Cmd.vars])]; exact hc.1
  | pushMove d r =>
    refine ⟨?_, by rw [g r (by simp [Cmd.vars])]; exact hc.2.1, hc.2.2⟩
    simp only [Cmd.ArrayLike]; rw [g d (by simp [Cmd.vars])]; exact hc.1
  | key d k => simp only [Cmd.Allowed, Cmd.ObjectLike] at hc ⊢; rw [g d (by simp [Cmd.vars])]; exact hc
  | index d i => simp only [Cmd.Allowed, Cmd.ArrayLike] at hc ⊢; rw [g d (by simp [Cmd.vars])]; exact hc
  | erase d i => simp only [Cmd.Allowed] at hc ⊢; rw [g d (by simp [Cmd.vars])]; exact hc

theorem Env.put_congr {E E' : Env F} (r : Ref) (o : Option (Value F)) {x : Nat} (h : E' x = E x) : E'.put r o x = E.put r o x := by
  cases o with
  | none => exact h
  | some w => simp only [Env.put, Env.set, h]

theorem Env.set_congr {E E' : Env F} (r : Ref) (w : Value F) {x : Nat} (h : E' x = E x) : E'.set r w x = E.set r w x := by
  simp only [Env.set, h]

theorem Env.bind_congr {E E' : Env F} (y : Nat) (o : Option (Value F)) {x : Nat} (h : E' x = E x) : E'.bind y o x = E.bind y o x := by
  simp only [Env.bind, h]

theorem Cmd.begun_congr {c : Cmd F} {E E' : Env F} (h : ∀ x ∈ c.vars, E' x = E x) : ∀ x ∈ c.vars, c.begun E' x = c.begun E x := by
  have g : ∀ r : Ref, r.var ∈ c.vars → E'.get r = E.get r := fun r hr => by simp only [Env.get, h _ hr]
  intro x hx
  have hx' := h x hx
  cases c <;> simp only [Cmd.begun] <;> try exact hx'
  all_goals
    rename_i d _
    rw [g d (by simp [Cmd.vars])]
    exact Env.put_congr _ _ hx'

/-- What a command makes of the variables it names depends on these. -/
theorem Cmd.meaning_congr (fo : FloatOps F) {c : Cmd F} {E E' : Env F} (h : ∀ x ∈ c.vars, E' x = E x) :
    ∀ x ∈ c.vars, c.meaning fo E' x = c.meaning fo E x := by
  have gg : ∀ {E E' : Env F}, (∀ x ∈ c.vars, E' x = E x) → ∀ r : Ref, r.var ∈ c.vars → E'.get r = E.get r := fun h r hr => by simp only [Env.get, h _ hr]
  have g := gg h
  have hb := c.begun_congr h
  have gb := gg hb
  intro x hx
  have hx' := h x hx
  have hbx := hb x hx
  cases c with
  | new y v => exact Env.bind_congr _ _ hx'
  | copy y r => simp only [Cmd.meaning]; rw [g r (by simp [Cmd.vars])]; exact Env.bind_congr _ _ hx'
  | move y r => simp only [Cmd.meaning]; rw [g r (by simp [Cmd.vars])]; exact Env.bind_congr _ _ (Env.set_congr _ _ hx')
  | delete y => exact Env.bind_congr _ _ hx'
  | copyAssign d r => simp only [Cmd.meaning]; rw [g r (by simp [Cmd.vars])]; exact Env.put_congr _ _ hx'
  | moveAssign d r =>
    simp only [Cmd.meaning]
    split
    · exact hx'
    · rw [g r (by simp [Cmd.vars])]; exact Env.put_congr _ _ (Env.set_congr _ _ hx')
  | swap d r =>
    simp only [Cmd.meaning]; rw [g r (by simp [Cmd.vars]), g d (by simp [Cmd.vars])]
    exact Env.put_congr _ _ (Env.put_congr _ _ hx')
  | clear d => simp only [Cmd.meaning]; rw [g d (by simp [Cmd.vars])]; exact Env.put_congr _ _ hx'
  | push d r =>
    simp only [Cmd.meaning]; rw [gb d (by simp [Cmd.vars]), gb r (by simp [Cmd.vars])]
    exact Env.put_congr _ _ hbx
  | pushMove d r =>
    simp only [Cmd.meaning]
    have : ∀ y ∈ (Cmd.pushMove d r : Cmd F).vars, ((Cmd.begun (.pushMove d r) E').set r .null) y = ((Cmd.begun (.pushMove d r) E).set r .null) y :=
      fun y hy => Env.set_congr _ _ (hb y hy)
    rw [gb r (by simp [Cmd.vars]), gg this d (by simp [Cmd.vars])]
    exact Env.put_congr _ _ (this x hx)
  | key d k => simp only [Cmd.meaning]; rw [gb d (by simp [Cmd.vars])]; exact Env.put_congr _ _ hbx
  | index d i => simp only [Cmd.meaning]; rw [gb d (by simp [Cmd.vars])]; exact Env.put_congr _ _ hbx
  | erase d i => simp only [Cmd.meaning]; rw [g d (by simp [Cmd.vars])]; exact Env.put_congr _ _ hx'

/-- A cut, and what was cut off. -/
theorem Only.split {xs : List Nat} {s s0 : State F} (h0 : Only xs s s0) {E : Env F} {L} (h : Holds s E L) :
    ∃ g gv, s = s0.add g gv ∧ s0.Beside g gv ∧ (gv .tmp = none ∧ gv .arg = none ∧ ∀ x ∈ xs, gv (.user x) = none) := by
  obtain ⟨fp, h, hL⟩ := h
  have loc : ∀ x, Env.all E x = none → s.vars x = none := by
    intro x hx
    have := h.stands x
    rw [hx] at this
    cases e : s.vars x with
    | none => rfl
    | some c => rw [e] at this; exact this.elim
  refine ⟨fun a => match s0.heap.mem a with | some _ => none | none => s.heap.mem a,
    fun x => match s0.vars x with | some _ => none | none => s.vars x, ?_, ⟨?_, ?_⟩, ?_, ?_, ?_⟩
  · have hm : ∀ a, s.heap.mem a = (s0.heap.mem a).or (match s0.heap.mem a with | some _ => none | none => s.heap.mem a) := by
      intro a
      cases e : s0.heap.mem a with
      | none => simp
      | some b =>
        by_cases hb : BlockOfVars s xs a
        · rw [← h0.keptBlock a hb, e]; simp
        · rw [h0.goneBlock a hb] at e; cases e
    have hv : ∀ x, s.vars x = (s0.vars x).or (match s0.vars x with | some _ => none | none => s.vars x) := by
      intro x
      cases e : s0.vars x with
      | none => simp
      | some c =>
        cases x with
        | user x =>
          by_cases hx : x ∈ xs
          · rw [← h0.kept x hx, e]; simp
          · rw [h0.gone x hx] at e; cases e
        | tmp => rw [h0.locals.1] at e; cases e
        | arg => rw [h0.locals.2.1] at e; cases e
        | ghost => rw [h0.locals.2.2] at e; cases e
    have h1 := h0.next
    have h2 := h0.plan
    have h3 := h0.tick
    obtain ⟨⟨m, n, p, t⟩, v⟩ := s
    obtain ⟨⟨m0, n0, p0, t0⟩, v0⟩ := s0
    simp only at hm hv h1 h2 h3
    simp only [State.add, Heap.add, ← hm, ← hv, h1, h2, h3]
  · intro a ha
    cases e : s0.heap.mem a with
    | some b => simp only [e] at ha; exact absurd rfl ha
    | none =>
      simp only [e] at ha
      refine ⟨rfl, ?_⟩
      rw [h0.next]
      rcases Nat.lt_or_ge a s.heap.next with hl | hl
      · exact hl
      · exact absurd (h.fresh a hl) ha
  · intro x hx
    cases e : s0.vars x with
    | some b => simp only [e] at hx; exact absurd rfl hx
    | none => rfl
  · simp only [h0.locals.1]; exact loc _ rfl
  · simp only [h0.locals.2.1]; exact loc _ rfl
  · intro x hx
    cases e : s0.vars (.user x) with
    | some b => simp only [e]
    | none => simp only; rw [← h0.kept x hx, e]

/-- There is always a cut. -/
theorem only_exists (xs : List Nat) (s : State F) : ∃ s0, Only xs s s0 := by
  classical
  refine ⟨⟨{ s.heap with mem := fun a => if BlockOfVars s xs a then s.heap.mem a else none },
    fun y => match y with | .user x => if x ∈ xs then s.vars (.user x) else none | _ => none⟩, ?_, ?_, ⟨rfl, rfl, rfl⟩, ?_, ?_, rfl, rfl, rfl⟩
  · intro x hx; simp only [if_pos hx]
  · intro x hx; simp only [if_neg hx]
  · intro a ha; simp only [if_pos ha]
  · intro a ha; simp only [if_neg ha]

/-! ## Schedules -/

theorem programOf_cons (i j : Nat) (c : Cmd F) (sched : List (Nat × Cmd F)) :
    programOf i ((j, c) :: sched) = if j = i then c :: programOf i sched else programOf i sched := by
  simp only [programOf, List.filter_cons]
  by_cases h : j = i <;> simp [h]

theorem schedule (fo : FloatOps F) (owner : Nat → Option Nat) : ∀ (sched : List (Nat × Cmd F)) (E : Env F) (Ei : Nat → Env F),
    Disciplined owner sched → (∀ i x, owner x = some i ∨ owner x = none → Ei i x = E x) →
    (∀ i, ProgramAllowed fo (Ei i) (programOf i sched)) →
    ProgramAllowed fo E (sched.map Prod.snd) ∧
    (∀ i x, owner x = some i ∨ owner x = none →
      (programOf i sched).foldl (fun E c => c.meaning fo E) (Ei i) x = (sched.map Prod.snd).foldl (fun E c => c.meaning fo E) E x) ∧
    (∀ x, owner x = none → (sched.map Prod.snd).foldl (fun E c => c.meaning fo E) E x = E x) := by
  intro sched
  induction sched with
  | nil => intro E Ei _ h _; exact ⟨trivial, fun i x hx => h i x hx, fun _ _ => rfl⟩
  | cons e sched ih =>
    obtain ⟨j, c⟩ := e
    intro E Ei hd h hp
    obtain ⟨d1, d2⟩ := hd (j, c) List.mem_cons_self
    have hj := hp j
    rw [programOf_cons, if_pos rfl] at hj
    have hag : ∀ x ∈ c.vars, E x = Ei j x := fun x hx => (h j x (d2 x hx)).symm
    obtain ⟨h1, h2, h3⟩ := ih (c.meaning fo E) (fun i => if j = i then c.meaning fo (Ei j) else Ei i)
      (fun e he => hd e (List.mem_cons_of_mem _ he)) (by
        intro i x hx
        by_cases hi : j = i
        · subst hi
          simp only [if_pos]
          by_cases hc : x ∈ c.vars
          · exact (c.meaning_congr fo hag x hc).symm
          · have ht : x ∉ c.targets := fun ht => hc (by cases c <;> simp_all [Cmd.targets, Cmd.vars])
            rw [c.meaning_other fo _ ht, c.meaning_other fo _ ht]
            exact h j x hx
        · simp only [if_neg hi]
          have ht : x ∉ c.targets := by
            intro ht
            have := d1 x ht
            rcases hx with hx | hx
            · rw [hx] at this; injection this with this; exact hi this.symm
            · rw [hx] at this; cases this
          rw [c.meaning_other fo _ ht]
          exact h i x hx) (by
        intro i
        have := hp i
        rw [programOf_cons] at this
        by_cases hi : j = i
        · subst hi
          rw [if_pos rfl] at this
          simp only [if_pos]
          exact this.2
        · rw [if_neg hi] at this
          simp only [if_neg hi]
          exact this)
    refine ⟨⟨c.allowed_congr hag hj.1, h1⟩, ?_, ?_⟩
    · intro i x hx
      have := h2 i x hx
      rw [programOf_cons]
      by_cases hi : j = i
      · subst hi
        simp only [if_pos] at this ⊢
        exact this
      · simp only [if_neg hi] at this ⊢
        exact this
    · intro x hx
      have ht : x ∉ c.targets := by
        intro ht
        have := d1 x ht
        rw [hx] at this; cases this
      show (sched.map Prod.snd).foldl (fun E c => c.meaning fo E) (c.meaning fo E) x = E x
      rw [h3 x hx, c.meaning_other fo _ ht]

/-- Without failing allocations a program is done. -/
theorem runAll_done (fo : FloatOps F) : ∀ (cs : List (Cmd F)) {s : State F} {E : Env F}, Reach fo s → (∀ t, s.heap.plan t = true) → Shows s E →
    ProgramAllowed fo E cs → ∃ s', Cmd.runAll fo cs s = (.ok (), s') ∧ Reach fo s' ∧ Shows s' (cs.foldl (fun E c => c.meaning fo E) E) := by
  intro cs
  induction cs with
  | nil => intro s E h hp hE _; exact ⟨s, rfl, h, hE⟩
  | cons c cs ih =>
    intro s E h hp hE ⟨h1, h2⟩
    obtain ⟨E0, L, k1, _⟩ := h.holds
    have := hE.unique k1.shows
    subst this
    rcases c.correct fo k1 h1 with ⟨s1, e, k2, k3, _⟩ | ⟨s1, E1, L1, e, _, _, _, _, _, t, _, _, k6⟩
    · obtain ⟨s', a1, a2, a3⟩ := ih (.step h hE h1 e) (by rw [k3]; exact hp) k2.shows h2
      exact ⟨s', by rw [Cmd.runAll, M.bind_ok e, a1], a2, a3⟩
    · rw [hp t] at k6; cases k6

end Spec
