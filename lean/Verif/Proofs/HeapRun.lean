import Verif.Proofs.HeapCmd
/-!
# Commands do what they mean
-/
namespace Spec
open Configor

variable {F : Type}

theorem all_get (E : Env F) (r : Ref) : vget E.all (.user r.var) r.path = E.get r := rfl

theorem all_set (E : Env F) (r : Ref) (w : Value F) : (E.set r w).all = vset E.all (.user r.var) r.path w := by
  funext x
  cases x with
  | user n =>
    simp only [Env.all, Env.set, vset, upd]
    by_cases h : n = r.var
    · subst h; simp
    · simp [h]
  | _ => simp [Env.all, vset, upd]

theorem all_bind (E : Env F) (x : Nat) (o : Option (Value F)) : (E.bind x o).all = upd E.all (.user x) o := by
  funext y
  cases y with
  | user n => simp only [Env.all, Env.bind, upd]; by_cases h : n = x <;> simp [h]
  | _ => simp [Env.all, upd]

theorem all_quiet (E : Env F) : Quiet E.all := ⟨rfl, rfl, rfl⟩

theorem set_self_env {E : Env F} {r : Ref} {w : Value F} (h : E.get r = some w) : E.set r w = E := by
  funext x
  simp only [Env.set]
  split
  · next e =>
    subst e
    simp only [Env.get, Option.bind_eq_some_iff] at h
    obtain ⟨v, h1, h2⟩ := h
    rw [h1, Option.map_some, replace_self h2]
  · rfl

theorem holds_iff {s : State F} {E : Env F} {L : Nat → Prop} :
    Holds s E L ↔ ∃ fp, Owns s E.all fp ∧ ∀ a, L a ↔ Leaked s fp a := by
  simp only [Holds, Leaked, Owned, not_exists]

/-- The result of a command: done; or ended by a failed allocation, with the old contents (or, for some commands, an empty
container instead of a null), and with no blocks lost but some that were allocated and never used. -/
def Outcome (c : Cmd F) (fo : FloatOps F) (s : State F) (E : Env F) (L : Nat → Prop) : Prop :=
  (∃ s', c.run fo s = (.ok (), s') ∧ Holds s' (c.meaning fo E) L ∧ s'.heap.plan = s.heap.plan ∧ s.heap.tick ≤ s'.heap.tick ∧
    (∀ t, s.heap.tick ≤ t → t < s'.heap.tick → s.heap.plan t = true) ∧ ∀ a, L a → s.heap.mem a = some .raw → s'.heap.mem a = some .raw) ∨
  (∃ s' E' L', c.run fo s = (.error (.exn .badAlloc), s') ∧ Holds s' E' L' ∧ (E' = E ∨ E' = c.begun E) ∧
    (∀ a, L a → L' a ∧ (s.heap.mem a = some .raw → s'.heap.mem a = some .raw)) ∧ (∀ a, L' a → L a ∨ s'.heap.mem a = some .raw) ∧ s'.heap.plan = s.heap.plan ∧
    ∃ t, s.heap.tick ≤ t ∧ t < s'.heap.tick ∧ s.heap.plan t = false)

theorem Outcome.well {c : Cmd F} {fo : FloatOps F} {s s' : State F} {E : Env F} {L : Nat → Prop} {fp fp' V'} (hL : ∀ a, L a ↔ Leaked s fp a)
    (e : c.run fo s = (.ok (), s')) (o : Owns s' V' fp') (w : Well s fp s' fp') (hV : (c.meaning fo E).all = V') : Outcome c fo s E L := by
  refine .inl ⟨s', e, holds_iff.2 ⟨fp', by rw [hV]; exact o, fun a => (hL a).trans (w.leaked a).symm⟩, w.plan, w.tick, w.good,
    fun a ha => w.raw a ((hL a).1 ha)⟩

theorem Outcome.ill {c : Cmd F} {fo : FloatOps F} {s s' : State F} {E E' : Env F} {L : Nat → Prop} {fp fp' V'} (hL : ∀ a, L a ↔ Leaked s fp a)
    (e : c.run fo s = (.error (.exn .badAlloc), s')) (o : Owns s' V' fp') (i : Ill s fp s' fp') (hE : E' = E ∨ E' = c.begun E)
    (hV : E'.all = V') : Outcome c fo s E L := by
  refine .inr ⟨s', E', Leaked s' fp', e, holds_iff.2 ⟨fp', by rw [hV]; exact o, fun _ => .rfl⟩, hE, fun a ha => ⟨i.old a ((hL a).1 ha), i.raw a ((hL a).1 ha)⟩, ?_, i.plan, i.failed⟩
  intro a ha
  rcases i.new a ha with h | h
  · exact .inl ((hL a).2 h)
  · exact .inr h.2

theorem Ends.outcome {c : Cmd F} {fo : FloatOps F} {s : State F} {E : Env F} {L : Nat → Prop} {fp V' bad m} (hL : ∀ a, L a ↔ Leaked s fp a)
    (e : c.run fo s = m s) (h : Ends m s fp V' bad) (hV : (c.meaning fo E).all = V')
    (hb : ∀ V'', bad V'' → V'' = E.all ∨ V'' = (c.begun E).all) : Outcome c fo s E L := by
  rcases h with ⟨s', fp', e1, o, w⟩ | ⟨s', fp', V'', e1, o, i, b⟩
  · exact .well hL (e.trans e1) o w hV
  · rcases hb V'' b with h | h
    · exact .ill (E' := E) hL (e.trans e1) o i (.inl rfl) h.symm
    · exact .ill (E' := c.begun E) hL (e.trans e1) o i (.inr rfl) h.symm

theorem some_of_ne {A : Type} {o : Option A} (h : o ≠ none) : ∃ a, o = some a := by
  cases o with
  | none => exact absurd rfl h
  | some a => exact ⟨a, rfl⟩

theorem put_some {E : Env F} {r : Ref} {o : Option (Value F)} {w : Value F} (h : o = some w) : E.put r o = E.set r w := by
  subst h; rfl

theorem fill_arr {E : Env F} {d : Ref} (h : Cmd.ArrayLike E d) : ∃ u us, E.get d = some u ∧ fillWith (.arr []) u = .arr us := by
  rcases h with h | ⟨us, h⟩
  · exact ⟨.null, [], h, rfl⟩
  · exact ⟨.arr us, us, h, rfl⟩

theorem fill_obj {E : Env F} {d : Ref} (h : Cmd.ObjectLike E d) : ∃ u us, E.get d = some u ∧ fillWith (.obj []) u = .obj us := by
  rcases h with h | ⟨us, h⟩
  · exact ⟨.null, [], h, rfl⟩
  · exact ⟨.obj us, us, h, rfl⟩

theorem get_set {E : Env F} {d : Ref} {u : Value F} (h : E.get d = some u) (w : Value F) : (E.set d w).get d = some w := by
  have := vget_vset (V := E.all) (x := .user d.var) (p := d.path) (u := u) h w
  rw [← all_set] at this
  exact this

theorem set_set {E : Env F} {d : Ref} {u : Value F} (h : E.get d = some u) (w w' : Value F) : (E.set d w).set d w' = E.set d w' := by
  funext x
  have := congrFun (vset_vset (V := E.all) (x := .user d.var) (p := d.path) (u := u) h w w') (.user x)
  rw [← all_set, ← all_set, ← all_set] at this
  exact this

/-- Two references: the same, one inside the other, or apart. -/
theorem Ref.cases (a b : Ref) : a = b ∨ a.Inside b ∨ b.Inside a ∨ Apart (.user a.var) a.path (.user b.var) b.path := by
  by_cases hv : a.var = b.var
  · by_cases h1 : a.path <+: b.path
    · by_cases h : b.path = a.path
      · left; cases a; cases b; simp_all
      · exact .inr (.inr (.inl ⟨hv.symm, h1, h⟩))
    · by_cases h2 : b.path <+: a.path
      · exact .inr (.inl ⟨hv, h2, fun e => h1 (by rw [e]; exact List.prefix_refl _)⟩)
      · exact .inr (.inr (.inr fun h => h.2.elim h1 h2))
  · refine .inr (.inr (.inr fun h => hv ?_))
    have := h.1
    injection this

theorem arrays_replace {v : Value F} {us : List (Value F)} (h : v = .arr us) {p : List Nat} (hp : p ≠ []) (w : Value F) :
    ∃ us', replace v p w = .arr us' := by
  subst h
  cases p with
  | nil => exact absurd rfl hp
  | cons i p =>
    simp only [replace]
    split
    · exact ⟨_, rfl⟩
    · exact ⟨us, rfl⟩

theorem replace_part : ∀ {p r : List Nat} {v u : Value F} (w : Value F), part v p = some u →
    part (replace v (p ++ r) w) p = some (replace u r w) := by
  intro p
  induction p with
  | nil => intro r v u w h; simp only [part] at h; injection h with h; subst h; rfl
  | cons i p ih =>
    intro r v u w h
    simp only [part, Option.bind_eq_some_iff] at h
    obtain ⟨x, h1, h2⟩ := h
    simp only [List.cons_append, part]
    rw [kids_replace_cons h1, List.getElem?_set_self (lt_of_getElem? h1)]
    exact ih w h2

/-- An array stays an array when something that is not the array itself, and does not contain it, is replaced. -/
theorem array_stays {E : Env F} {d r : Ref} {us : List (Value F)} (h : E.get d = some (.arr us)) (hne : d ≠ r) (hin : ¬ d.Inside r) (w : Value F) :
    ∃ us', (E.set r w).get d = some (.arr us') := by
  rcases Ref.cases d r with e | e | e | e
  · exact absurd e hne
  · exact absurd e hin
  · obtain ⟨e1, ⟨q, e2⟩, e3⟩ := e
    have hq : q ≠ [] := by
      intro e
      subst e
      simp at e2
      exact e3 e2.symm
    simp only [Env.get, Option.bind_eq_some_iff] at h
    obtain ⟨v, h1, h2⟩ := h
    obtain ⟨us', h3⟩ := arrays_replace (F := F) rfl hq w
    refine ⟨us', ?_⟩
    simp only [Env.get, Env.set]
    rw [if_pos e1.symm, h1]
    simp only [Option.map_some, Option.bind_some, ← e2]
    rw [replace_part w h2, h3]
  · refine ⟨us, ?_⟩
    have := vget_vset_other (V := E.all) (x := .user r.var) (p := r.path) (y := .user d.var) (q := d.path) (fun h => e ⟨h.1.symm, h.2.symm⟩) w
    rw [← all_set] at this
    exact this.trans h

/-- Every command allowed does what it means. -/
theorem Cmd.correct (fo : FloatOps F) (c : Cmd F) {s : State F} {E : Env F} {L : Nat → Prop} (hs : Holds s E L) (hc : c.Allowed E) :
    Outcome c fo s E L := by
  obtain ⟨fp, h, hL⟩ := holds_iff.1 hs
  have hq := all_quiet E
  have loc : ∀ {r : Ref} {w : Value F}, E.get r = some w → ∃ l c, At s (.user r.var) r.path l c := fun hr => h.vat (u := _) hr
  cases c with
  | new x v =>
    obtain ⟨h1, h2⟩ := hc
    rcases h.construct (t := .user x) h1 h2 with ⟨s', fp', c', e, o, w, _⟩ | ⟨s', e, o, i⟩
    · exact .well hL e o w (all_bind E x (some v))
    · exact .ill (E' := E) hL e o i (.inl rfl) rfl
  | copy x r =>
    obtain ⟨h1, h2⟩ := hc
    obtain ⟨w, hw⟩ := some_of_ne h2
    obtain ⟨l, cl, hat⟩ := loc hw
    have er : Cmd.run fo (.copy x r) s = State.copyConstruct (.user x) l s := by
      simp only [Cmd.run]
      rw [M.bind_ok hat.ref]
    obtain ⟨v, u, g1, g2, g3⟩ := h.copyConstruct (t := .user x) hat
    have hu : u = w := by
      have hw' : vget E.all (.user r.var) r.path = some w := hw
      simp only [vget, g1, Option.bind_some, g2] at hw'
      injection hw'
    subst hu
    rcases g3 with ⟨s1, fw, e1, o1, gr, ag, _, hfw⟩ | ⟨s1, e1, o1, gr, fl, rb, _⟩
    · refine .well hL (er.trans e1) o1 (h.well_grew (h.dead (x := .user x) h1).2 gr ag hfw) ?_
      simp only [Cmd.meaning, hw]
      exact all_bind E x (some u)
    · exact .ill (E' := E) hL (er.trans e1) o1 (h.ill_grew gr fl rb) (.inl rfl) rfl
  | move x r =>
    obtain ⟨h1, h2⟩ := hc
    obtain ⟨w, hw⟩ := some_of_ne h2
    obtain ⟨l, cl, hat⟩ := loc hw
    have er : Cmd.run fo (.move x r) s = State.moveConstruct (.user x) l s := by
      simp only [Cmd.run]
      rw [M.bind_ok hat.ref]
    obtain ⟨s', fp', e, o, wl, _⟩ := h.moveConstruct (t := .user x) h1 hat hw
    refine .well hL (er.trans e) o wl ?_
    simp only [Cmd.meaning, hw, all_bind, all_set]
  | delete x =>
    obtain ⟨w, hw⟩ := some_of_ne hc
    obtain ⟨s', e, o, wl⟩ := h.destruct_well (t := .user x) (w := w) hw
    exact .well hL e o wl (all_bind E x none)
  | copyAssign d r =>
    obtain ⟨h1, h2⟩ := hc
    obtain ⟨u, hu⟩ := some_of_ne h1
    obtain ⟨w, hw⟩ := some_of_ne h2
    obtain ⟨l, cl, hat⟩ := loc hu
    obtain ⟨l', cl', hat'⟩ := loc hw
    refine (h.copyAssign hq.tmp hat hat' hu hw).outcome hL ?_ ?_ fun V'' h => .inl h
    · simp only [Cmd.run]
      rw [M.bind_ok hat.ref, M.bind_ok hat'.ref]
    · simp only [Cmd.meaning, put_some hw, all_set]
  | moveAssign d r =>
    obtain ⟨h1, h2, h3⟩ := hc
    obtain ⟨u, hu⟩ := some_of_ne h1
    obtain ⟨w, hw⟩ := some_of_ne h2
    obtain ⟨l, cl, hat⟩ := loc hu
    obtain ⟨l', cl', hat'⟩ := loc hw
    have er : Cmd.run fo (.moveAssign d r) s = State.moveAssign l l' s := by
      simp only [Cmd.run]
      rw [M.bind_ok hat.ref, M.bind_ok hat'.ref]
    by_cases hdr : d = r
    · subst hdr
      have : l = l' := by
        obtain ⟨c1, k1, k2⟩ := hat
        obtain ⟨c2, k3, k4⟩ := hat'
        rw [k1] at k3
        injection k3 with k3
        subst k3
        rw [k2] at k4
        injection k4 with k4
        injection k4
      subst this
      refine .well hL (er.trans (by simp only [State.moveAssign, if_true]; rfl)) h (.refl s fp) ?_
      simp only [Cmd.meaning, if_true]
    · have hm : (Cmd.meaning fo (.moveAssign d r) E).all = vset (vset E.all (.user r.var) r.path .null) (.user d.var) d.path w := by
        simp only [Cmd.meaning, if_neg hdr, put_some hw, all_set]
      rcases Ref.cases d r with e | e | e | e
      · exact absurd e hdr
      · exact absurd e h3
      · obtain ⟨e1, ⟨q, e2⟩, e3⟩ := e
        have hqn : q ≠ [] := by
          intro e
          subst e
          simp at e2
          exact e3 e2.symm
        rw [e1, ← e2] at hat'
        have hw' : vget E.all (.user d.var) (d.path ++ q) = some w := by rw [e2, ← e1]; exact hw
        obtain ⟨s', fp', e, o, wl⟩ := h.moveAssign_inside hq.tmp hq.ghost hqn hat hat' hu hw'
        rw [e2, ← e1] at o
        refine .well hL (er.trans e) o wl ?_
        rw [hm, ← e1]
      · obtain ⟨s', fp', e', o, wl, _⟩ := h.moveAssign_apart hq.tmp hq.ghost e hat hat' hu hw
        exact .well hL (er.trans e') o wl hm
  | swap d r =>
    obtain ⟨h1, h2, h3, h4⟩ := hc
    obtain ⟨u, hu⟩ := some_of_ne h1
    obtain ⟨w, hw⟩ := some_of_ne h2
    obtain ⟨l, cl, hat⟩ := loc hu
    obtain ⟨l', cl', hat'⟩ := loc hw
    have er : Cmd.run fo (.swap d r) s = State.swap l l' s := by
      simp only [Cmd.run]
      rw [M.bind_ok hat.ref, M.bind_ok hat'.ref]
    have hm : (Cmd.meaning fo (.swap d r) E) = (E.set d w).set r u := by
      simp only [Cmd.meaning, hw, hu, Env.put]
    rcases Ref.cases d r with e | e | e | e
    · subst e
      have : l = l' ∧ cl = cl' := by
        obtain ⟨c1, k1, k2⟩ := hat
        obtain ⟨c2, k3, k4⟩ := hat'
        rw [k1] at k3
        injection k3 with k3
        subst k3
        rw [k2] at k4
        injection k4 with k4
        injection k4 with k4 k5
        exact ⟨k4, k5⟩
      obtain ⟨rfl, rfl⟩ := this
      rw [hu] at hw
      injection hw with hw
      subst hw
      have e1 : State.swap l l s = (.ok (), s) := by
        simp only [State.swap]
        have := hat.write cl
        rw [hat.store_self] at this
        rw [M.bind_ok hat.read, M.bind_ok hat.read, M.bind_ok this, this]
      refine .well hL (er.trans e1) h (.refl s fp) ?_
      rw [hm, set_self_env hu, set_self_env hu]
    · exact absurd e h3
    · exact absurd e h4
    · obtain ⟨fp', e', o, wl⟩ := h.swap hq.ghost e hat hat' hu hw
      refine .well hL (er.trans e') o wl ?_
      rw [hm, all_set, all_set]
  | clear d =>
    obtain ⟨u, hu⟩ := some_of_ne hc
    obtain ⟨l, cl, hat⟩ := loc hu
    obtain ⟨s', fp', e, o, wl⟩ := h.clear (fo.ofInt 0) hat hu
    refine .well hL ?_ o wl ?_
    · simp only [Cmd.run]
      rw [M.bind_ok hat.ref, e]
    · simp only [Cmd.meaning, hu, Option.map_some, Env.put, all_set]
  | push d r =>
    obtain ⟨h1, h2⟩ := hc
    obtain ⟨u, us, hu, hus⟩ := fill_arr h1
    obtain ⟨w0, hw0⟩ := some_of_ne h2
    obtain ⟨l, cl, hat⟩ := loc hu
    obtain ⟨l', cl', hat'⟩ := loc hw0
    have hb : Cmd.begun (.push d r) E = E.set d (.arr us) := by simp only [Cmd.begun, hu, Option.map_some, hus, Env.put]
    obtain ⟨w, hw⟩ : ∃ w, (E.set d (.arr us)).get r = some w := by
      rcases Ref.cases d r with e | e | e | e
      · subst e; exact ⟨_, get_set hu _⟩
      · obtain ⟨e1, ⟨q, e2⟩, e3⟩ := e
        simp only [Env.get, Option.bind_eq_some_iff] at hw0
        obtain ⟨v, k1, k2⟩ := hw0
        refine ⟨replace w0 q (.arr us), ?_⟩
        simp only [Env.get, Env.set]
        rw [if_pos e1.symm, k1]
        simp only [Option.map_some, Option.bind_some, ← e2]
        exact replace_part _ k2
      · obtain ⟨e1, e2, e3⟩ := e
        rcases h1 with h1 | ⟨us', h1⟩
        · rw [hu] at h1
          injection h1 with h1
          subst h1
          have := h.at_null hat hu
          subst this
          rw [e1] at hat'
          exact absurd ⟨e2, fun h => e3 h.symm⟩ (hat.null_leaf hat')
        · rw [hu] at h1
          injection h1 with h1
          subst h1
          simp only [fillWith] at hus
          rw [← hus, set_self_env hu]
          exact ⟨w0, hw0⟩
      · refine ⟨w0, ?_⟩
        have := vget_vset_other (V := E.all) e (.arr us)
        rw [← all_set] at this
        exact this.trans hw0
    have hw' : vget (vset E.all (.user d.var) d.path (.arr us)) (.user r.var) r.path = some w := by
      rw [← all_set]; exact hw
    refine (h.pushBack hq hat hat' hu hus hw').outcome hL ?_ ?_ ?_
    · simp only [Cmd.run]
      rw [M.bind_ok hat.ref, M.bind_ok hat'.ref]
    · simp only [Cmd.meaning, hb, get_set hu, hw, appended, Env.put]
      rw [set_set hu, all_set]
    · rintro V'' (h | h)
      · exact .inl h
      · exact .inr (by rw [hb, all_set]; exact h)
  | pushMove d r =>
    obtain ⟨h1, h2, h3, h4⟩ := hc
    obtain ⟨u, us, hu, hus⟩ := fill_arr h1
    obtain ⟨w0, hw0⟩ := some_of_ne h2
    obtain ⟨l, cl, hat⟩ := loc hu
    obtain ⟨l', cl', hat'⟩ := loc hw0
    have hb : Cmd.begun (.pushMove d r) E = E.set d (.arr us) := by simp only [Cmd.begun, hu, Option.map_some, hus, Env.put]
    obtain ⟨w, hw⟩ : ∃ w, (E.set d (.arr us)).get r = some w := by
      rcases Ref.cases d r with e | e | e | e
      · exact absurd e h3
      · exact absurd e h4
      · obtain ⟨e1, e2, e3⟩ := e
        rcases h1 with h1 | ⟨us', h1⟩
        · rw [hu] at h1
          injection h1 with h1
          subst h1
          have := h.at_null hat hu
          subst this
          rw [e1] at hat'
          exact absurd ⟨e2, fun h => e3 h.symm⟩ (hat.null_leaf hat')
        · rw [hu] at h1
          injection h1 with h1
          subst h1
          simp only [fillWith] at hus
          rw [← hus, set_self_env hu]
          exact ⟨w0, hw0⟩
      · refine ⟨w0, ?_⟩
        have := vget_vset_other (V := E.all) e (.arr us)
        rw [← all_set] at this
        exact this.trans hw0
    obtain ⟨us', hus'⟩ := array_stays (get_set hu (.arr us)) h3 h4 (.null : Value F)
    have hw' : vget (vset E.all (.user d.var) d.path (.arr us)) (.user r.var) r.path = some w := by
      rw [← all_set]; exact hw
    have hus'' : vget (vset (vset E.all (.user d.var) d.path (.arr us)) (.user r.var) r.path .null) (.user d.var) d.path = some (.arr us') := by
      rw [← all_set, ← all_set]; exact hus'
    refine (h.pushMove hq hat hat' ?_ hu hus hw' hus'').outcome hL ?_ ?_ ?_
    · rintro ⟨e1, e2⟩
      injection e1 with e1
      by_cases e : d.path = r.path
      · exact h3 (by cases d; cases r; simp_all)
      · exact h4 ⟨e1.symm, e2, e⟩
    · simp only [Cmd.run]
      rw [M.bind_ok hat.ref, M.bind_ok hat'.ref]
    · simp only [Cmd.meaning, hb, hw, hus', appended, Env.put, all_set]
    · rintro V'' (h | h)
      · exact .inl h
      · exact .inr (by rw [hb, all_set]; exact h)
  | key d k =>
    obtain ⟨u, us, hu, hus⟩ := fill_obj hc
    obtain ⟨l, cl, hat⟩ := loc hu
    have hb : Cmd.begun (.key d k) E = E.set d (.obj us) := by simp only [Cmd.begun, hu, Option.map_some, hus, Env.put]
    refine (h.touchKey hq k hat hu hus).outcome hL ?_ ?_ ?_
    · simp only [Cmd.run]
      rw [M.bind_ok hat.ref]
    · simp only [Cmd.meaning, hb, get_set hu, keyed, Env.put]
      rw [set_set hu, all_set]
    · rintro V'' (h | h)
      · exact .inl h
      · exact .inr (by rw [hb, all_set]; exact h)
  | index d i =>
    obtain ⟨u, us, hu, hus⟩ := fill_arr hc
    obtain ⟨l, cl, hat⟩ := loc hu
    have hb : Cmd.begun (.index d i) E = E.set d (.arr us) := by simp only [Cmd.begun, hu, Option.map_some, hus, Env.put]
    refine (h.touchIndex hq i hat hu hus).outcome hL ?_ ?_ ?_
    · simp only [Cmd.run]
      rw [M.bind_ok hat.ref]
    · simp only [Cmd.meaning, hb, get_set hu, indexed, Env.put]
      rw [set_set hu, all_set]
    · rintro V'' (h | h)
      · exact .inl h
      · exact .inr (by rw [hb, all_set]; exact h)
  | erase d i =>
    obtain ⟨u, hu, hi⟩ := hc
    obtain ⟨l, cl, hat⟩ := loc hu
    obtain ⟨s', fp', e, o, wl⟩ := h.eraseAt i hat hu hi
    refine .well hL ?_ o wl ?_
    · simp only [Cmd.run]
      rw [M.bind_ok hat.ref, e]
    · simp only [Cmd.meaning, hu, Option.map_some, Env.put, all_set]

end Spec
