import Verif.Proofs.HeapAssign
/-!
# Changing a container in place
-/
namespace Spec
open Configor

variable {F : Type}

theorem At.store_vars {s : State F} {x p l c} (h : At s x p l c) (c' : Cell F) : ∀ y, y ≠ x → (store s l c').vars y = s.vars y := by
  intro y hy
  rcases h.cases with ⟨_, rfl, _⟩ | ⟨_, a, i, b, rfl, hh, _⟩
  · simp only [store]; exact upd_ne _ _ hy
  · simp only [store, hh]

/-- A part is changed, and with it the blocks it owns. -/
theorem Owns.inplace {s : State F} {V : Var → Option (Value F)} {fp} (h : Owns s V fp) {x p l cu} (hat : At s x p l cu) {u : Value F}
    (hu : vget V x p = some u) :
    ∃ m fu, Repr s.heap.mem m cu u fu ∧ fu.Nodup ∧ (∀ a ∈ fu, a ∈ fp x) ∧
      ∀ (s' : State F) cu' u' fu' k, s'.vars = (store s l cu').vars → (∀ a, a ∉ fu → a ∉ fu' → s'.heap.mem a = (store s l cu').heap.mem a) →
        Repr s'.heap.mem k cu' u' fu' → fu'.Nodup → (∀ a ∈ fu', a ∈ fu ∨ ∀ y, a ∉ fp y) → Fresh s'.heap →
        ∃ fp', Owns s' (vset V x p u') fp' ∧ ∀ a, Owned fp' a ↔ (Owned fp a ∧ a ∉ fu) ∨ a ∈ fu' := by
  obtain ⟨v, u0, fu, ctx, m, h1, h2, h3, h4, h5⟩ := h.update hat
  have : u0 = u := by
    simp only [vget, h1, Option.bind_some, h2] at hu
    injection hu
  subst this
  have hnd : (fu ++ ctx).Nodup := h4.nodup_iff.1 (h.nodup x)
  rw [List.nodup_append] at hnd
  refine ⟨m, fu, h3, hnd.1, fun a ha => h4.mem_iff.2 (by simp [ha]), ?_⟩
  intro s' cu' u' fu' k q1 q2 q3 q4 q5 q6
  obtain ⟨fp', r1, r2, r3⟩ := h5 s' cu' u' fu' k (fun y hy => by rw [q1]; exact hat.store_vars cu' y hy) (by rw [q1]) q2 q3 q4 (by
    intro a ha
    rcases q5 a ha with g | g
    · refine ⟨fun hc => hnd.2.2 a g a hc rfl, fun y hy => ?_⟩
      exact h.disjoint x y (Ne.symm hy) a (h4.mem_iff.2 (by simp [g]))
    · exact ⟨fun hc => g x (h4.mem_iff.2 (by simp [hc])), fun y _ => g y⟩) q6
  refine ⟨fp', by simp only [vset, h1, Option.map_some]; exact r1, ?_⟩
  intro a
  constructor
  · rintro ⟨y, hy⟩
    by_cases e : y = x
    · subst e
      rcases List.mem_append.1 (r3.mem_iff.1 hy) with g | g
      · exact .inr g
      · refine .inl ⟨⟨y, h4.mem_iff.2 (by simp [g])⟩, fun hf => hnd.2.2 a hf a g rfl⟩
    · rw [r2 y e] at hy
      refine .inl ⟨⟨y, hy⟩, fun hf => h.disjoint x y (Ne.symm e) a (h4.mem_iff.2 (by simp [hf])) hy⟩
  · rintro (⟨⟨y, hy⟩, g⟩ | g)
    · by_cases e : y = x
      · subst e
        rcases List.mem_append.1 (h4.mem_iff.1 hy) with g' | g'
        · exact absurd g' g
        · exact ⟨y, r3.mem_iff.2 (by simp [g'])⟩
      · exact ⟨y, by rw [r2 y e]; exact hy⟩
    · exact ⟨x, r3.mem_iff.2 (by simp [g])⟩

/-- A part is changed: new blocks come from the allocator, and those that are no longer owned are given back. -/
theorem Owns.inplace_well {s : State F} {V : Var → Option (Value F)} {fp} (h : Owns s V fp) {x p l cu} (hat : At s x p l cu) {u : Value F}
    (hu : vget V x p = some u) :
    ∃ m fu, Repr s.heap.mem m cu u fu ∧ fu.Nodup ∧ (∀ a ∈ fu, a ∈ fp x) ∧
      ∀ (s' : State F) cu' u' fu' k, s'.vars = (store s l cu').vars → (∀ a, a ∉ fu → a ∉ fu' → s'.heap.mem a = (store s l cu').heap.mem a) →
        Repr s'.heap.mem k cu' u' fu' → fu'.Nodup → (∀ a ∈ fu', a ∈ fu ∨ s.heap.next ≤ a) → (∀ a ∈ fu, a ∉ fu' → s'.heap.mem a = none) →
        Fresh s'.heap → s.heap.next ≤ s'.heap.next → s'.heap.plan = s.heap.plan → s.heap.tick ≤ s'.heap.tick → AllGood s.heap s'.heap →
        ∃ fp', Owns s' (vset V x p u') fp' ∧ Well s fp s' fp' := by
  obtain ⟨m, fu, h1, h2, h3, h4⟩ := h.inplace hat hu
  refine ⟨m, fu, h1, h2, h3, ?_⟩
  intro s' cu' u' fu' k q1 q2 q3 q4 q5 q6 q7 q8 q9 q10 q11
  obtain ⟨fp', r1, r2⟩ := h4 s' cu' u' fu' k q1 q2 q3 q4 (by
    intro a ha
    rcases q5 a ha with g | g
    · exact .inl g
    · exact .inr fun y hy => absurd (h.alloc hy).2 (by omega)) q7
  refine ⟨fp', r1, ?_, q8, q9, q10, q11, ?_⟩
  rotate_left
  · intro a ha hr
    have hf : a ∉ fu := fun hf => ha.2 ⟨x, h3 a hf⟩
    have hf' : a ∉ fu' := by
      intro hf'
      rcases q5 a hf' with g | g
      · exact hf g
      · exact ha.1 (h.fresh a g)
    rw [q2 a hf hf']
    exact store_raw _ _ _ a hr
  intro a
  by_cases hf' : a ∈ fu'
  · constructor
    · rintro ⟨_, g⟩; exact absurd ((r2 a).2 (.inr hf')) g
    · rintro ⟨g1, g2⟩
      rcases q5 a hf' with g | g
      · exact absurd ⟨x, h3 a g⟩ g2
      · exact absurd (h.fresh a g) g1
  · by_cases hf : a ∈ fu
    · constructor
      · rintro ⟨g, _⟩; exact absurd (q6 a hf hf') g
      · rintro ⟨_, g⟩; exact absurd ⟨x, h3 a hf⟩ g
    · simp only [Leaked, q2 a hf hf', ne_eq, store_alloc, r2, hf, hf', not_false_eq_true, and_true, or_false]

/-! ## Reading containers -/

theorem Repr.arr_inv {mem : Nat → Option (Block F)} {m : Nat} {cu : Cell F} {us : List (Value F)} {fu : List Nat} (h : Repr mem m cu (.arr us) fu) :
    ∃ a cs fps k, cu = .arr a ∧ mem a = some (.arr cs) ∧ All3 (Repr mem k) cs us fps ∧ fu = a :: fps.flatten := by
  cases m with
  | zero => have h' : Flat mem cu (.arr us) fu := h; cases cu <;> exact h'.elim
  | succ m =>
    rcases h with h | ⟨a, b, fps, h1, h2, h3, h4⟩
    · cases cu <;> exact h.elim
    · cases cu <;> cases b <;> simp only [Node] at h2
      subst h2
      exact ⟨_, _, fps, m, rfl, h1, h3, h4⟩

theorem Repr.obj_inv {mem : Nat → Option (Block F)} {m : Nat} {cu : Cell F} {us : List (List Nat × Value F)} {fu : List Nat} (h : Repr mem m cu (.obj us) fu) :
    ∃ a ms fps k, cu = .obj a ∧ mem a = some (.obj ms) ∧ ms.map Prod.fst = us.map Prod.fst ∧
      All3 (Repr mem k) (ms.map Prod.snd) (us.map Prod.snd) fps ∧ fu = a :: fps.flatten := by
  cases m with
  | zero => have h' : Flat mem cu (.obj us) fu := h; cases cu <;> exact h'.elim
  | succ m =>
    rcases h with h | ⟨a, b, fps, h1, h2, h3, h4⟩
    · cases cu <;> exact h.elim
    · cases cu <;> cases b <;> simp only [Node] at h2
      obtain ⟨h2, h5⟩ := h2
      subst h2
      exact ⟨_, _, fps, m, rfl, h1, h5, h3, h4⟩

theorem Repr.flat_inv {mem : Nat → Option (Block F)} {m : Nat} {cu : Cell F} {u : Value F} {fu : List Nat} (h : Repr mem m cu u fu)
    (hu : (∀ us, u ≠ .arr us) ∧ ∀ us, u ≠ .obj us) : Flat mem cu u fu := by
  cases m with
  | zero => exact h
  | succ m =>
    rcases h with h | ⟨a, b, fps, h1, h2, h3, h4⟩
    · exact h
    · cases cu <;> cases b <;> cases u <;> simp only [Node] at h2
      · exact absurd rfl (hu.1 _)
      · exact absurd rfl (hu.2 _)

theorem All3.append {A B C : Type} {R : A → B → C → Prop} {as bs cs as' bs' cs'} (h : All3 R as bs cs) (h' : All3 R as' bs' cs') :
    All3 R (as ++ as') (bs ++ bs') (cs ++ cs') := by
  induction h with
  | nil => exact h'
  | cons h1 _ ih => exact .cons h1 ih

theorem All3.replicate {A B C : Type} {R : A → B → C → Prop} {a b c} (h : R a b c) : ∀ n,
    All3 R (List.replicate n a) (List.replicate n b) (List.replicate n c)
  | 0 => .nil
  | n + 1 => .cons h (All3.replicate h n)

theorem All3.eraseIdx {A B : Type} {R : A → B → List Nat → Prop} {as bs cs} (h : All3 R as bs cs) : ∀ (i : Nat) {a : A}, as[i]? = some a →
    ∃ b f pre post, bs[i]? = some b ∧ R a b f ∧ cs.flatten = pre ++ f ++ post ∧
      All3 R (as.eraseIdx i) (bs.eraseIdx i) (cs.eraseIdx i) ∧ (cs.eraseIdx i).flatten = pre ++ post := by
  induction h with
  | nil => intro i a h; simp at h
  | @cons a b c as bs cs h1 h2 ih =>
    intro i a' hi
    cases i with
    | zero =>
      simp only [List.getElem?_cons_zero, Option.some.injEq] at hi
      subst hi
      exact ⟨b, c, [], cs.flatten, rfl, h1, by simp, h2, rfl⟩
    | succ i =>
      simp only [List.getElem?_cons_succ] at hi
      obtain ⟨b', f, pre, post, q1, q2, q3, q4, q5⟩ := ih i hi
      exact ⟨b', f, c ++ pre, post, q1, q2, by simp [q3], .cons h1 q4, by simp [q5]⟩

theorem All3.emplace {R : Cell F → Value F → List Nat → Prop} (hR : R .null .null []) (k : List Nat) :
    ∀ {ms : List (List Nat × Cell F)} {us : List (List Nat × Value F)} {fps}, ms.map Prod.fst = us.map Prod.fst →
      All3 R (ms.map Prod.snd) (us.map Prod.snd) fps →
      (Map.emplace k .null ms).map Prod.fst = (Map.emplace k .null us).map Prod.fst ∧
      ∃ fps', All3 R ((Map.emplace k .null ms).map Prod.snd) ((Map.emplace k .null us).map Prod.snd) fps' ∧ fps'.flatten = fps.flatten := by
  intro ms
  induction ms with
  | nil =>
    intro us fps hk h
    cases us with
    | nil =>
      cases h
      exact ⟨rfl, [[]], .cons hR .nil, rfl⟩
    | cons u us => simp at hk
  | cons m ms ih =>
    intro us fps hk h
    cases us with
    | nil => simp at hk
    | cons u us =>
      obtain ⟨km, cm⟩ := m
      obtain ⟨ku, vu⟩ := u
      simp only [List.map_cons, List.cons.injEq] at hk
      obtain ⟨hk1, hk2⟩ := hk
      subst hk1
      cases h with
      | cons h1 h2 =>
        obtain ⟨i1, fps', i2, i3⟩ := ih hk2 h2
        simp only [Map.emplace]
        split
        · exact ⟨by simp [hk2], [] :: _, .cons hR (.cons h1 h2), by simp⟩
        · split
          · exact ⟨by simp [i1], _ :: fps', .cons h1 i2, by simp [i3]⟩
          · exact ⟨by simp [hk2], _, .cons h1 h2, rfl⟩

theorem find_isNone {A B : Type} (k : List Nat) : ∀ {ms : List (List Nat × A)} {us : List (List Nat × B)}, ms.map Prod.fst = us.map Prod.fst →
    (Map.find k ms).isNone = (Map.find k us).isNone := by
  intro ms
  induction ms with
  | nil => intro us h; cases us with
    | nil => rfl
    | cons u us => simp at h
  | cons m ms ih =>
    intro us h
    cases us with
    | nil => simp at h
    | cons u us =>
      simp only [List.map_cons, List.cons.injEq] at h
      obtain ⟨km, cm⟩ := m
      obtain ⟨ku, vu⟩ := u
      obtain ⟨h1, h2⟩ := h
      simp only at h1
      subst h1
      simp only [Map.find]
      split
      · rfl
      · split
        · exact ih h2
        · rfl

/-! ## Operations -/

theorem onHeap_ok {A : Type} {m : M (Heap F) A} {s : State F} {r : A} {h : Heap F} (e : m s.heap = (.ok r, h)) :
    State.onHeap m s = (.ok r, { s with heap := h }) := by simp only [State.onHeap, e]

theorem onHeap_error {A : Type} {m : M (Heap F) A} {s : State F} {r : Stop} {h : Heap F} (e : m s.heap = (.error r, h)) :
    State.onHeap m s = (.error r, { s with heap := h }) := by simp only [State.onHeap, e]

theorem attemptIf_cases (b : Bool) {h : Heap F} (hf : Fresh h) :
    (∃ h', Heap.attemptIf b h = (.ok (), h') ∧ Grew h h' ∧ AllGood h h' ∧ h'.mem = h.mem ∧ h'.next = h.next) ∨
    (∃ h', Heap.attemptIf b h = (.error (.exn .badAlloc), h') ∧ Grew h h' ∧ Failed h h' ∧ h'.mem = h.mem ∧ h'.next = h.next) := by
  cases b with
  | true => exact attempt_cases hf
  | false => exact .inl ⟨h, rfl, .refl hf, .refl h, rfl, rfl⟩

/-- An allocation that changed nothing in memory. -/
theorem Owns.tick_well {s : State F} {fp} {h' : Heap F} (g : Grew s.heap h')
    (ag : AllGood s.heap h') (hm : h'.mem = s.heap.mem) : Well s fp { s with heap := h' } fp := by
  refine ⟨?_, g.next, g.plan, g.tick, ag, fun a _ hr => by simp only [hm]; exact hr⟩
  intro a
  simp only [Leaked, hm]

theorem Owns.tick_ill {s : State F} {fp} {h' : Heap F} (g : Grew s.heap h')
    (fl : Failed s.heap h') (hm : h'.mem = s.heap.mem) : Ill s fp { s with heap := h' } fp := by
  refine ⟨?_, ?_, g.next, g.plan, g.tick, fl, fun a _ hr => by simp only [hm]; exact hr⟩
  · intro a ha
    simp only [Leaked, hm]
    exact ha
  · intro a ha
    simp only [Leaked, hm] at ha
    exact .inl ha

/-- A variable becomes the last element of an array. -/
theorem Owns.absorb {s : State F} {V : Var → Option (Value F)} {fp} (h : Owns s V fp) {t x : Var} (htx : t ≠ x) {p l a}
    (hat : At s x p l (.arr a)) {us : List (Value F)} {w : Value F} {ct : Cell F} (hu : vget V x p = some (.arr us)) (hw : V t = some w)
    (hc : s.vars t = some ct) :
    ∃ cs fp', s.heap.mem a = some (.arr cs) ∧
      Owns { heap := { s.heap with mem := upd s.heap.mem a (some (.arr (cs ++ [ct]))) }, vars := upd s.vars t none }
        (upd (vset V x p (.arr (us ++ [w]))) t none) fp' ∧
      ∀ b, Owned fp' b ↔ Owned fp b := by
  obtain ⟨r, n, hr, hn⟩ := h.alive hw
  rw [hc] at hr
  injection hr with hr
  subst hr
  have h0 := h.close t
  obtain ⟨m, fu, h1, h2, h3, h4⟩ := h0.inplace (hat.vars htx none) (u := .arr us) (by rw [vget_upd htx]; exact hu)
  obtain ⟨a', cs, fps, k, e1, e2, e3, e4⟩ := h1.arr_inv
  injection e1 with e1
  subst e1
  refine ⟨cs, ?_⟩
  have hst := (hat.vars htx (none : Option (Cell F))).store_self
  have hdis : ∀ b ∈ fp t, b ∉ fu := by
    intro b hb hf
    have := h3 b hf
    rw [upd_ne _ _ (Ne.symm htx)] at this
    exact h.disjoint t x htx b hb this
  have ha : a ∉ fps.flatten := by
    rw [e4] at h2
    exact (List.nodup_cons.1 h2).1
  have hat' : a ∉ fp t := fun hb => hdis a hb (by rw [e4]; simp)
  obtain ⟨fp', r1, r2⟩ := h4 { heap := { s.heap with mem := upd s.heap.mem a (some (.arr (cs ++ [ct]))) }, vars := upd s.vars t none }
    (.arr a) (.arr (us ++ [w])) (fu ++ fp t) (max k n + 1) (by rw [hst]) (by
      intro b hb1 hb2
      rw [hst]
      have : b ≠ a := by
        intro e
        rw [e4, e] at hb1
        simp at hb1
      simp only [upd_ne _ _ this])
    (by
      refine .inr ⟨a, .arr (cs ++ [ct]), fps ++ [fp t], upd_eq _ _ _, rfl, ?_, by rw [e4]; simp⟩
      refine All3.append (e3.imp ?_) (.cons ?_ .nil)
      · intro x y z hz hxy
        refine (hxy.mono (Nat.le_max_left k n)).frame ?_
        intro b hb
        refine upd_ne _ _ ?_
        intro e
        exact ha (e ▸ List.mem_flatten.2 ⟨z, hz, hb⟩)
      · refine (hn.mono (Nat.le_max_right k n)).frame ?_
        intro b hb
        refine upd_ne _ _ ?_
        intro e
        exact hat' (e ▸ hb))
    (by
      rw [List.nodup_append]
      exact ⟨h2, h.nodup t, fun b hb c hc e => hdis c hc (e ▸ hb)⟩)
    (by
      intro b hb
      rcases List.mem_append.1 hb with g | g
      · exact .inl g
      · refine .inr fun y hy => ?_
        by_cases e : y = t
        · subst e; rw [upd_eq] at hy; cases hy
        · rw [upd_ne _ _ e] at hy
          exact h.disjoint t y (Ne.symm e) b g hy)
    (by
      intro b hb
      have hbn : s.heap.mem b = none := h.fresh b hb
      have : b ≠ a := by
        intro e
        rw [e] at hbn
        rw [show s.heap.mem a = some (.arr cs) from e2] at hbn
        cases hbn
      simp only [upd_ne _ _ this, hbn])
  refine ⟨fp', e2, ?_, ?_⟩
  · rw [vset_upd htx] at r1
    exact r1
  · intro b
    rw [r2]
    constructor
    · rintro (⟨⟨y, hy⟩, _⟩ | hb)
      · by_cases e : y = t
        · subst e; rw [upd_eq] at hy; cases hy
        · rw [upd_ne _ _ e] at hy; exact ⟨y, hy⟩
      · rcases List.mem_append.1 hb with g | g
        · have := h3 b g
          rw [upd_ne _ _ (Ne.symm htx)] at this
          exact ⟨x, this⟩
        · exact ⟨t, g⟩
    · rintro ⟨y, hy⟩
      by_cases e : y = t
      · subst e; exact .inr (by simp [hy])
      · by_cases hf : b ∈ fu
        · exact .inr (by simp [hf])
        · exact .inl ⟨⟨y, by rw [upd_ne _ _ e]; exact hy⟩, hf⟩

end Spec
