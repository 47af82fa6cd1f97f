import Verif.Proofs.HeapBlocks
/-!
# Operations on containers in memory
-/
namespace Spec
open Configor

variable {F : Type}

theorem Owns.at_null {s : State F} {V : Var → Option (Value F)} {fp} (h : Owns s V fp) {x p l c} (hat : At s x p l c)
    (hu : vget V x p = some .null) : c = .null := by
  obtain ⟨m, fu, h1, _⟩ := h.inplace hat hu
  have := h1.flat_inv ⟨by simp, by simp⟩
  cases c <;> simp [Flat] at this ⊢

theorem Owns.at_not_null {s : State F} {V : Var → Option (Value F)} {fp} (h : Owns s V fp) {x p l} (hat : At s x p l .null)
    {u : Value F} (hu : vget V x p = some u) : u = .null := by
  obtain ⟨m, fu, h1, _⟩ := h.inplace hat hu
  cases m with
  | zero => have h' : Flat s.heap.mem .null u fu := h1; cases u <;> simp [Flat] at h' ⊢
  | succ m =>
    rcases h1 with h1 | ⟨a, b, fps, _, h2, _⟩
    · cases u <;> simp [Flat] at h1 ⊢
    · exact h2.elim

theorem Owns.at_arr {s : State F} {V : Var → Option (Value F)} {fp} (h : Owns s V fp) {x p l c} (hat : At s x p l c)
    {us : List (Value F)} (hu : vget V x p = some (.arr us)) : ∃ a, c = .arr a := by
  obtain ⟨m, fu, h1, _⟩ := h.inplace hat hu
  obtain ⟨a, _, _, _, e, _⟩ := h1.arr_inv
  exact ⟨a, e⟩

theorem Owns.at_obj {s : State F} {V : Var → Option (Value F)} {fp} (h : Owns s V fp) {x p l c} (hat : At s x p l c)
    {us : List (List Nat × Value F)} (hu : vget V x p = some (.obj us)) : ∃ a, c = .obj a := by
  obtain ⟨m, fu, h1, _⟩ := h.inplace hat hu
  obtain ⟨a, _, _, _, e, _⟩ := h1.obj_inv
  exact ⟨a, e⟩

/-- A null has no parts. -/
theorem At.null_leaf {s : State F} {x p l r k d} (h1 : At s x p l .null) (h2 : At s x r k d) : ¬ (p <+: r ∧ p ≠ r) := by
  rintro ⟨⟨q, rfl⟩, hne⟩
  obtain ⟨c, hc, hf⟩ := h1
  obtain ⟨c', hc', hf'⟩ := h2
  rw [hc] at hc'
  injection hc' with hc'
  subst hc'
  rw [find_append, hf] at hf'
  cases q with
  | nil => simp at hne
  | cons i q => simp [find, Cell.addr] at hf'

/-- No variables but those of the program are alive. -/
structure Quiet (V : Var → Option (Value F)) : Prop where
  tmp : V .tmp = none
  arg : V .arg = none
  ghost : V .ghost = none

theorem Quiet.vset {V : Var → Option (Value F)} (q : Quiet V) (x : Var) (p : List Nat) (w : Value F) : Quiet (vset V x p w) := by
  have : ∀ t, V t = none → Spec.vset V x p w t = none := by
    intro t ht
    simp only [Spec.vset, upd]
    split
    · next e => subst e; simp [ht]
    · exact ht
  exact ⟨this _ q.tmp, this _ q.arg, this _ q.ghost⟩

/-- What `Owns.fill` and those after it say about a beginning of an operation. -/
def Begins {A : Type} (m : M (State F) A) (s : State F) (fp : Var → List Nat) (V V' : Var → Option (Value F)) (P : A → State F → Prop) : Prop :=
  (∃ r s' fp', m s = (.ok r, s') ∧ Owns s' V' fp' ∧ Well s fp s' fp' ∧ P r s' ∧ ∀ z r k d, At s z r k d → ∃ d', At s' z r k d') ∨
  (∃ s', m s = (.error (.exn .badAlloc), s') ∧ Owns s' V fp ∧ Ill s fp s' fp)

theorem Owns.fill {s : State F} {V : Var → Option (Value F)} {fp} (h : Owns s V fp) (hq : Quiet V) {x : Var} {p : List Nat} {l c}
    (h1 : At s x p l c) {u v : Value F} (hu : vget V x p = some u) (hv : kids v = []) :
    Begins (State.fill l v) s fp V (vset V x p (fillWith v u)) fun _ _ => True := by
  by_cases hc : c = .null
  · subst hc
    have := h.at_not_null h1 hu
    subst this
    have e : State.fill l v s = State.become l v s := by
      simp only [State.fill]
      rw [M.bind_ok h1.read]
    rcases h.become hq.tmp hq.ghost hq.arg h1 hu hv with ⟨s', fp', e1, o1, w1, p1⟩ | ⟨s', e1, o1, i1⟩
    · refine .inl ⟨(), s', fp', e.trans e1, o1, w1, trivial, ?_⟩
      intro z r k d hk
      refine p1 z r k d hk ?_
      rintro ⟨rfl, hp⟩
      exact h1.null_leaf hk hp
    · exact .inr ⟨s', e.trans e1, o1, i1⟩
  · have hun : fillWith v u = u := by
      cases u with
      | null => exact absurd (h.at_null h1 hu) hc
      | _ => rfl
    have e : State.fill l v s = (.ok (), s) := by
      simp only [State.fill]
      rw [M.bind_ok h1.read]
      cases c <;> first | rfl | exact absurd rfl hc
    refine .inl ⟨(), s, fp, e, ?_, .refl s fp, trivial, fun z r k d hk => ⟨d, hk⟩⟩
    rw [hun, vset_self hu]
    exact h

theorem Owns.asArray {s : State F} {V : Var → Option (Value F)} {fp} (h : Owns s V fp) (hq : Quiet V) (er : Err) {x : Var} {p : List Nat} {l c}
    (h1 : At s x p l c) {u : Value F} (hu : vget V x p = some u) {us : List (Value F)} (hus : fillWith (.arr []) u = .arr us) :
    Begins (State.asArray er l) s fp V (vset V x p (.arr us)) fun a s' => At s' x p l (.arr a) := by
  rcases h.fill hq h1 hu (v := .arr []) rfl with ⟨_, s', fp', e1, o1, w1, _, p1⟩ | ⟨s', e1, o1, i1⟩
  · rw [hus] at o1
    obtain ⟨d, hd⟩ := p1 x p l c h1
    obtain ⟨a, rfl⟩ := o1.at_arr hd (vget_vset hu _)
    refine .inl ⟨a, s', fp', ?_, o1, w1, hd, p1⟩
    simp only [State.asArray]
    rw [M.bind_ok e1, M.bind_ok hd.read]
    rfl
  · refine .inr ⟨s', ?_, o1, i1⟩
    simp only [State.asArray]
    rw [M.bind_error e1]

theorem Owns.asObject {s : State F} {V : Var → Option (Value F)} {fp} (h : Owns s V fp) (hq : Quiet V) (er : Err) {x : Var} {p : List Nat} {l c}
    (h1 : At s x p l c) {u : Value F} (hu : vget V x p = some u) {us : List (List Nat × Value F)} (hus : fillWith (.obj []) u = .obj us) :
    Begins (State.asObject er l) s fp V (vset V x p (.obj us)) fun a s' => At s' x p l (.obj a) := by
  rcases h.fill hq h1 hu (v := .obj []) rfl with ⟨_, s', fp', e1, o1, w1, _, p1⟩ | ⟨s', e1, o1, i1⟩
  · rw [hus] at o1
    obtain ⟨d, hd⟩ := p1 x p l c h1
    obtain ⟨a, rfl⟩ := o1.at_obj hd (vget_vset hu _)
    refine .inl ⟨a, s', fp', ?_, o1, w1, hd, p1⟩
    simp only [State.asObject]
    rw [M.bind_ok e1, M.bind_ok hd.read]
    rfl
  · refine .inr ⟨s', ?_, o1, i1⟩
    simp only [State.asObject]
    rw [M.bind_error e1]

theorem copyConstruct_copy {s : State F} {t : Var} {l : Loc} {c : Cell F} (hr : State.read l s = (.ok c, s)) :
    State.copyConstruct t l s = match Heap.copy s.depth c s.heap with
      | (.ok c', h') => (.ok (), { heap := h', vars := upd s.vars t (some c') })
      | (.error e, h') => (.error e, { s with heap := h' }) := by
  simp only [State.copyConstruct]
  rw [M.bind_ok hr, M.bind_ok (show M.gets State.depth s = (.ok s.depth, s) from rfl)]
  cases e : Heap.copy s.depth c s.heap with
  | mk r h' =>
    cases r with
    | ok c' => rw [M.bind_ok (onHeap_ok e)]; rfl
    | error st => rw [M.bind_error (onHeap_error e)]

theorem vset_at {V : Var → Option (Value F)} {x : Var} {p : List Nat} {w w' : Value F} (h : vget V x p = some w') :
    vget (vset V x p w) x p = some w := vget_vset h w

theorem Leaked.congr {s s' : State F} {fp fp' : Var → List Nat} (hm : ∀ a, s'.heap.mem a = none ↔ s.heap.mem a = none)
    (ho : ∀ a, Owned fp' a ↔ Owned fp a) (a : Nat) : Leaked s' fp' a ↔ Leaked s fp a := by
  simp only [Leaked, ho, ne_eq, hm]

theorem upd_alloc {mem : Nat → Option (Block F)} {a : Nat} {b b' : Block F} (h : mem a = some b) (x : Nat) :
    upd mem a (some b') x = none ↔ mem x = none := by
  by_cases e : x = a
  · subst e; simp [upd_eq, h]
  · rw [upd_ne _ _ e]

theorem upd_raw {mem : Nat → Option (Block F)} {a : Nat} {b : Block F} {o : Option (Block F)} (h : mem a = some b) (hb : b ≠ .raw) (x : Nat)
    (hx : mem x = some .raw) : upd mem a o x = some .raw := by
  rw [upd_ne _ _, hx]
  intro e
  subst e
  rw [h] at hx
  injection hx with hx
  exact hb hx

/-- `push_back` of a copy. -/
theorem Owns.pushBack {s : State F} {V : Var → Option (Value F)} {fp} (h : Owns s V fp) (hq : Quiet V) {x y : Var} {p q : List Nat} {l c l' c'}
    (h1 : At s x p l c) (h2 : At s y q l' c') {u w : Value F} (hu : vget V x p = some u) {us : List (Value F)}
    (hus : fillWith (.arr []) u = .arr us) (hw : vget (vset V x p (.arr us)) y q = some w) :
    Ends (State.pushBack l l') s fp (vset V x p (.arr (us ++ [w]))) fun V'' => V'' = V ∨ V'' = vset V x p (.arr us) := by
  rcases h.asArray hq .typeError h1 hu hus with ⟨a, s1, f1, e1, o1, w1, a1, p1⟩ | ⟨s1, e1, o1, i1⟩
  · obtain ⟨d, b1⟩ := p1 _ _ _ _ h2
    rcases attempt_cases o1.fresh with ⟨g, e2, gr2, ag2, m2, n2⟩ | ⟨g, e2, gr2, fl2, m2, n2⟩
    · have w2 := Owns.tick_well (fp := f1) gr2 ag2 m2
      have o2 := o1.grew gr2
      have a2 := a1.grew gr2 o1.fresh
      have b2 := b1.grew gr2 o1.fresh
      have hgh := (hq.vset x p (.arr us)).ghost
      obtain ⟨v, w', k1, k2, k3⟩ := o2.copyConstruct (t := .ghost) b2
      have hww : w' = w := by
        simp only [vget, k1, Option.bind_some, k2] at hw
        injection hw
      subst hww
      have hgx : Var.ghost ≠ x := o2.ne hgh a2
      rw [copyConstruct_copy b2.read] at k3
      cases hcp : Heap.copy (State.depth { s1 with heap := g }) d g with
      | mk r h' =>
        rw [hcp] at k3
        cases r with
        | ok c2 =>
          simp only at k3
          rcases k3 with ⟨s3, fw, e3, o3, gr3, ag3, _, hfw⟩ | ⟨s3, e3, _⟩
          · injection e3 with _ e3
            subst e3
            have w3 := o2.well_grew (t := .ghost) (o2.dead hgh).2 gr3 ag3 hfw
            have a3 : At { heap := h', vars := upd s1.vars .ghost (some c2) } x p l (.arr a) := (a2.grew gr3 o2.fresh).vars hgx (some c2)
            obtain ⟨cs, f4, m4, o4, ow⟩ := o3.absorb hgx a3 (us := us) (w := w') (ct := c2)
              (by rw [vget_upd hgx]; exact vget_vset hu _) (upd_eq _ _ _) (by simp [upd_eq])
            refine .inl ⟨{ heap := { h' with mem := upd h'.mem a (some (.arr (cs ++ [c2]))) }, vars := s1.vars }, f4, ?_, ?_,
              (w1.trans w2).trans (w3.trans (Well.same ?_ ow rfl rfl rfl ?_))⟩
            · simp only [State.pushBack]
              have m4' : Heap.vector a h' = (.ok cs, h') := by simp only [Heap.vector, show h'.mem a = some (.arr cs) from m4]
              rw [M.bind_ok e1, M.bind_ok (onHeap_ok e2), M.bind_ok b2.read, M.bind_ok (show M.gets State.depth _ = (.ok _, _) from rfl),
                M.bind_ok (onHeap_ok hcp), M.bind_ok (onHeap_ok m4')]
              exact onHeap_ok (put_ok m4)
            · rw [vset_upd hgx, upd_same, vset_vset hu, upd_same, upd_vset_none hgx hq.ghost] at o4
              have : upd s1.vars .ghost none = s1.vars := by rw [← (o1.dead hgh).1, upd_self]
              rw [this] at o4
              exact o4
            · exact upd_alloc m4
            · exact upd_raw m4 (by simp)
          · injection e3 with e3
            cases e3
        | error st =>
          simp only at k3
          rcases k3 with ⟨s3, fw, e3, _⟩ | ⟨s3, e3, o3, gr3, fl3, rb3, _⟩
          · injection e3 with e3
            cases e3
          · injection e3 with e3 e4
            injection e3 with e3
            subst e3 e4
            refine .inr ⟨_, f1, _, ?_, o3, (w1.trans w2).ill (o2.ill_grew gr3 fl3 rb3), .inr rfl⟩
            simp only [State.pushBack]
            rw [M.bind_ok e1, M.bind_ok (onHeap_ok e2), M.bind_ok b2.read, M.bind_ok (show M.gets State.depth _ = (.ok _, _) from rfl),
              M.bind_error (onHeap_error hcp)]
    · refine .inr ⟨_, f1, _, ?_, o1.grew gr2, w1.ill (Owns.tick_ill gr2 fl2 m2), .inr rfl⟩
      simp only [State.pushBack]
      rw [M.bind_ok e1, M.bind_error (onHeap_error e2)]
  · refine .inr ⟨s1, fp, V, ?_, o1, i1, .inl rfl⟩
    simp only [State.pushBack]
    rw [M.bind_error e1]

/-- `push_back` of a value that is moved from. -/
theorem Owns.pushMove {s : State F} {V : Var → Option (Value F)} {fp} (h : Owns s V fp) (hq : Quiet V) {x y : Var} {p q : List Nat} {l c l' c'}
    (h1 : At s x p l c) (h2 : At s y q l' c') (hns : ¬ (y = x ∧ q <+: p)) {u w : Value F} (hu : vget V x p = some u) {us us' : List (Value F)}
    (hus : fillWith (.arr []) u = .arr us) (hw : vget (vset V x p (.arr us)) y q = some w)
    (hus' : vget (vset (vset V x p (.arr us)) y q .null) x p = some (.arr us')) :
    Ends (State.pushMove l l') s fp (vset (vset (vset V x p (.arr us)) y q .null) x p (.arr (us' ++ [w])))
      fun V'' => V'' = V ∨ V'' = vset V x p (.arr us) := by
  rcases h.asArray hq .typeError h1 hu hus with ⟨a, s1, f1, e1, o1, w1, a1, p1⟩ | ⟨s1, e1, o1, i1⟩
  · obtain ⟨d, b1⟩ := p1 _ _ _ _ h2
    rcases attempt_cases o1.fresh with ⟨g, e2, gr2, ag2, m2, n2⟩ | ⟨g, e2, gr2, fl2, m2, n2⟩
    · have w2 := Owns.tick_well (fp := f1) gr2 ag2 m2
      have o2 := o1.grew gr2
      have a2 := a1.grew gr2 o1.fresh
      have b2 := b1.grew gr2 o1.fresh
      have hgh := (hq.vset x p (.arr us)).ghost
      have hgx : Var.ghost ≠ x := o2.ne hgh a2
      have hgy : Var.ghost ≠ y := o2.ne hgh b2
      obtain ⟨s3, f3, e3, o3, w3, hs3⟩ := o2.moveConstruct hgh b2 hw
      have hll : l ≠ l' := by
        intro e
        subst e
        obtain ⟨k1, k2, _⟩ := o2.at_inj b2 a2
        exact hns ⟨k1, by rw [k2]; exact List.prefix_refl _⟩
      have a3 := (o2.null hgh).at_xchg (t := .ghost) hgx (b2.vars hgy (some .null)) (a2.vars hgx (some .null)) (fun h => hns ⟨h.1, h.2.1⟩) .null
      rw [← hs3, if_neg hll] at a3
      have hv3 : s3.vars .ghost = some d := by rw [hs3]; simp [store, upd_eq]
      obtain ⟨cs, f4, m4, o4, ow⟩ := o3.absorb hgx a3 (us := us') (w := w) (ct := d)
        (by rw [vget_upd hgx]; exact hus') (upd_eq _ _ _) hv3
      -- without the extra variable
      have hst : store (store { s1 with heap := g, vars := upd s1.vars .ghost (some .null) } l' .null) (.var .ghost) d =
          { store { s1 with heap := g } l' .null with vars := upd (store { s1 with heap := g } l' .null).vars .ghost (some d) } := by
        rcases b2.cases with ⟨_, rfl, _⟩ | ⟨_, a', i, b, rfl, hh, _⟩
        · simp only [store]
          rw [upd_comm _ _ _ hgy, upd_same]
        · simp only at hh
          simp only [store, hh, upd_same]
      have hs3' : s3 = { store { s1 with heap := g } l' .null with vars := upd (store { s1 with heap := g } l' .null).vars .ghost (some d) } :=
        hs3.trans hst
      have hgv : (store { s1 with heap := g } l' .null).vars .ghost = none := by
        rw [b2.store_vars .null .ghost hgy]
        exact (o1.dead hgh).1
      refine .inl ⟨{ store { s1 with heap := g } l' .null with
          heap := { (store { s1 with heap := g } l' .null).heap with
            mem := upd (store { s1 with heap := g } l' .null).heap.mem a (some (.arr (cs ++ [d]))) } }, f4, ?_, ?_,
        (w1.trans w2).trans (w3.trans ?_)⟩
      · have m4' : (store { s1 with heap := g } l' .null).heap.mem a = some (.arr cs) := by rw [hs3'] at m4; exact m4
        have m5 : Heap.vector a (store { s1 with heap := g } l' .null).heap = (.ok cs, (store { s1 with heap := g } l' .null).heap) := by
          simp only [Heap.vector, m4']
        simp only [State.pushMove]
        rw [M.bind_ok e1, M.bind_ok (onHeap_ok e2), M.bind_ok b2.read, M.bind_ok (b2.write .null), M.bind_ok (onHeap_ok m5)]
        exact onHeap_ok (put_ok m4')
      · rw [vset_upd hgx, upd_same, upd_vset_none hgx ((hq.vset x p (.arr us)).vset y q .null).ghost, hs3'] at o4
        simp only [upd_same] at o4
        rw [show upd (store { s1 with heap := g } l' Cell.null).vars Var.ghost none = (store { s1 with heap := g } l' .null).vars by
          rw [← hgv, upd_self]] at o4
        exact o4
      · refine Well.same ?_ ow ?_ ?_ ?_ ?_
        · rw [hs3'] at m4 ⊢
          exact upd_alloc m4
        · rw [hs3']
        · rw [hs3']
        · rw [hs3']
        · rw [hs3'] at m4 ⊢
          exact upd_raw m4 (by simp)
    · refine .inr ⟨_, f1, _, ?_, o1.grew gr2, w1.ill (Owns.tick_ill gr2 fl2 m2), .inr rfl⟩
      simp only [State.pushMove]
      rw [M.bind_ok e1, M.bind_error (onHeap_error e2)]
  · refine .inr ⟨s1, fp, V, ?_, o1, i1, .inl rfl⟩
    simp only [State.pushMove]
    rw [M.bind_error e1]

/-- A container is changed in its block, with no other blocks. -/
theorem Owns.reblock {s : State F} {V : Var → Option (Value F)} {fp} (h : Owns s V fp) {x p l cu} (hat : At s x p l cu) {u : Value F}
    (hu : vget V x p = some u) {a : Nat} (ha : cu.addr = some a) :
    ∃ m b fps, s.heap.mem a = some b ∧ Node a cu b u ∧ All3 (Repr s.heap.mem m) b.cells (kids u) fps ∧ (a :: fps.flatten).Nodup ∧
      (∀ c ∈ fps.flatten, c < s.heap.next) ∧
      ∀ (h' : Heap F) b' u' fps' , (∀ c, c ∉ fps.flatten → h'.mem c = s.heap.mem c) → (∀ c ∈ fps'.flatten, c ∈ fps.flatten) →
        (∀ c ∈ fps'.flatten, h'.mem c = s.heap.mem c) → (∀ c ∈ fps.flatten, c ∉ fps'.flatten → h'.mem c = none) →
        Node a cu b' u' → All3 (Repr s.heap.mem m) b'.cells (kids u') fps' → fps'.flatten.Nodup →
        h'.next = s.heap.next → h'.plan = s.heap.plan → s.heap.tick ≤ h'.tick → AllGood s.heap h' →
        ∃ fp', Owns { s with heap := { h' with mem := upd h'.mem a (some b') } } (vset V x p u') fp' ∧
          Well s fp { s with heap := { h' with mem := upd h'.mem a (some b') } } fp' := by
  obtain ⟨m0, fu, h1, h2, h3, h4⟩ := h.inplace_well hat hu
  cases m0 with
  | zero => have h' : Flat s.heap.mem cu u fu := h1; rw [h'.addr] at ha; cases ha
  | succ m =>
    rcases h1 with h1 | ⟨a', b, fps, k1, k2, k3, k4⟩
    · rw [h1.addr] at ha; cases ha
    · have := k2.addr
      rw [ha] at this
      injection this with this
      subst this k4
      refine ⟨m, b, fps, k1, k2, k3, h2, fun c hc => (h.alloc (h3 c (by simp [hc]))).2, ?_⟩
      intro h' b' u' fps' q1 q2 q3 q4 q5 q6 q7 q8 q9 q10 q11
      have hna : a ∉ fps.flatten := (List.nodup_cons.1 h2).1
      have hna' : a ∉ fps'.flatten := fun hc => hna (q2 a hc)
      have hst := hat.store_self
      refine h4 _ cu u' (a :: fps'.flatten) (m + 1) (by rw [hst]) ?_ ?_ (List.nodup_cons.2 ⟨hna', q7⟩) ?_ ?_ ?_ (by simp [q8]) q9 q10 q11
      · intro c hc1 hc2
        rw [hst]
        simp only [List.mem_cons, not_or] at hc1 hc2
        simp only [upd_ne _ _ hc1.1]
        exact q1 c hc1.2
      · refine .inr ⟨a, b', fps', upd_eq _ _ _, q5, ?_, rfl⟩
        refine q6.imp ?_
        intro x y z hz hxy
        refine hxy.frame ?_
        intro c hc
        have hc' : c ∈ fps'.flatten := List.mem_flatten.2 ⟨z, hz, hc⟩
        have : c ≠ a := fun e => hna' (e ▸ hc')
        simp only [upd_ne _ _ this]
        exact q3 c hc'
      · intro c hc
        rcases List.mem_cons.1 hc with rfl | hc
        · exact .inl (by simp)
        · exact .inl (by simp [q2 c hc])
      · intro c hc1 hc2
        simp only [List.mem_cons, not_or] at hc2
        rcases List.mem_cons.1 hc1 with e | hc1
        · exact absurd e hc2.1
        · simp only [upd_ne _ _ hc2.1]
          exact q4 c hc1 hc2.2
      · intro c hc
        have hc' : s.heap.next ≤ c := by simp only at hc; rw [q8] at hc; exact hc
        have hcn := h.fresh c hc'
        have : c ≠ a := by
          intro e
          rw [e, k1] at hcn
          cases hcn
        simp only [upd_ne _ _ this]
        rw [q1 c, hcn]
        intro hcf
        have := (h.alloc (h3 c (by simp [hcf]))).2
        omega

/-- `operator[](key)`. -/
theorem Owns.touchKey {s : State F} {V : Var → Option (Value F)} {fp} (h : Owns s V fp) (hq : Quiet V) (k : List Nat) {x : Var} {p : List Nat} {l c}
    (h1 : At s x p l c) {u : Value F} (hu : vget V x p = some u) {us : List (List Nat × Value F)} (hus : fillWith (.obj []) u = .obj us) :
    Ends (State.touchKey l k) s fp (vset V x p (.obj (Map.emplace k .null us))) fun V'' => V'' = V ∨ V'' = vset V x p (.obj us) := by
  rcases h.asObject hq .invalidKey h1 hu hus with ⟨a, s1, f1, e1, o1, w1, a1, p1⟩ | ⟨s1, e1, o1, i1⟩
  · obtain ⟨m, b, fps, k1, k2, k3, k4, k5, k6⟩ := o1.reblock a1 (vget_vset hu _) (a := a) rfl
    cases b <;> simp only [Node] at k2
    rename_i ms
    have em : Heap.map a s1.heap = (.ok ms, s1.heap) := by simp only [Heap.map, k1]
    rcases attemptIf_cases (Map.find k ms).isNone o1.fresh with ⟨g, e2, gr2, ag2, m2, n2⟩ | ⟨g, e2, gr2, fl2, m2, n2⟩
    · obtain ⟨j1, fps', j2, j3⟩ := All3.emplace (R := Repr s1.heap.mem m) (by cases m <;> simp [Repr, Flat]) k k2.2 k3
      obtain ⟨fp', r1, r2⟩ := k6 g (.obj (Map.emplace k .null ms)) (.obj (Map.emplace k .null us)) fps' (fun c _ => by rw [m2])
        (fun c hc => by rw [j3] at hc; exact hc) (fun c _ => by rw [m2]) (fun c h1 h2 => absurd (by rw [j3]; exact h1) h2) ⟨rfl, j1⟩
        j2 (by rw [j3]; exact (List.nodup_cons.1 k4).2) n2 gr2.plan gr2.tick ag2
      rw [vset_vset hu] at r1
      refine .inl ⟨_, fp', ?_, r1, w1.trans r2⟩
      simp only [State.touchKey]
      rw [M.bind_ok e1, M.bind_ok (onHeap_ok em), M.bind_ok (onHeap_ok e2)]
      refine onHeap_ok (put_ok (b := .obj ms) ?_)
      simp only [m2, k1]
    · refine .inr ⟨_, f1, _, ?_, o1.grew gr2, w1.ill (Owns.tick_ill gr2 fl2 m2), .inr rfl⟩
      simp only [State.touchKey]
      rw [M.bind_ok e1, M.bind_ok (onHeap_ok em), M.bind_error (onHeap_error e2)]
  · refine .inr ⟨s1, fp, V, ?_, o1, i1, .inl rfl⟩
    simp only [State.touchKey]
    rw [M.bind_error e1]

theorem flatten_replicate_nil (n : Nat) : (List.replicate n ([] : List Nat)).flatten = [] := by
  induction n with
  | zero => rfl
  | succ n ih => simp [List.replicate_succ, ih]

/-- `operator[](index)`. -/
theorem Owns.touchIndex {s : State F} {V : Var → Option (Value F)} {fp} (h : Owns s V fp) (hq : Quiet V) (i : Nat) {x : Var} {p : List Nat} {l c}
    (h1 : At s x p l c) {u : Value F} (hu : vget V x p = some u) {us : List (Value F)} (hus : fillWith (.arr []) u = .arr us) :
    Ends (State.touchIndex l i) s fp (vset V x p (.arr (us ++ List.replicate (i + 1 - us.length) .null)))
      fun V'' => V'' = V ∨ V'' = vset V x p (.arr us) := by
  rcases h.asArray hq .invalidKey h1 hu hus with ⟨a, s1, f1, e1, o1, w1, a1, p1⟩ | ⟨s1, e1, o1, i1⟩
  · obtain ⟨m, b, fps, k1, k2, k3, k4, k5, k6⟩ := o1.reblock a1 (vget_vset hu _) (a := a) rfl
    cases b <;> simp only [Node] at k2
    rename_i cs
    have em : Heap.vector a s1.heap = (.ok cs, s1.heap) := by simp only [Heap.vector, k1]
    have hlen : cs.length = us.length := k3.length.1
    rcases attemptIf_cases (decide (cs.length ≤ i)) o1.fresh with ⟨g, e2, gr2, ag2, m2, n2⟩ | ⟨g, e2, gr2, fl2, m2, n2⟩
    · have j2 := k3.append (All3.replicate (R := Repr s1.heap.mem m) (a := .null) (b := .null) (c := [])
        (by cases m <;> simp [Repr, Flat]) (i + 1 - us.length))
      have j3 : (fps ++ List.replicate (i + 1 - us.length) []).flatten = fps.flatten := by
        rw [List.flatten_append, flatten_replicate_nil, List.append_nil]
      obtain ⟨fp', r1, r2⟩ := k6 g (.arr (cs ++ List.replicate (i + 1 - us.length) Cell.null)) (.arr (us ++ List.replicate (i + 1 - us.length) Value.null))
        (fps ++ List.replicate (i + 1 - us.length) []) (fun c _ => by rw [m2])
        (fun c hc => by rw [j3] at hc; exact hc) (fun c _ => by rw [m2]) (fun c h1 h2 => absurd (by rw [j3]; exact h1) h2) rfl
        j2 (by rw [j3]; exact (List.nodup_cons.1 k4).2) n2 gr2.plan gr2.tick ag2
      rw [vset_vset hu] at r1
      refine .inl ⟨_, fp', ?_, r1, w1.trans r2⟩
      simp only [State.touchIndex]
      rw [M.bind_ok e1, M.bind_ok (onHeap_ok em), M.bind_ok (onHeap_ok e2), hlen]
      refine onHeap_ok (put_ok (b := .arr cs) ?_)
      simp only [m2, k1]
    · refine .inr ⟨_, f1, _, ?_, o1.grew gr2, w1.ill (Owns.tick_ill gr2 fl2 m2), .inr rfl⟩
      simp only [State.touchIndex]
      rw [M.bind_ok e1, M.bind_ok (onHeap_ok em), M.bind_error (onHeap_error e2)]
  · refine .inr ⟨s1, fp, V, ?_, o1, i1, .inl rfl⟩
    simp only [State.touchIndex]
    rw [M.bind_error e1]

theorem Node.empty {a : Nat} {c : Cell F} {b : Block F} {v : Value F} (h : Node a c b v) :
    (∃ cs xs, c = .arr a ∧ b = .arr cs ∧ v = .arr xs) ∨ (∃ ms xs, c = .obj a ∧ b = .obj ms ∧ v = .obj xs ∧ ms.map Prod.fst = xs.map Prod.fst) := by
  cases c <;> cases b <;> cases v <;> simp only [Node] at h
  · subst h; exact .inl ⟨_, _, rfl, rfl, rfl⟩
  · obtain ⟨rfl, h⟩ := h; exact .inr ⟨_, _, rfl, rfl, rfl, h⟩

theorem Owns.depth_ok {s : State F} {V : Var → Option (Value F)} {fp} (h : Owns s V fp) {x : Var} {fu : List Nat} (hf : ∀ a ∈ fu, a ∈ fp x)
    (hn : fu.Nodup) : fu.length ≤ s.heap.next :=
  length_le_of_nodup _ _ hn fun a ha => (h.alloc (hf a ha)).2

theorem All3.deep {mem : Nat → Option (Block F)} {m : Nat} {cs : List (Cell F)} {vs : List (Value F)} {fps : List (List Nat)} {k : Nat}
    (h : All3 (Repr mem m) cs vs fps) (hk : fps.flatten.length ≤ k) : All3 (Repr mem k) cs vs fps :=
  h.imp fun _ _ _ hc hr => hr.depth.mono (Nat.le_trans (length_le_flatten hc) hk)

/-- `clear()`. -/
theorem Owns.clear {s : State F} {V : Var → Option (Value F)} {fp} (h : Owns s V fp) (zero : F) {x : Var} {p : List Nat} {l c}
    (h1 : At s x p l c) {u : Value F} (hu : vget V x p = some u) :
    ∃ s' fp', State.clear zero l s = (.ok (), s') ∧ Owns s' (vset V x p (emptied zero u)) fp' ∧ Well s fp s' fp' := by
  have hgets : M.gets State.depth s = (.ok s.depth, s) := rfl
  have scalar : ∀ c', Flat s.heap.mem c u [] → (∀ mem, Flat mem c' (emptied zero u) []) →
      State.clear zero l s = State.write l c' s →
      ∃ s' fp', State.clear zero l s = (.ok (), s') ∧ Owns s' (vset V x p (emptied zero u)) fp' ∧ Well s fp s' fp' := by
    intro c' hf hf' e
    obtain ⟨m, fu, k1, k2, k3, k4⟩ := h.inplace_well h1 hu
    have := (Repr.unique (n := 0) (show Repr s.heap.mem 0 c u [] from hf) k1).2
    subst this
    obtain ⟨fp', r1, r2⟩ := k4 (store s l c') c' _ [] 0 rfl (fun _ _ _ => rfl) (hf' _) (by simp) (by simp) (by simp)
      (by intro a ha; rw [store_next] at ha; exact (store_alloc _ _ _ a).2 (h.fresh a ha)) (by rw [store_next]; exact Nat.le_refl _)
      (store_plan _ _ _).1 (by rw [(store_plan _ _ _).2]; exact Nat.le_refl _) (.of_tick (store_plan _ _ _).2)
    exact ⟨_, fp', by rw [e]; exact h1.write c', r1, r2⟩
  obtain ⟨m, fu, g1, g2, g3, g4⟩ := h.inplace_well h1 hu
  cases hc : c.addr with
  | none =>
    have hf : Flat s.heap.mem c u fu := by
      cases m with
      | zero => exact g1
      | succ m =>
        rcases g1 with g1 | ⟨a, b, fps, q1, q2, _⟩
        · exact g1
        · rw [q2.addr] at hc; cases hc
    cases c <;> cases u <;> simp only [Flat] at hf
    · subst hf
      refine ⟨s, fp, ?_, by rw [show emptied zero (.null : Value F) = .null from rfl, vset_self hu]; exact h, .refl s fp⟩
      simp only [State.clear]
      rw [M.bind_ok hgets, M.bind_ok h1.read]
      rfl
    · obtain ⟨rfl, rfl⟩ := hf
      refine scalar (.bool false) ⟨rfl, rfl⟩ (fun _ => ⟨rfl, rfl⟩) ?_
      simp only [State.clear]
      rw [M.bind_ok hgets, M.bind_ok h1.read]
    · obtain ⟨rfl, rfl⟩ := hf
      refine scalar (.int 0) ⟨rfl, rfl⟩ (fun _ => ⟨rfl, rfl⟩) ?_
      simp only [State.clear]
      rw [M.bind_ok hgets, M.bind_ok h1.read]
    · obtain ⟨rfl, rfl⟩ := hf
      refine scalar (.flt zero) ⟨rfl, rfl⟩ (fun _ => ⟨rfl, rfl⟩) ?_
      simp only [State.clear]
      rw [M.bind_ok hgets, M.bind_ok h1.read]
    · rename_i a str
      obtain ⟨hm, rfl⟩ := hf
      have hst := h1.store_self
      obtain ⟨fp', r1, r2⟩ := g4 { s with heap := { s.heap with mem := upd s.heap.mem a (some (.str [])) } } (.str a) (.str []) [a] 0
        (by rw [hst]) (by
          intro b hb _
          rw [hst]
          simp only [List.mem_singleton] at hb
          simp only [upd_ne _ _ hb]) ⟨upd_eq _ _ _, rfl⟩ (by simp) (fun b hb => .inl hb) (fun b hb hb' => absurd hb hb')
        (by
          intro b hb
          have hbn := h.fresh b hb
          exact (upd_alloc hm b).2 hbn) (Nat.le_refl _) rfl (Nat.le_refl _) (.refl _)
      refine ⟨_, fp', ?_, r1, r2⟩
      simp only [State.clear]
      rw [M.bind_ok hgets, M.bind_ok h1.read]
      have e1 : Heap.string a s.heap = (.ok str, s.heap) := by simp only [Heap.string, hm]
      simp only
      rw [M.bind_ok (onHeap_ok e1)]
      exact onHeap_ok (put_ok hm)
  | some a =>
    obtain ⟨m, b, fps, k1, k2, k3, k4, k5, k6⟩ := h.reblock h1 hu hc
    have hd : All3 (Repr s.heap.mem s.depth) b.cells (kids u) fps := k3.deep (by
      have := length_le_of_nodup _ _ (List.nodup_cons.1 k4).2 k5
      simp only [State.depth]
      omega)
    have hnd := (List.nodup_cons.1 k4).2
    have hea := each_ok (n := s.depth) (fun hr hn => destroy_ok hr hn) hd hnd
    have hna : a ∉ fps.flatten := (List.nodup_cons.1 k4).1
    have key : ∀ b', Node a c b' (emptied zero u) → b'.cells = [] → kids (emptied zero u) = [] →
        ∃ fp', Owns { s with heap := { without s.heap fps.flatten with mem := upd (without s.heap fps.flatten).mem a (some b') } }
            (vset V x p (emptied zero u)) fp' ∧
          Well s fp { s with heap := { without s.heap fps.flatten with mem := upd (without s.heap fps.flatten).mem a (some b') } } fp' := by
      intro b' q1 q2 q3
      refine k6 (without s.heap fps.flatten) b' (emptied zero u) [] (fun _ hc => without_mem hc) (by simp) (by simp) (fun c hc _ => if_pos hc) q1 (by rw [q2, q3]; exact .nil) (by simp) rfl rfl (Nat.le_refl _) (.refl _)
    rcases k2.empty with ⟨cs, xs, rfl, rfl, rfl⟩ | ⟨ms, xs, rfl, rfl, rfl, hk⟩
    · have hea : Heap.each (Heap.destroy s.depth) cs s.heap = (.ok (), without s.heap fps.flatten) := hea
      obtain ⟨fp', r1, r2⟩ := key (.arr []) rfl rfl rfl
      refine ⟨_, fp', ?_, r1, r2⟩
      simp only [State.clear]
      rw [M.bind_ok hgets, M.bind_ok h1.read]
      have e1 : Heap.vector a s.heap = (.ok cs, s.heap) := by simp only [Heap.vector, k1]
      simp only
      rw [M.bind_ok (onHeap_ok e1), M.bind_ok (onHeap_ok (s := { s with heap := s.heap }) hea)]
      exact onHeap_ok (put_ok (b := .arr cs) (by simp only [without_mem hna, k1]))
    · have hea : Heap.each (Heap.destroy s.depth) (ms.map Prod.snd) s.heap = (.ok (), without s.heap fps.flatten) := hea
      obtain ⟨fp', r1, r2⟩ := key (.obj []) ⟨rfl, rfl⟩ rfl rfl
      refine ⟨_, fp', ?_, r1, r2⟩
      simp only [State.clear]
      rw [M.bind_ok hgets, M.bind_ok h1.read]
      have e1 : Heap.map a s.heap = (.ok ms, s.heap) := by simp only [Heap.map, k1]
      simp only
      rw [M.bind_ok (onHeap_ok e1), M.bind_ok (onHeap_ok (s := { s with heap := s.heap }) hea)]
      exact onHeap_ok (put_ok (b := .obj ms) (by simp only [without_mem hna, k1]))

theorem map_erase {A B : Type} (f : A → B) : ∀ (l : List A) (i : Nat), (l.eraseIdx i).map f = (l.map f).eraseIdx i
  | [], _ => rfl
  | _ :: _, 0 => rfl
  | _ :: l, i + 1 => by simp [map_erase f l i]

/-- `erase`. -/
theorem Owns.eraseAt {s : State F} {V : Var → Option (Value F)} {fp} (h : Owns s V fp) (i : Nat) {x : Var} {p : List Nat} {l c}
    (h1 : At s x p l c) {u : Value F} (hu : vget V x p = some u) (hi : i < (kids u).length) :
    ∃ s' fp', State.eraseAt l i s = (.ok (), s') ∧ Owns s' (vset V x p (erased i u)) fp' ∧ Well s fp s' fp' := by
  have hgets : M.gets State.depth s = (.ok s.depth, s) := rfl
  obtain ⟨m0, fu, g1, g2, g3, g4⟩ := h.inplace_well h1 hu
  have hca : ∃ a, c.addr = some a := by
    cases m0 with
    | zero => have h' : Flat s.heap.mem c u fu := g1; cases c <;> cases u <;> first | exact h'.elim | simp [kids] at hi
    | succ m =>
      rcases g1 with g1 | ⟨a, b, fps, q1, q2, _⟩
      · cases c <;> cases u <;> first | exact g1.elim | simp [kids] at hi
      · exact ⟨a, q2.addr⟩
  obtain ⟨a, hc⟩ := hca
  obtain ⟨m, b, fps, k1, k2, k3, k4, k5, k6⟩ := h.reblock h1 hu hc
  have hnd := (List.nodup_cons.1 k4).2
  have hna : a ∉ fps.flatten := (List.nodup_cons.1 k4).1
  have hlen : i < b.cells.length := by rw [k3.length.1]; exact hi
  have hd : All3 (Repr s.heap.mem s.depth) b.cells (kids u) fps := k3.deep (by
    have := length_le_of_nodup _ _ hnd k5
    simp only [State.depth]
    omega)
  obtain ⟨d, hdi⟩ : ∃ d, b.cells[i]? = some d := ⟨_, List.getElem?_eq_getElem hlen⟩
  obtain ⟨w, f, pre, post, j1, j2, j3, _, j5⟩ := hd.eraseIdx i hdi
  obtain ⟨_, _, _, _, _, _, _, j4, _⟩ := k3.eraseIdx i hdi
  have hf : f.Nodup := by
    rw [j3] at hnd
    simp only [List.nodup_append] at hnd
    exact hnd.1.2.1
  have hsub : ∀ c, c ∈ f → c ∈ fps.flatten := by intro c hc; rw [j3]; simp [hc]
  have hdis : ∀ c ∈ (fps.eraseIdx i).flatten, c ∉ f := by
    intro c hc hcf
    rw [j5] at hc
    rw [j3] at hnd
    simp only [List.nodup_append, List.mem_append] at hnd
    rcases List.mem_append.1 hc with g | g
    · exact hnd.1.2.2 c g c hcf rfl
    · exact hnd.2.2 c (.inr hcf) c g rfl
  have hde := destroy_ok j2 hf
  have key : ∀ b' u', Node a c b' u' → b'.cells = b.cells.eraseIdx i → kids u' = (kids u).eraseIdx i →
      ∃ fp', Owns { s with heap := { without s.heap f with mem := upd (without s.heap f).mem a (some b') } } (vset V x p u') fp' ∧
        Well s fp { s with heap := { without s.heap f with mem := upd (without s.heap f).mem a (some b') } } fp' := by
    intro b' u' q1 q2 q3
    refine k6 (without s.heap f) b' u' (fps.eraseIdx i) (fun c hc => without_mem fun hcf => hc (hsub c hcf)) ?_
      (fun c hc => without_mem (hdis c hc)) ?_ q1 (by rw [q2, q3]; exact j4) ?_ rfl rfl (Nat.le_refl _) (.refl _)
    · intro c hc
      rw [j5] at hc
      rw [j3]
      rcases List.mem_append.1 hc with g | g <;> simp [g]
    · intro c hc1 hc2
      rw [j3] at hc1
      rw [j5] at hc2
      simp only [List.mem_append, not_or] at hc1 hc2
      have : c ∈ f := by
        rcases hc1 with (g | g) | g
        · exact absurd g hc2.1
        · exact g
        · exact absurd g hc2.2
      exact if_pos this
    · rw [j5]
      rw [j3] at hnd
      simp only [List.nodup_append, List.mem_append] at hnd ⊢
      exact ⟨hnd.1.1, hnd.2.1, fun c hc c' hc' => hnd.2.2 c (.inl hc) c' hc'⟩
  have haf : a ∉ f := fun hc => hna (hsub a hc)
  rcases k2.empty with ⟨cs, xs, rfl, rfl, rfl⟩ | ⟨ms, xs, rfl, rfl, rfl, hk⟩
  · obtain ⟨fp', r1, r2⟩ := key (.arr (cs.eraseIdx i)) (.arr (xs.eraseIdx i)) rfl rfl rfl
    refine ⟨_, fp', ?_, r1, r2⟩
    simp only [State.eraseAt]
    rw [M.bind_ok hgets, M.bind_ok h1.read]
    have e1 : Heap.vector a s.heap = (.ok cs, s.heap) := by simp only [Heap.vector, k1]
    have hdi' : cs[i]? = some d := hdi
    simp only
    rw [M.bind_ok (onHeap_ok e1)]
    simp only [hdi']
    rw [M.bind_ok (onHeap_ok (s := { s with heap := s.heap }) hde)]
    exact onHeap_ok (put_ok (b := .arr cs) (by simp only [without_mem haf, k1]))
  · obtain ⟨fp', r1, r2⟩ := key (.obj (ms.eraseIdx i)) (.obj (xs.eraseIdx i)) ⟨rfl, by
        rw [map_erase, map_erase, hk]⟩ (by simp [Block.cells, map_erase]) (by simp [kids, map_erase])
    refine ⟨_, fp', ?_, r1, r2⟩
    simp only [State.eraseAt]
    rw [M.bind_ok hgets, M.bind_ok h1.read]
    have e1 : Heap.map a s.heap = (.ok ms, s.heap) := by simp only [Heap.map, k1]
    have hdi' : ∃ m, ms[i]? = some m ∧ m.2 = d := by
      simp only [Block.cells, List.getElem?_map, Option.map_eq_some_iff] at hdi
      exact hdi
    obtain ⟨mm, hm1, hm2⟩ := hdi'
    simp only
    rw [M.bind_ok (onHeap_ok e1)]
    simp only [hm1]
    rw [hm2, M.bind_ok (onHeap_ok (s := { s with heap := s.heap }) hde)]
    exact onHeap_ok (put_ok (b := .obj ms) (by simp only [without_mem haf, k1]))

end Spec
