import Verif.Proofs.HeapOps
/-!
# Construction and assignment in memory
-/
namespace Spec
open Configor

variable {F : Type}

/-- How an operation ends: with new contents, or with old ones after a failed allocation. -/
def Ends (m : M (State F) Unit) (s : State F) (fp : Var → List Nat) (V' : Var → Option (Value F))
    (bad : (Var → Option (Value F)) → Prop) : Prop :=
  (∃ s' fp', m s = (.ok (), s') ∧ Owns s' V' fp' ∧ Well s fp s' fp') ∨
  (∃ s' fp' V'', m s = (.error (.exn .badAlloc), s') ∧ Owns s' V'' fp' ∧ Ill s fp s' fp' ∧ bad V'')

/-- Finding a part depends only on the blocks of the whole. -/
theorem Repr.find_frame {mem mem' : Nat → Option (Block F)} : ∀ {p : List Nat} {n : Nat} {c : Cell F} {v : Value F} {g : List Nat} {l : Loc}
    {res : Loc × Cell F}, Repr mem n c v g → (∀ a ∈ g, mem' a = mem a) → Spec.find mem l c p = some res → Spec.find mem' l c p = some res := by
  intro p
  induction p with
  | nil => intro n c v g l res _ _ hf; exact hf
  | cons j p ih =>
    intro n c v g l res hr hag hf
    simp only [Spec.find, Option.bind_eq_some_iff] at hf ⊢
    obtain ⟨a, ha, b, hb, d, hd, hf⟩ := hf
    cases n with
    | zero => have h' : Flat _ c v g := hr; rw [h'.addr] at ha; cases ha
    | succ n =>
      rcases hr with hr | ⟨a', b', fps, k1, k2, k3, k4⟩
      · rw [hr.addr] at ha; cases ha
      · rw [k2.addr] at ha
        injection ha with ha
        subst ha
        rw [k1] at hb
        injection hb with hb
        subst hb k4
        obtain ⟨x, f, pre, post, q1, q2, q3, q4, _⟩ := All3.get k3 hd
        refine ⟨a', k2.addr, b', by rw [hag a' (by simp)]; exact k1, d, hd, ih q3 ?_ hf⟩
        intro a ha
        exact hag a (by rw [q4]; simp [ha])

/-- Destroying a variable leaves the parts of the others where they are. -/
theorem Owns.at_destruct {s s' : State F} {V : Var → Option (Value F)} {fp} (h : Owns s V fp) {t : Var} {w : Value F} (hw : V t = some w)
    (e : State.destruct t s = (.ok (), s')) {z r l d} (hat : At s z r l d) (hz : z ≠ t) : At s' z r l d := by
  obtain ⟨s1, e1, _, hv, hh⟩ := h.destruct hw
  rw [e] at e1
  have : s' = s1 := by injection e1
  subst this
  obtain ⟨c, hc, hf⟩ := hat
  obtain ⟨v, n, _, hn⟩ := h.live hc
  refine ⟨c, by rw [hv, upd_ne _ _ hz]; exact hc, hn.find_frame ?_ hf⟩
  intro a ha
  rw [hh]
  exact without_mem (h.disjoint z t hz a ha)

theorem swap_var {s : State F} {x t : Var} (htx : t ≠ x) {p l c ct} (hat : At s x p l c) (ht : s.vars t = some ct) :
    State.swap l (.var t) s = (.ok (), store (store s l ct) (.var t) c) := by
  have e2 : State.read (.var t) s = (.ok ct, s) := by simp [State.read, ht]
  have e3 := hat.write ct
  have hv : (store s l ct).vars t = some ct := by
    rcases hat.cases with ⟨_, rfl, _⟩ | ⟨_, a, i, b, rfl, h1, _⟩
    · simp only [store]; rw [upd_ne _ _ htx, ht]
    · simp only [store, h1]; exact ht
  have e4 : State.write (.var t) c (store s l ct) = (.ok (), store (store s l ct) (.var t) c) := by
    simp only [State.write, hv]
    rfl
  simp only [State.swap]
  rw [M.bind_ok hat.read, M.bind_ok e2, M.bind_ok e3, e4]

theorem upd_vset_none {V : Var → Option (Value F)} {t x : Var} (htx : t ≠ x) (ht : V t = none) (p : List Nat) (w : Value F) :
    upd (vset V x p w) t none = vset V x p w := by
  have : (vset V x p w) t = none := by simp only [vset, upd_ne _ _ htx, ht]
  rw [← this, upd_self]

theorem upd_vset (W : Var → Option (Value F)) (t : Var) (o o' : Option (Value F)) (r : List Nat) (w : Value F) :
    upd (vset (upd W t o) t r w) t o' = upd W t o' := by
  simp only [vset, upd_same]

theorem vset_here (W : Var → Option (Value F)) (t : Var) (v w : Value F) :
    vset (upd W t (some v)) t [] w = upd W t (some w) := by
  simp only [vset, upd_same, upd_eq, Option.map_some, replace]

/-- Copy assignment. -/
theorem Owns.copyAssign {s : State F} {V : Var → Option (Value F)} {fp} (h : Owns s V fp) (ht : V .tmp = none) {x y : Var}
    {p q : List Nat} {l c l' c'} (h1 : At s x p l c) (h2 : At s y q l' c') {u u' : Value F}
    (hu : vget V x p = some u) (hu' : vget V y q = some u') :
    Ends (State.copyAssign l l') s fp (vset V x p u') (· = V) := by
  by_cases hl : l = l'
  · subst hl
    obtain ⟨e1, e2, _⟩ := h.at_inj h1 h2
    subst e1 e2
    rw [hu] at hu'
    injection hu' with hu'
    subst hu'
    refine .inl ⟨s, fp, by simp [State.copyAssign, M.pure_def], ?_, .refl s fp⟩
    rw [vset_self hu]
    exact h
  · have htx := h.ne ht h1
    obtain ⟨v, w, g1, g2, g3⟩ := h.copyConstruct (t := .tmp) h2
    have hw : w = u' := by
      simp only [vget, g1, Option.bind_some, g2] at hu'
      injection hu'
    subst hw
    rcases g3 with ⟨s1, fw, e1, o1, gr, ag, ⟨c1, hc1⟩, hfw⟩ | ⟨s1, e1, o1, gr, fl, rb, hv⟩
    · have w1 := h.well_grew (t := .tmp) (h.dead ht).2 gr ag hfw
      have a1 : At s1 x p l c := by
        have := (h1.grew gr h.fresh).vars htx (some c1)
        rw [← hc1] at this
        exact this
      obtain ⟨f2, o2, w2⟩ := o1.xchg htx a1 (w := w) (ct := c1) (upd_eq _ _ _) (by rw [hc1, upd_eq]) (by rw [vget_upd htx]; exact hu)
      obtain ⟨s3, e3, o3, w3⟩ := o2.destruct_well (t := .tmp) (w := u) (upd_eq _ _ _)
      refine .inl ⟨s3, _, ?_, ?_, (w1.trans w2).trans w3⟩
      · simp only [State.copyAssign, if_neg hl]
        rw [M.bind_ok e1, M.bind_ok (swap_var htx a1 (by rw [hc1, upd_eq])), e3]
      · rw [upd_same, vset_upd htx, upd_same, upd_vset_none htx ht] at o3
        exact o3
    · refine .inr ⟨s1, fp, V, ?_, o1, h.ill_grew gr fl rb, rfl⟩
      simp only [State.copyAssign, if_neg hl]
      rw [M.bind_error e1]

/-- Move assignment between places that do not contain each other. -/
theorem Owns.moveAssign_apart {s : State F} {V : Var → Option (Value F)} {fp} (h : Owns s V fp) (ht : V .tmp = none) (hg : V .ghost = none) {x y : Var}
    {p q : List Nat} (hap : Apart x p y q) {l c l' c'} (h1 : At s x p l c) (h2 : At s y q l' c') {u u' : Value F}
    (hu : vget V x p = some u) (hu' : vget V y q = some u') :
    ∃ s' fp', State.moveAssign l l' s = (.ok (), s') ∧ Owns s' (vset (vset V y q .null) x p u') fp' ∧ Well s fp s' fp' ∧
      (∀ z r k d, z ≠ .tmp → At s z r k d → ¬ (x = z ∧ p <+: r ∧ p ≠ r) → ¬ (y = z ∧ q <+: r ∧ q ≠ r) →
        ∃ d', At s' z r k d') := by
  have htx := h.ne ht h1
  have hty := h.ne ht h2
  have hll : l' ≠ l := by
    intro e
    subst e
    obtain ⟨e1, e2, _⟩ := h.at_inj h1 h2
    exact hap ⟨e1, .inl (by rw [e2]; exact List.prefix_refl _)⟩
  obtain ⟨s1, f1, e1, o1, w1, hs1⟩ := h.moveConstruct ht h1 hu
  have o0 := h.null ht
  have n1 : ¬ (x = y ∧ p <+: q ∧ p ≠ q) := fun h => hap ⟨h.1, .inl h.2.1⟩
  have a1 := o0.at_xchg htx (h1.vars htx (some .null)) (h1.vars htx (some .null)) (by simp) .null
  have b1 := o0.at_xchg hty (h1.vars htx (some .null)) (h2.vars hty (some .null)) n1 .null
  rw [← hs1] at a1 b1
  simp only [if_true] at a1
  rw [if_neg hll] at b1
  obtain ⟨f2, e2, o2, w2⟩ := o1.swap (by rw [upd_ne _ _ (by decide)]; simp only [vset, upd_ne _ _ (h.ne hg h1), hg]) hap a1 b1
    (u := .null) (u' := u') (by rw [vget_upd htx]; exact vget_vset hu .null)
    (by rw [vget_upd hty, vget_vset_other hap]; exact hu')
  obtain ⟨s3, e3, o3, w3⟩ := o2.destruct_well (t := .tmp) (w := u) (by
    simp only [vset_upd htx, vset_upd hty, upd_eq])
  refine ⟨s3, _, ?_, ?_, (w1.trans w2).trans w3, ?_⟩
  · simp only [State.moveAssign, if_neg (Ne.symm hll)]
    rw [M.bind_ok e1, M.bind_ok e2, e3]
  · simp only [vset_upd htx, vset_upd hty, upd_same] at o3
    rw [vset_vset hu, vset_comm hap, upd_vset_none htx (by simp only [vset, upd_ne _ _ hty, ht])] at o3
    exact o3
  · intro z r k d hz hk hxr hyr
    have k1 := o0.at_xchg hz.symm (h1.vars htx (some .null)) (hk.vars hz.symm (some .null)) hxr .null
    rw [← hs1] at k1
    have m1 := o1.at_store a1 k1 hxr c'
    -- the second store, seen from the state after the first
    have m2 : ∃ d', At (store (store s1 l c') l' .null) z r k d' := by
      obtain ⟨f', e', o', w'⟩ := o1.swap (by rw [upd_ne _ _ (by decide)]; simp only [vset, upd_ne _ _ (h.ne hg h1), hg]) hap a1 b1
        (u := .null) (u' := u') (by rw [vget_upd htx]; exact vget_vset hu .null)
        (by rw [vget_upd hty, vget_vset_other hap]; exact hu')
      have k2 := o1.at_store b1 k1 hyr .null
      rw [store_comm _ _ _ (Ne.symm hll)]
      -- the state with the null at the second place only
      have hn : ∃ f, Owns (store s1 l' .null) (vset (upd (vset V x p .null) .tmp (some u)) y q .null) f := by
        obtain ⟨vv, uu, fu, ctx, m, q1, q2, q3, q4, q5⟩ := o1.update b1
        obtain ⟨fp', z1, _, _⟩ := q5 (store s1 l' .null) .null .null [] 0 (by
            intro yy hy
            rcases b1.cases with ⟨_, rfl, _⟩ | ⟨_, a, i, b, rfl, hh, _⟩
            · simp only [store]; exact upd_ne _ _ hy
            · simp only [store, hh])
          rfl (fun _ _ _ => rfl) rfl (by simp) (by simp)
          (by intro a ha; rw [store_next] at ha; exact (store_alloc _ _ _ a).2 (o1.fresh a ha))
        refine ⟨fp', ?_⟩
        unfold vset
        unfold vset at q1 z1
        rw [q1]
        exact z1
      obtain ⟨f, hn⟩ := hn
      have a2 := o1.at_store b1 a1 (fun h => hap ⟨h.1.symm, .inr h.2.1⟩) .null
      exact ⟨_, hn.at_store a2 k2 hxr c'⟩
    obtain ⟨d', m2⟩ := m2
    exact ⟨d', o2.at_destruct (w := u) (by simp only [vset_upd htx, vset_upd hty, upd_eq]) e3 m2 hz⟩

/-- Move assignment from an inner part. -/
theorem Owns.moveAssign_inside {s : State F} {V : Var → Option (Value F)} {fp} (h : Owns s V fp) (ht : V .tmp = none) (hg : V .ghost = none) {x : Var}
    {p r : List Nat} (hr : r ≠ []) {l c l' c'} (h1 : At s x p l c) (h2 : At s x (p ++ r) l' c') {u u' : Value F}
    (hu : vget V x p = some u) (hu' : vget V x (p ++ r) = some u') :
    ∃ s' fp', State.moveAssign l l' s = (.ok (), s') ∧ Owns s' (vset (vset V x (p ++ r) .null) x p u') fp' ∧ Well s fp s' fp' := by
  have htx := h.ne ht h1
  have hll : l' ≠ l := by
    intro e
    subst e
    have := congrArg List.length (h.at_inj h1 h2).2.1
    simp at this
    exact hr this
  obtain ⟨s1, f1, e1, o1, w1, hs1⟩ := h.moveConstruct ht h1 hu
  have o0 := h.null ht
  have a1 := o0.at_xchg htx (h1.vars htx (some .null)) (h1.vars htx (some .null)) (by simp) .null
  have b1 := o0.at_xchg_inside (t := .tmp) (h1.vars htx (some .null)) (h2.vars htx (some .null)) hr .null
  rw [← hs1] at a1 b1
  simp only [if_true] at a1
  have hap : Apart x p .tmp r := fun h => htx h.1.symm
  have hur : part u r = some u' := by
    obtain ⟨v, k1, k2⟩ := vget_some hu
    obtain ⟨v', k1', k2'⟩ := vget_some hu'
    rw [k1] at k1'
    injection k1' with k1'
    subst k1'
    rw [part_append, k2] at k2'
    exact k2'
  obtain ⟨f2, e2, o2, w2⟩ := o1.swap (by rw [upd_ne _ _ (by decide)]; simp only [vset, upd_ne _ _ (h.ne hg h1), hg]) hap a1 b1
    (u := .null) (u' := u') (by rw [vget_upd htx]; exact vget_vset hu .null)
    (by simp only [vget, upd_eq, Option.bind_some]; exact hur)
  obtain ⟨s3, e3, o3, w3⟩ := o2.destruct_well (t := .tmp) (w := replace u r .null) (by
    simp only [vset_upd htx]
    simp only [vset, upd_eq, Option.map_some])
  refine ⟨s3, _, ?_, ?_, (w1.trans w2).trans w3⟩
  · simp only [State.moveAssign, if_neg (Ne.symm hll)]
    rw [M.bind_ok e1, M.bind_ok e2, e3]
  · simp only [vset_upd htx] at o3
    have e : upd (vset (upd (vset (vset V x p .null) x p u') .tmp (some u)) .tmp r .null) .tmp none = vset (vset V x (p ++ r) .null) x p u' := by
      rw [upd_vset]
      rw [vset_vset hu, upd_vset_none htx ht]
      obtain ⟨v, k1, k2⟩ := vget_some hu
      simp only [vset, upd_eq, upd_same, k1, Option.map_some, replace_absorb _ _ k2]
    rw [e] at o3
    exact o3

/-- The constructors. -/
theorem Owns.construct {s : State F} {V : Var → Option (Value F)} {fp} (h : Owns s V fp) {t : Var} (ht : V t = none) {v : Value F}
    (hv : kids v = []) :
    (∃ s' fp' c, State.construct t v s = (.ok (), s') ∧ Owns s' (upd V t (some v)) fp' ∧ Well s fp s' fp' ∧ Grew s.heap s'.heap ∧
      s'.vars = upd s.vars t (some c)) ∨
    (∃ s', State.construct t v s = (.error (.exn .badAlloc), s') ∧ Owns s' V fp ∧ Ill s fp s' fp) := by
  have scalar : ∀ c, Repr s.heap.mem 0 c v [] → State.construct t v s = State.declare t c s →
      ∃ s' fp' c, State.construct t v s = (.ok (), s') ∧ Owns s' (upd V t (some v)) fp' ∧ Well s fp s' fp' ∧ Grew s.heap s'.heap ∧
        s'.vars = upd s.vars t (some c) := by
    intro c hr e
    refine ⟨_, upd fp t [], c, e, h.open hr (by simp) (by simp), ?_, .refl h.fresh, rfl⟩
    rw [show upd fp t [] = fp by rw [← (h.dead ht).2, upd_self]]
    exact .same (fun _ => .rfl) (fun _ => .rfl) rfl rfl rfl (fun _ h => h)
  have block : ∀ (mk : Nat → Cell F) (b : Block F), (∀ (mem : Nat → Option (Block F)) a, mem a = some b → Repr mem 1 (mk a) v [a]) →
      State.construct t v s = (do State.declare t (mk (← State.onHeap (Heap.create b))) : M (State F) Unit) s →
      (∃ s' fp' c, State.construct t v s = (.ok (), s') ∧ Owns s' (upd V t (some v)) fp' ∧ Well s fp s' fp' ∧ Grew s.heap s'.heap ∧
        s'.vars = upd s.vars t (some c)) ∨
      (∃ s', State.construct t v s = (.error (.exn .badAlloc), s') ∧ Owns s' V fp ∧ Ill s fp s' fp) := by
    intro mk b hr e
    rw [e]
    have key : (∃ h', Heap.create b s.heap = (.ok s.heap.next, h') ∧ Grew s.heap h' ∧ AllGood s.heap h' ∧ h'.mem s.heap.next = some b ∧
          ∀ a, a ∈ [s.heap.next] ↔ s.heap.next ≤ a ∧ h'.mem a ≠ none) ∨ NotCopied s.heap (Heap.create b s.heap) := by
      simp only [Heap.create]
      rcases allocate_cases h.fresh with ⟨h1, e1, g1, a1, n1, m1⟩ | ⟨h1, e1, g1, f1, m1, n1⟩
      · rw [M.bind_ok e1]
        rcases attempt_cases g1.fresh with ⟨h2, e2, g2, a2, m2, n2⟩ | ⟨h2, e2, g2, f2, m2, n2⟩
        · rw [M.bind_ok e2]
          obtain ⟨h3, e3, g3, a3, q1, q2, q3, q4⟩ := finish (b := b) (gs := []) g1 a1 n1 m1 g2 a2 List.nodup_nil (by
            intro a
            simp only [List.not_mem_nil, false_iff]
            rw [m2]
            intro h'
            exact h'.2 (g1.fresh a h'.1))
          rw [M.bind_ok e3]
          exact .inl ⟨h3, rfl, g3, a3, q1, q4⟩
        · rw [M.bind_error e2]
          exact .inr (NotCopied.raw g1 n1 m1 (NotCopied.same rfl g2 f2 g1.fresh m2))
      · rw [M.bind_error e1]
        exact .inr (NotCopied.same rfl g1 f1 h.fresh m1)
    rcases key with ⟨h', e1, g, ag, q1, q2⟩ | ⟨h', e1, g, fl, rb⟩
    · have e2 : State.onHeap (Heap.create b) s = (.ok s.heap.next, { s with heap := h' }) := by simp only [State.onHeap, e1]
      rw [M.bind_ok e2]
      refine .inl ⟨_, upd fp t [s.heap.next], mk s.heap.next, rfl, ?_, ?_, g, rfl⟩
      · refine Owns.open (s := { s with heap := h' }) (h.grew g) (hr _ _ q1) (by simp) ?_
        intro a ha y _ hb
        simp at ha
        have := (h.alloc hb).2
        omega
      · exact h.well_grew (h.dead ht).2 g ag q2
    · have e2 : State.onHeap (Heap.create b) s = (.error (.exn .badAlloc), { s with heap := h' }) := by simp only [State.onHeap, e1]
      rw [M.bind_error e2]
      exact .inr ⟨_, rfl, h.grew g, h.ill_grew g fl rb⟩
  cases v with
  | null => exact .inl (scalar .null rfl rfl)
  | bool b => exact .inl (scalar (.bool b) ⟨rfl, rfl⟩ rfl)
  | int b => exact .inl (scalar (.int b) ⟨rfl, rfl⟩ rfl)
  | flt b => exact .inl (scalar (.flt b) ⟨rfl, rfl⟩ rfl)
  | str w => exact block Cell.str (.str w) (fun mem a ha => .inl ⟨ha, rfl⟩) rfl
  | arr xs =>
    simp only [kids] at hv
    subst hv
    exact block Cell.arr (.arr []) (fun mem a ha => .inr ⟨a, .arr [], [], ha, rfl, .nil, rfl⟩) rfl
  | obj ms =>
    simp only [kids, List.map_eq_nil_iff] at hv
    subst hv
    exact block Cell.obj (.obj []) (fun mem a ha => .inr ⟨a, .obj [], [], ha, ⟨rfl, rfl⟩, .nil, rfl⟩) rfl

/-- `*this = value_constant::array`, `*this = value_constant::object`. -/
theorem Owns.become {s : State F} {V : Var → Option (Value F)} {fp} (h : Owns s V fp) (ht : V .tmp = none) (hg : V .ghost = none)
    (ha : V .arg = none) {x : Var} {p : List Nat} {l c} (h1 : At s x p l c) {u v : Value F} (hu : vget V x p = some u) (hv : kids v = []) :
    (∃ s' fp', State.become l v s = (.ok (), s') ∧ Owns s' (vset V x p v) fp' ∧ Well s fp s' fp' ∧
      ∀ z r k d, At s z r k d → ¬ (x = z ∧ p <+: r ∧ p ≠ r) → ∃ d', At s' z r k d') ∨
    (∃ s', State.become l v s = (.error (.exn .badAlloc), s') ∧ Owns s' V fp ∧ Ill s fp s' fp) := by
  have hax := h.ne ha h1
  have htx := h.ne ht h1
  rcases h.construct ha hv with ⟨s1, f1, c1, e1, o1, w1, g1, v1⟩ | ⟨s1, e1, o1, i1⟩
  · have a1 : At s1 x p l c := by
      have := (h1.grew g1 h.fresh).vars hax (some c1)
      rw [← v1] at this
      exact this
    have b1 : At s1 .arg [] (.var .arg) c1 := ⟨c1, by rw [v1, upd_eq], rfl⟩
    obtain ⟨s2, f2, e2, o2, w2, p2⟩ := o1.moveAssign_apart (by rw [upd_ne _ _ (by decide), ht]) (by rw [upd_ne _ _ (by decide), hg])
      (x := x) (y := .arg) (q := []) (fun h => hax h.1.symm) a1 b1 (u := u) (u' := v) (by rw [vget_upd hax]; exact hu)
      (by simp [vget, upd_eq, part])
    obtain ⟨s3, e3, o3, w3⟩ := o2.destruct_well (t := .arg) (w := .null) (by
      simp only [vset, upd_eq, Option.map_some, replace]
      rw [upd_ne _ _ hax, upd_eq])
    refine .inl ⟨s3, _, ?_, ?_, (w1.trans w2).trans w3, ?_⟩
    · simp only [State.become]
      rw [M.bind_ok e1, M.bind_ok e2, e3]
    · have e : upd (vset (vset (upd V .arg (some v)) .arg [] .null) x p v) .arg none = vset V x p v := by
        rw [vset_here, vset_upd hax, upd_same, upd_vset_none hax ha]
      rw [e] at o3
      exact o3
    · intro z r k d hk hn
      have haz := h.ne ha hk
      have k1 : At s1 z r k d := by
        have := (hk.grew g1 h.fresh).vars haz (some c1)
        rw [← v1] at this
        exact this
      obtain ⟨d', k2⟩ := p2 z r k d (h.ne ht hk).symm k1 hn (fun h => haz h.1)
      exact ⟨d', o2.at_destruct (t := .arg) (w := .null) (by
        simp only [vset, upd_eq, Option.map_some, replace]
        rw [upd_ne _ _ hax, upd_eq]) e3 k2 haz.symm⟩
  · refine .inr ⟨s1, ?_, o1, i1⟩
    simp only [State.become]
    rw [M.bind_error e1]

end Spec
