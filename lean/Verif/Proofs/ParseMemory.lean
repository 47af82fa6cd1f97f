import Verif.Proofs.HeapCmd
import Verif.Proofs.Blind
/-!
# The memory operations of the parser
-/
namespace Spec
open Configor

variable {F : Type}

/-- All places that are not inside `x.p` still exist. -/
def KeepsOut (s s' : State F) (x : Var) (p : List Nat) : Prop :=
  ∀ z r k d, At s z r k d → ¬ (x = z ∧ p <+: r ∧ p ≠ r) → ∃ d', At s' z r k d'

theorem KeepsOut.refl (s : State F) (x p) : KeepsOut s s x p := fun _ _ _ d h _ => ⟨d, h⟩

theorem KeepsOut.trans {s s' s'' : State F} {x p} (a : KeepsOut s s' x p) (b : KeepsOut s' s'' x p) : KeepsOut s s'' x p := by
  intro z r k d h hn
  obtain ⟨d', h'⟩ := a z r k d h hn
  exact b z r k d' h' hn

/-- What is kept by a change inside a place is kept by a change of the place. -/
theorem KeepsOut.inside {s s' : State F} {x p} {q : List Nat} (a : KeepsOut s s' x (p ++ q)) : KeepsOut s s' x p := by
  intro z r k d h hn
  refine a z r k d h ?_
  rintro ⟨rfl, ⟨t, rfl⟩, h2⟩
  refine hn ⟨rfl, ⟨q ++ t, by simp⟩, ?_⟩
  intro e
  have := congrArg List.length e
  simp at this
  exact h2 (by simp [this.2])

theorem At.child {s : State F} {x p l c} (h : At s x p l c) {a i b d} (ha : c.addr = some a) (hb : s.heap.mem a = some b)
    (hd : b.cells[i]? = some d) : At s x (p ++ [i]) (.slot a i) d := by
  obtain ⟨r, hr, hf⟩ := h
  refine ⟨r, hr, ?_⟩
  rw [find_append, hf]
  simp [find, ha, hb, hd]

/-- A change of a block is not noticed at places that are not inside its owner. -/
theorem Owns.at_block {s : State F} {V : Var → Option (Value F)} {fp} (h : Owns s V fp) {x p l cu a} (hat : At s x p l cu)
    (ha : cu.addr = some a) (o : Option (Block F)) {y q k d} (h2 : At s y q k d) (hns : ¬ (x = y ∧ p <+: q ∧ p ≠ q)) :
    At { s with heap := { s.heap with mem := upd s.heap.mem a o } } y q k d := by
  obtain ⟨r, hr, hf⟩ := h2
  refine ⟨r, hr, ?_⟩
  have key : ∀ (q2 q1 : List Nat) l1 c1, q = q1 ++ q2 → At s y q1 l1 c1 → find s.heap.mem l1 c1 q2 = some (k, d) →
      find (upd s.heap.mem a o) l1 c1 q2 = some (k, d) := by
    intro q2
    induction q2 with
    | nil => intro q1 l1 c1 _ _ h; exact h
    | cons i q2 ih =>
      intro q1 l1 c1 e h1 h3
      simp only [find, Option.bind_eq_some_iff] at h3
      obtain ⟨a1, k1, b, k2, c2, k3, k4⟩ := h3
      have hne : a1 ≠ a := by
        rintro rfl
        have := h.at_inj (hat.child ha k2 k3) (h1.child k1 k2 k3)
        obtain ⟨rfl, e2, _⟩ := this
        have e2 := List.append_cancel_right e2
        subst e2
        refine hns ⟨rfl, ⟨_, e.symm⟩, ?_⟩
        intro e'
        rw [e] at e'
        have := congrArg List.length e'
        simp at this
      have := ih (q1 ++ [i]) (.slot a1 i) c2 (by simp [e]) (h1.child k1 k2 k3) k4
      simp only [find, k1, Option.bind_some]
      rw [upd_ne _ _ hne, k2]
      simp [k3, this]
  exact key q [] (.var y) r rfl ⟨r, hr, rfl⟩ hf

/-- `push_back(_ValTy())`. -/
theorem Owns.push {s : State F} {V : Var → Option (Value F)} {fp} (h : Owns s V fp) {x : Var} {p : List Nat} {l c}
    (h1 : At s x p l c) {us : List (Value F)} (hu : vget V x p = some (.arr us)) :
    (∃ s' fp' l', State.grow l s = (.ok l', s') ∧ Owns s' (vset V x p (.arr (us ++ [.null]))) fp' ∧ Well s fp s' fp' ∧
      KeepsOut s s' x p ∧ At s' x (p ++ [us.length]) l' .null) ∨
    (∃ s', State.grow l s = (.error (.exn .badAlloc), s') ∧ Owns s' V fp ∧ Ill s fp s' fp) := by
  obtain ⟨a, rfl⟩ := h.at_arr h1 hu
  obtain ⟨m, b, fps, k1, k2, k3, k4, k5, k6⟩ := h.reblock h1 hu (a := a) rfl
  cases b <;> simp only [Node] at k2
  rename_i cs
  have em : Heap.vector a s.heap = (.ok cs, s.heap) := by simp only [Heap.vector, k1]
  have hlen : cs.length = us.length := k3.length.1
  rcases attempt_cases h.fresh with ⟨g, e2, gr2, ag2, m2, n2⟩ | ⟨g, e2, gr2, fl2, m2, n2⟩
  · have em' : Heap.vector a g = (.ok cs, g) := by simp only [Heap.vector, m2, k1]
    have j2 := k3.append (.cons (R := Repr s.heap.mem m) (a := .null) (b := .null) (c := [])
        (by cases m <;> simp [Repr, Flat]) .nil)
    obtain ⟨fp', r1, r2⟩ := k6 g (.arr (cs ++ [Cell.null])) (.arr (us ++ [Value.null]))
        (fps ++ [[]]) (fun c _ => by rw [m2])
        (fun c hc => by simpa using hc) (fun c _ => by rw [m2]) (fun c h1 h2 => absurd (by simpa using h1) h2) rfl
        j2 (by simpa using (List.nodup_cons.1 k4).2) n2 gr2.plan gr2.tick ag2
    refine .inl ⟨_, fp', .slot a cs.length, ?_, r1, r2, ?_, ?_⟩
    · simp only [State.grow]
      rw [M.bind_ok h1.read]
      simp only
      rw [M.bind_ok (onHeap_ok e2), M.bind_ok (onHeap_ok em'), M.bind_ok (onHeap_ok (put_ok (b := .arr cs) (by simp only [m2, k1])))]
      rfl
    · intro z r k d hz hn
      have := (h.grew gr2).at_block (h1.grew gr2 h.fresh) rfl (some (.arr (cs ++ [.null]))) (hz.grew gr2 h.fresh) hn
      exact ⟨d, this⟩
    · rw [← hlen]
      have := (h.grew gr2).at_block (h1.grew gr2 h.fresh) rfl (some (.arr (cs ++ [.null]))) (h1.grew gr2 h.fresh) (by simp)
      exact this.child (a := a) rfl (upd_eq _ _ _) (by simp [Block.cells])
  · refine .inr ⟨_, ?_, h.grew gr2, Owns.tick_ill gr2 fl2 m2⟩
    simp only [State.grow]
    rw [M.bind_ok h1.read]
    simp only
    rw [M.bind_error (onHeap_error e2)]

/-- A scalar in place of a scalar. -/
theorem Owns.scalar {s : State F} {V : Var → Option (Value F)} {fp} (h : Owns s V fp) {x : Var} {p : List Nat} {l c c'}
    (h1 : At s x p l c) {u u' : Value F} (hu : vget V x p = some u) (hf : (∃ i, u = .int i) ∨ ∃ f, u = .flt f)
    (hf' : ∀ mem, Flat mem c' u' []) :
    ∃ s' fp', State.write l c' s = (.ok (), s') ∧ Owns s' (vset V x p u') fp' ∧ Well s fp s' fp' ∧ KeepsOut s s' x p := by
  obtain ⟨m, fu, k1, k2, k3, k4⟩ := h.inplace_well h1 hu
  have hfu : fu = [] := by
    have hfl : Flat s.heap.mem c u fu := by
      cases m with
      | zero => exact k1
      | succ m =>
        rcases k1 with k1 | ⟨a, b, fps, q1, q2, q3, q4⟩
        · exact k1
        · rcases hf with ⟨i, rfl⟩ | ⟨i, rfl⟩ <;> cases c <;> cases b <;> simp [Node] at q2
    rcases hf with ⟨i, rfl⟩ | ⟨i, rfl⟩ <;> cases c <;> simp only [Flat] at hfl
    · exact hfl.2
    · exact hfl.2
  subst hfu
  obtain ⟨fp', r1, r2⟩ := k4 (store s l c') c' _ [] 0 rfl (fun _ _ _ => rfl) (hf' _) (by simp) (by simp) (by simp)
    (by intro a ha; rw [store_next] at ha; exact (store_alloc _ _ _ a).2 (h.fresh a ha)) (by rw [store_next]; exact Nat.le_refl _)
    (store_plan _ _ _).1 (by rw [(store_plan _ _ _).2]; exact Nat.le_refl _) (.of_tick (store_plan _ _ _).2)
  exact ⟨_, fp', h1.write c', r1, r2, fun z r k d hz hn => ⟨_, h.at_store h1 hz hn c'⟩⟩

theorem find_ext {mem mem' : Nat → Option (Block F)}
    (hm : ∀ a b (i : Nat) c, mem a = some b → b.cells[i]? = some c → ∃ b', mem' a = some b' ∧ b'.cells[i]? = some c) :
    ∀ {p : List Nat} {l l' : Loc} {c c' : Cell F}, find mem l c p = some (l', c') → find mem' l c p = some (l', c') := by
  intro p
  induction p with
  | nil => intro l l' c c' h; exact h
  | cons i p ih =>
    intro l l' c c' h
    simp only [find, Option.bind_eq_some_iff] at h
    obtain ⟨a, h1, b, h2, d, h3, h4⟩ := h
    obtain ⟨b', k1, k2⟩ := hm a b i d h2 h3
    simp only [find, h1, Option.bind_some, k1, k2]
    exact ih h4

/-- The characters of a string. -/
theorem Owns.text {s : State F} {V : Var → Option (Value F)} {fp} (h : Owns s V fp) {x : Var} {p : List Nat} {l c}
    (h1 : At s x p l c) {w : List Nat} (hu : vget V x p = some (.str w)) (w' : List Nat) :
    ∃ a s' fp', c = .str a ∧ State.onHeap (Heap.put a (.str w')) s = (.ok (), s') ∧ Owns s' (vset V x p (.str w')) fp' ∧
      Well s fp s' fp' ∧ KeepsOut s s' x p := by
  obtain ⟨m, fu, g1, g2, g3, g4⟩ := h.inplace_well h1 hu
  have hf : Flat s.heap.mem c (.str w) fu := by
    cases m with
    | zero => exact g1
    | succ m =>
      rcases g1 with g1 | ⟨a, b, fps, q1, q2, _⟩
      · exact g1
      · cases c <;> cases b <;> simp [Node] at q2
  cases c <;> simp only [Flat] at hf
  rename_i a
  obtain ⟨hm, rfl⟩ := hf
  have hst := h1.store_self
  obtain ⟨fp', r1, r2⟩ := g4 { s with heap := { s.heap with mem := upd s.heap.mem a (some (.str w')) } } (.str a) (.str w') [a] 0
    (by rw [hst]) (by
      intro b hb _
      rw [hst]
      simp only [List.mem_singleton] at hb
      simp only [upd_ne _ _ hb]) ⟨upd_eq _ _ _, rfl⟩ (by simp) (fun b hb => .inl hb) (fun b hb hb' => absurd hb hb')
    (by
      intro b hb
      have hbn := h.fresh b hb
      exact (upd_alloc hm b).2 hbn) (Nat.le_refl _) rfl (Nat.le_refl _) (.refl _)
  refine ⟨a, _, fp', rfl, onHeap_ok (put_ok hm), r1, r2, ?_⟩
  rintro z r k d ⟨r0, hr, hfd⟩ _
  refine ⟨d, r0, hr, find_ext ?_ hfd⟩
  intro a' b i c h2 h3
  by_cases e : a' = a
  · subst e
    rw [hm] at h2
    injection h2 with h2
    subst h2
    simp [Block.cells] at h3
  · exact ⟨b, by simp only [upd_ne _ _ e]; exact h2, h3⟩

/-! ## Members -/

theorem emplace_present {A : Type} (k : List Nat) (v : A) : ∀ {ms : List (List Nat × A)}, (Map.find k ms).isSome = true → Map.emplace k v ms = ms := by
  intro ms
  induction ms with
  | nil => intro h; simp [Map.find] at h
  | cons m ms ih =>
    obtain ⟨k', v'⟩ := m
    intro h
    simp only [Map.find] at h
    simp only [Map.emplace]
    split
    · rename_i h1; simp [h1] at h
    · rename_i h1
      split
      · rename_i h2
        rw [if_neg h1, if_pos h2] at h
        rw [ih h]
      · rfl

theorem All3.insert {R : Cell F → Value F → List Nat → Prop} {c : Cell F} {v : Value F} {f : List Nat} (hR : R c v f) (k : List Nat) :
    ∀ {ms : List (List Nat × Cell F)} {us : List (List Nat × Value F)} {fps}, ms.map Prod.fst = us.map Prod.fst →
      (Map.find k ms).isSome = false →
      All3 R (ms.map Prod.snd) (us.map Prod.snd) fps →
      (Map.emplace k c ms).map Prod.fst = (Map.emplace k v us).map Prod.fst ∧
      ∃ fps', All3 R ((Map.emplace k c ms).map Prod.snd) ((Map.emplace k v us).map Prod.snd) fps' ∧ (fps'.flatten).Perm (fps.flatten ++ f) := by
  intro ms
  induction ms with
  | nil =>
    intro us fps hk _ h
    cases us with
    | nil =>
      cases h
      exact ⟨rfl, [f], .cons hR .nil, by simp⟩
    | cons u us => simp at hk
  | cons m ms ih =>
    intro us fps hk hn h
    cases us with
    | nil => simp at hk
    | cons u us =>
      obtain ⟨km, cm⟩ := m
      obtain ⟨ku, vu⟩ := u
      simp only [List.map_cons, List.cons.injEq] at hk
      obtain ⟨hk1, hk2⟩ := hk
      subst hk1
      simp only [Map.find] at hn
      cases h with
      | cons h1 h2 =>
        simp only [Map.emplace]
        split
        · exact ⟨by simp [hk2], f :: _, .cons hR (.cons h1 h2), by simp only [List.flatten_cons]; exact List.perm_append_comm⟩
        · rename_i h3
          rw [if_neg h3] at hn
          split
          · rename_i h4
            rw [if_pos h4] at hn
            obtain ⟨i1, fps', i2, i3⟩ := ih hk2 hn h2
            exact ⟨by simp [i1], _ :: fps', .cons h1 i2, by simpa using i3.append_left _⟩
          · rename_i h4
            rw [if_neg h4] at hn
            simp at hn

/-- A variable becomes a member of an object. -/
theorem Owns.absorbKey {s : State F} {V : Var → Option (Value F)} {fp} (h : Owns s V fp) {t x : Var} (htx : t ≠ x) {p l a} (key : List Nat)
    (hat : At s x p l (.obj a)) {us : List (List Nat × Value F)} {w : Value F} {ct : Cell F} (hu : vget V x p = some (.obj us)) (hw : V t = some w)
    (hc : s.vars t = some ct) {ms} (hms : s.heap.mem a = some (.obj ms)) (hk : (Map.find key ms).isSome = false) :
    ∃ fp', Owns { heap := { s.heap with mem := upd s.heap.mem a (some (.obj (Map.emplace key ct ms))) }, vars := upd s.vars t none }
        (upd (vset V x p (.obj (Map.emplace key w us))) t none) fp' ∧
      ∀ b, Owned fp' b ↔ Owned fp b := by
  obtain ⟨r, n, hr, hn⟩ := h.alive hw
  rw [hc] at hr
  injection hr with hr
  subst hr
  have h0 := h.close t
  obtain ⟨m, fu, h1, h2, h3, h4⟩ := h0.inplace (hat.vars htx none) (u := .obj us) (by rw [vget_upd htx]; exact hu)
  obtain ⟨a', ms', fps, k, e1, e2, e5, e3, e4⟩ := h1.obj_inv
  injection e1 with e1
  subst e1
  have : ms' = ms := by
    simp only at e2
    rw [hms] at e2
    injection e2 with e2
    injection e2 with e2
    exact e2.symm
  subst this
  have hst := (hat.vars htx (none : Option (Cell F))).store_self
  have hdis : ∀ b ∈ fp t, b ∉ fu := by
    intro b hb hf
    have := h3 b hf
    rw [upd_ne _ _ (Ne.symm htx)] at this
    exact h.disjoint t x htx b hb this
  have ha : a ∉ fps.flatten := by
    rw [e4] at h2
    exact (List.nodup_cons.1 h2).1
  have hat' : a ∉ fp t := fun hb => hdis a hb (by rw [e4]; simp)
  have hmem : ∀ b, b ≠ a → upd s.heap.mem a (some (Block.obj (Map.emplace key ct ms'))) b = s.heap.mem b := fun b hb => upd_ne _ _ hb
  obtain ⟨j1, fps', j2, j3⟩ := All3.insert (R := Repr (upd s.heap.mem a (some (Block.obj (Map.emplace key ct ms')))) (max k n)) (c := ct) (v := w) (f := fp t)
    (by
      refine (hn.mono (Nat.le_max_right k n)).frame ?_
      intro b hb
      refine hmem b ?_
      intro e
      exact hat' (e ▸ hb)) key (us := us) e5 hk (fps := fps) (e3.imp (by
      intro x y z hz hxy
      refine (hxy.mono (Nat.le_max_left k n)).frame ?_
      intro b hb
      refine hmem b ?_
      intro e
      exact ha (e ▸ List.mem_flatten.2 ⟨z, hz, hb⟩)))
  have hperm : (a :: fps'.flatten).Perm (fu ++ fp t) := by
    rw [e4]
    exact j3.cons a
  obtain ⟨fp', r1, r2⟩ := h4 { heap := { s.heap with mem := upd s.heap.mem a (some (.obj (Map.emplace key ct ms'))) }, vars := upd s.vars t none }
    (.obj a) (.obj (Map.emplace key w us)) (a :: fps'.flatten) (max k n + 1) (by rw [hst]) (by
      intro b hb1 hb2
      rw [hst]
      have : b ≠ a := by
        intro e
        rw [e4, e] at hb1
        simp at hb1
      simp only [upd_ne _ _ this])
    (.inr ⟨a, .obj (Map.emplace key ct ms'), fps', upd_eq _ _ _, ⟨rfl, j1⟩, j2, rfl⟩)
    (by
      rw [hperm.nodup_iff, List.nodup_append]
      exact ⟨h2, h.nodup t, fun b hb c hc e => hdis c hc (e ▸ hb)⟩)
    (by
      intro b hb
      rcases List.mem_append.1 (hperm.subset hb) with g | g
      · exact .inl g
      · refine .inr fun y hy => ?_
        by_cases e : y = t
        · subst e; rw [upd_eq] at hy; cases hy
        · rw [upd_ne _ _ e] at hy
          exact h.disjoint t y (Ne.symm e) b g hy)
    (by
      intro b hb
      have hbn : s.heap.mem b = none := h.fresh b hb
      have : b ≠ a := by
        intro e
        rw [e] at hbn
        rw [hms] at hbn
        cases hbn
      simp only [upd_ne _ _ this, hbn])
  refine ⟨fp', ?_, ?_⟩
  · rw [vset_upd htx] at r1
    exact r1
  · intro b
    rw [r2]
    constructor
    · rintro (⟨⟨y, hy⟩, _⟩ | hb)
      · by_cases e : y = t
        · subst e; rw [upd_eq] at hy; cases hy
        · rw [upd_ne _ _ e] at hy; exact ⟨y, hy⟩
      · rcases List.mem_append.1 (hperm.subset hb) with g | g
        · have := h3 b g
          rw [upd_ne _ _ (Ne.symm htx)] at this
          exact ⟨x, this⟩
        · exact ⟨t, g⟩
    · rintro ⟨y, hy⟩
      by_cases e : y = t
      · subst e; exact .inr (hperm.symm.subset (by simp [hy]))
      · by_cases hf : b ∈ fu
        · exact .inr (hperm.symm.subset (by simp [hf]))
        · exact .inl ⟨⟨y, by rw [upd_ne _ _ e]; exact hy⟩, hf⟩

theorem destruct_destroy {s s' : State F} {t : Var} {c : Cell F} (hc : s.vars t = some c) (e : State.destruct t s = (.ok (), s')) :
    ∃ h', Heap.destroy s.depth c s.heap = (.ok (), h') ∧ s' = { heap := h', vars := upd s.vars t none } := by
  simp only [State.destruct] at e
  rw [M.bind_ok (show State.read (.var t) s = (.ok c, s) by simp only [State.read, hc]), M.bind_ok (show M.gets State.depth s = (.ok s.depth, s) from rfl)] at e
  cases hd : Heap.destroy s.depth c s.heap with
  | mk r h' =>
    cases r with
    | ok u =>
      rw [M.bind_ok (onHeap_ok hd)] at e
      simp only [State.forget] at e
      injection e with _ e
      exact ⟨h', rfl, e.symm⟩
    | error x =>
      rw [M.bind_error (onHeap_error hd)] at e
      injection e with e
      cases e

/-- `emplace(key, object)`. -/
theorem Owns.emplace {s : State F} {V : Var → Option (Value F)} {fp} (h : Owns s V fp) (hgh : V .ghost = none) {x : Var} {p : List Nat} {l c}
    (h1 : At s x p l c) {us : List (List Nat × Value F)} (hu : vget V x p = some (.obj us)) {y : Var} {cy} (h2 : At s y [] (.var y) cy) {w : Value F}
    (hw : V y = some w) (key : List Nat) :
    (∃ s' fp', State.emplace l key (.var y) s = (.ok (), s') ∧ Owns s' (vset V x p (.obj (Map.emplace key w us))) fp' ∧ Well s fp s' fp' ∧
      KeepsOut s s' x p) ∨
    (∃ s', State.emplace l key (.var y) s = (.error (.exn .badAlloc), s') ∧ Owns s' V fp ∧ Ill s fp s' fp) := by
  obtain ⟨a, rfl⟩ := h.at_obj h1 hu
  rcases attempt_cases h.fresh with ⟨g, e2, gr2, ag2, m2, n2⟩ | ⟨g, e2, gr2, fl2, m2, n2⟩
  · have w2 := Owns.tick_well (fp := fp) gr2 ag2 m2
    have o2 := h.grew gr2
    have a2 := h1.grew gr2 h.fresh
    have b2 := h2.grew gr2 h.fresh
    obtain ⟨v, w', k1, k2, k3⟩ := o2.copyConstruct (t := .ghost) b2
    have hww : w' = w := by
      rw [hw] at k1
      injection k1 with k1
      subst k1
      simp only [part] at k2
      injection k2 with k2
      exact k2.symm
    subst hww
    have hgx : Var.ghost ≠ x := o2.ne hgh a2
    rw [copyConstruct_copy b2.read] at k3
    cases hcp : Heap.copy (State.depth { s with heap := g }) cy g with
    | mk r h' =>
      rw [hcp] at k3
      cases r with
      | ok c2 =>
        simp only at k3
        rcases k3 with ⟨s3, fw, e3, o3, gr3, ag3, _, hfw⟩ | ⟨s3, e3, _⟩
        · injection e3 with _ e3
          subst e3
          have w3 := o2.well_grew (t := .ghost) (o2.dead hgh).2 gr3 ag3 hfw
          have a3 : At { heap := h', vars := upd s.vars .ghost (some c2) } x p l (.obj a) := (a2.grew gr3 o2.fresh).vars hgx (some c2)
          have hvars : upd s.vars .ghost none = s.vars := by rw [← (h.dead hgh).1, upd_self]
          have hu3 : vget (upd V .ghost (some w')) x p = some (.obj us) := by rw [vget_upd hgx]; exact hu
          obtain ⟨mb, b, fps, q1, q2, q3, q4, q5, q6⟩ := o3.reblock a3 hu3 (a := a) rfl
          cases b <;> simp only [Node] at q2
          rename_i ms
          have q1' : h'.mem a = some (.obj ms) := q1
          have em : Heap.map a h' = (.ok ms, h') := by simp only [Heap.map, q1']
          have kept : ∀ z r k d, At s z r k d → At { heap := h', vars := upd s.vars .ghost (some c2) } z r k d := by
            intro z r k d hz
            have hz2 := hz.grew gr2 h.fresh
            exact (hz2.grew gr3 o2.fresh).vars (o2.ne hgh hz2) (some c2)
          have start : State.emplace l key (.var y) s = (do
              if (Map.find key ms).isSome then
                let n ← M.gets State.depth
                State.onHeap (Heap.destroy n c2)
              else State.onHeap (Heap.put a (.obj (Map.emplace key c2 ms))) : M (State F) Unit) { heap := h', vars := s.vars } := by
            simp only [State.emplace]
            rw [M.bind_ok h1.read]
            simp only
            rw [M.bind_ok (onHeap_ok e2), M.bind_ok b2.read, M.bind_ok (show M.gets State.depth _ = (.ok _, _) from rfl),
              M.bind_ok (onHeap_ok hcp), M.bind_ok (onHeap_ok em)]
          by_cases hk : (Map.find key ms).isSome = true
          · obtain ⟨s4, e4, o4, w4⟩ := o3.destruct_well (t := .ghost) (w := w') (upd_eq _ _ _)
            obtain ⟨h4, d1, d2⟩ := destruct_destroy (c := c2) (by simp [upd_eq]) e4
            subst d2
            have hus : Map.emplace key w' us = us := by
              refine emplace_present key w' ?_
              have := find_isNone key q2.2
              rw [← Option.not_isNone] at hk ⊢
              rw [← this]; exact hk
            simp only [upd_same, hvars] at o4 w4 e4
            refine .inl ⟨{ heap := h4, vars := s.vars }, _, ?_, ?_, (w2.trans w3).trans w4, ?_⟩
            · rw [start, if_pos hk, M.bind_ok (show M.gets State.depth _ = (.ok _, _) from rfl)]
              exact onHeap_ok d1
            · rw [hus, vset_self hu]
              rw [show upd V .ghost none = V by rw [← hgh, upd_self]] at o4
              exact o4
            · intro z r k d hz hn
              have hzg := o2.ne hgh (hz.grew gr2 h.fresh)
              have := o3.at_destruct (t := .ghost) (w := w') (upd_eq _ _ _) e4 (kept z r k d hz) hzg.symm
              exact ⟨d, this⟩
          · simp only [Bool.not_eq_true] at hk
            obtain ⟨f4, o4, ow⟩ := o3.absorbKey hgx key a3 (us := us) (w := w') (ct := c2) hu3 (upd_eq _ _ _) (by simp [upd_eq]) q1 hk
            refine .inl ⟨{ heap := { h' with mem := upd h'.mem a (some (.obj (Map.emplace key c2 ms))) }, vars := s.vars }, f4, ?_, ?_,
              w2.trans (w3.trans (Well.same ?_ ow rfl rfl rfl ?_)), ?_⟩
            · rw [start, if_neg (by simp [hk])]
              exact onHeap_ok (put_ok q1')
            · rw [vset_upd hgx, upd_same] at o4
              simp only [upd_same, hvars] at o4
              rw [show upd (vset V x p (.obj (Map.emplace key w' us))) .ghost none = vset V x p (.obj (Map.emplace key w' us)) from
                upd_vset_none hgx hgh _ _] at o4
              exact o4
            · exact upd_alloc q1'
            · exact upd_raw q1' (by simp)
            · intro z r k d hz hn
              have hzg := o2.ne hgh (hz.grew gr2 h.fresh)
              have := (o3.at_block a3 rfl (some (.obj (Map.emplace key c2 ms))) (kept z r k d hz) hn).vars hzg (none : Option (Cell F))
              simp only [upd_same, hvars] at this
              exact ⟨d, this⟩
        · injection e3 with e3
          cases e3
      | error st =>
        simp only at k3
        rcases k3 with ⟨s3, fw, e3, _⟩ | ⟨s3, e3, o3, gr3, fl3, rb3, _⟩
        · injection e3 with e3
          cases e3
        · injection e3 with e3 e4
          injection e3 with e3
          subst e3 e4
          refine .inr ⟨_, ?_, o3, w2.ill (o2.ill_grew gr3 fl3 rb3)⟩
          simp only [State.emplace]
          rw [M.bind_ok h1.read]
          simp only
          rw [M.bind_ok (onHeap_ok e2), M.bind_ok b2.read, M.bind_ok (show M.gets State.depth _ = (.ok _, _) from rfl),
            M.bind_error (onHeap_error hcp)]
  · refine .inr ⟨_, ?_, h.grew gr2, Owns.tick_ill gr2 fl2 m2⟩
    simp only [State.emplace]
    rw [M.bind_ok h1.read]
    simp only
    rw [M.bind_error (onHeap_error e2)]

end Spec
