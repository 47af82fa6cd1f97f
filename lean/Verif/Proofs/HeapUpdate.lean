import Verif.Proofs.HeapState
/-!
# Ownership after a change
-/
namespace Spec
open Configor

variable {F : Type}

theorem replace_self : ∀ {p : List Nat} {v u : Value F}, part v p = some u → replace v p u = v := by
  intro p
  induction p with
  | nil => intro v u h; simp only [part] at h; injection h with h; rw [replace, h]
  | cons i p ih =>
    intro v u h
    simp only [part, Option.bind_eq_some_iff] at h
    obtain ⟨x, hx, h⟩ := h
    simp only [replace, hx, ih h, set_self hx]
    cases v with
    | obj ms => simp [withKids, kids, zip_fst_snd]
    | _ => rfl

theorem part_replace : ∀ {p : List Nat} {v u : Value F} (w : Value F), part v p = some u → part (replace v p w) p = some w := by
  intro p
  induction p with
  | nil => intro v u w _; rfl
  | cons i p ih =>
    intro v u w h
    simp only [part, Option.bind_eq_some_iff] at h
    obtain ⟨x, hx, h⟩ := h
    simp only [replace, hx, part]
    rw [kids_withKids _ _ (by simp)]
    simp [lt_of_getElem? hx, ih w h]

theorem replace_replace : ∀ {p : List Nat} {v u : Value F} (w w' : Value F), part v p = some u →
    replace (replace v p w) p w' = replace v p w' := by
  intro p
  induction p with
  | nil => intro v u w w' _; rfl
  | cons i p ih =>
    intro v u w w' h
    simp only [part, Option.bind_eq_some_iff] at h
    obtain ⟨x, hx, h⟩ := h
    have hk : kids (withKids v ((kids v).set i (replace x p w))) = (kids v).set i (replace x p w) := kids_withKids _ _ (by simp)
    have e1 : replace v (i :: p) w = withKids v ((kids v).set i (replace x p w)) := by simp [replace, hx]
    have e2 : replace v (i :: p) w' = withKids v ((kids v).set i (replace x p w')) := by simp [replace, hx]
    rw [e1, e2]
    simp only [replace, hk]
    rw [show ((kids v).set i (replace x p w))[i]? = some (replace x p w) by simp [lt_of_getElem? hx]]
    simp only [ih w w' h, List.set_set]
    have hl := lt_of_getElem? hx
    cases v with
    | obj ms =>
      simp only [withKids, kids, List.length_map] at *
      rw [List.map_fst_zip (by simp)]
    | _ => simp_all [withKids, kids]

/-- A part, and what is needed for a change there. -/
theorem Owns.update {s : State F} {V : Var → Option (Value F)} {fp} (h : Owns s V fp) {x : Var} {p : List Nat} {l cu}
    (hat : At s x p l cu) :
    ∃ v u fu ctx m, V x = some v ∧ part v p = some u ∧ Repr s.heap.mem m cu u fu ∧ (fp x).Perm (fu ++ ctx) ∧
      ∀ (s' : State F) cu' u' fu' k, (∀ y, y ≠ x → s'.vars y = s.vars y) → s'.vars x = (store s l cu').vars x →
        (∀ a, a ∉ fu → a ∉ fu' → s'.heap.mem a = (store s l cu').heap.mem a) →
        Repr s'.heap.mem k cu' u' fu' → fu'.Nodup → (∀ a ∈ fu', a ∉ ctx ∧ ∀ y, y ≠ x → a ∉ fp y) → Fresh s'.heap →
        ∃ fp', Owns s' (upd V x (some (replace v p u'))) fp' ∧ (∀ y, y ≠ x → fp' y = fp y) ∧ (fp' x).Perm (fu' ++ ctx) := by
  have hat' := hat
  obtain ⟨r, hr, hf⟩ := hat
  obtain ⟨v, n, hv, hn⟩ := h.live hr
  obtain ⟨u, fu, ctx, m, g1, g2, g3, g4, g5⟩ := hn.focus (h.nodup x) hf
  refine ⟨v, u, fu, ctx, m, hv, g1, g2, g3, ?_⟩
  intro s' cu' u' fu' k w1 w2 w3 w4 w5 w6 w7
  have hnd : (fu ++ ctx).Nodup := g3.nodup_iff.1 (h.nodup x)
  rw [List.nodup_append] at hnd
  have hctx : ∀ a ∈ ctx, a ∉ fu ∧ a ∉ fu' := by
    intro a ha
    refine ⟨fun hb => hnd.2.2 a hb a ha rfl, fun hb => (w6 a hb).1 ha⟩
  have hoth : ∀ y, y ≠ x → ∀ a ∈ fp y, a ∉ fu ∧ a ∉ fu' ∧ a ∉ ctx := by
    intro y hy a ha
    refine ⟨fun hb => ?_, fun hb => (w6 a hb).2 y hy ha, fun hb => ?_⟩
    · exact h.disjoint y x hy a ha (g3.symm.subset (by simp [hb]))
    · exact h.disjoint y x hy a ha (g3.symm.subset (by simp [hb]))
  -- the tree of the variable
  have key : ∃ fx, Stands s'.heap.mem (s'.vars x) (some (replace v p u')) fx ∧ fx.Perm (fu' ++ ctx) ∧
      ∀ y, y ≠ x → ∀ a ∈ fp y, s'.heap.mem a = s.heap.mem a := by
    rcases hat'.cases with ⟨e1, e2, e3⟩ | ⟨e1, a, i, b, e2, e3, e4⟩
    · have := g4 e1
      subst this e1 e2
      refine ⟨fu', ?_, by simp, ?_⟩
      · rw [w2]
        simp only [store, upd_eq]
        exact ⟨k, w4⟩
      · intro y hy a ha
        have := hoth y hy a ha
        rw [w3 a this.1 this.2.1]
        rfl
    · obtain ⟨a', i', b', q1, q2, q3, q4, q5⟩ := g5 e1
      rw [e2] at q1
      injection q1 with q1 q1'
      subst q1 q1' e2
      rw [e3] at q2
      injection q2 with q2
      subst q2
      have hst : ∀ q, (store s (.slot a i) cu').heap.mem q = upd s.heap.mem a (some (b.withCells (b.cells.set i cu'))) q := by
        intro q; simp only [store, e3]
      obtain ⟨n', fx, z1, z2⟩ := q5 s'.heap.mem cu' u' fu' k
        (by have := hctx a q3; rw [w3 a this.1 this.2, hst, upd_eq])
        (by intro q hq hne; have := hctx q hq; rw [w3 q this.1 this.2, hst, upd_ne _ _ hne]) w4
      refine ⟨fx, ?_, z2, ?_⟩
      · rw [w2]
        simp only [store, e3, hr]
        exact ⟨n', z1⟩
      · intro y hy q hq
        have := hoth y hy q hq
        rw [w3 q this.1 this.2.1, hst, upd_ne _ _ (by intro e; subst e; exact this.2.2 q3)]
  obtain ⟨fx, k1, k2, k3⟩ := key
  refine ⟨upd fp x fx, ⟨?_, ?_, ?_, w7⟩, fun y hy => upd_ne _ _ hy, by rw [upd_eq]; exact k2⟩
  · intro y
    by_cases hy : y = x
    · subst hy
      rw [upd_eq, upd_eq]
      exact k1
    · rw [upd_ne _ _ hy, upd_ne _ _ hy, w1 y hy]
      have := h.stands y
      cases hc : s.vars y <;> cases hw : V y <;> rw [hc, hw] at this
      · exact this
      · exact this.elim
      · exact this.elim
      · obtain ⟨n2, hn2⟩ := this
        exact ⟨n2, hn2.frame fun a ha => k3 y hy a ha⟩
  · intro y
    by_cases hy : y = x
    · subst hy
      rw [upd_eq]
      refine k2.nodup_iff.2 (List.nodup_append.2 ⟨w5, hnd.2.1, ?_⟩)
      intro a ha b hb e
      subst e
      exact (w6 a ha).1 hb
    · rw [upd_ne _ _ hy]; exact h.nodup y
  · have hx : ∀ a ∈ fx, ∀ y, y ≠ x → a ∉ fp y := by
      intro a ha y hy hb
      have := hoth y hy a hb
      have ha' := k2.subset ha
      simp only [List.mem_append] at ha'
      rcases ha' with h' | h'
      · exact this.2.1 h'
      · exact this.2.2 h'
    intro y z hyz a ha hb
    by_cases hy : y = x
    · subst hy
      rw [upd_eq] at ha
      rw [upd_ne _ _ (Ne.symm hyz)] at hb
      exact hx a ha z (Ne.symm hyz) hb
    · rw [upd_ne _ _ hy] at ha
      by_cases hz : z = x
      · subst hz
        rw [upd_eq] at hb
        exact hx a hb y hy ha
      · rw [upd_ne _ _ hz] at hb
        exact h.disjoint y z hyz a ha hb

/-- A variable is forgotten; its blocks stay. -/
theorem Owns.close {s : State F} {V : Var → Option (Value F)} {fp} (h : Owns s V fp) (t : Var) :
    Owns { s with vars := upd s.vars t none } (upd V t none) (upd fp t []) := by
  refine ⟨?_, ?_, ?_, h.fresh⟩
  · intro y
    by_cases hy : y = t
    · subst hy; simp only [upd_eq]; rfl
    · simp only [upd_ne _ _ hy]; exact h.stands y
  · intro y
    by_cases hy : y = t
    · subst hy; simp [upd_eq]
    · simp only [upd_ne _ _ hy]; exact h.nodup y
  · intro y z hyz a ha hb
    by_cases hy : y = t
    · subst hy; rw [upd_eq] at ha; cases ha
    · by_cases hz : z = t
      · subst hz; rw [upd_eq] at hb; cases hb
      · rw [upd_ne _ _ hy] at ha
        rw [upd_ne _ _ hz] at hb
        exact h.disjoint y z hyz a ha hb

/-- A variable begins to own blocks that nobody owns. -/
theorem Owns.open {s : State F} {V : Var → Option (Value F)} {fp} (h : Owns s V fp) {t : Var} {n : Nat} {c : Cell F} {w : Value F}
    {fw : List Nat} (hr : Repr s.heap.mem n c w fw) (hd : fw.Nodup) (hf : ∀ a ∈ fw, ∀ y, y ≠ t → a ∉ fp y) :
    Owns { s with vars := upd s.vars t (some c) } (upd V t (some w)) (upd fp t fw) := by
  refine ⟨?_, ?_, ?_, h.fresh⟩
  · intro y
    by_cases hy : y = t
    · subst hy; simp only [upd_eq]; exact ⟨n, hr⟩
    · simp only [upd_ne _ _ hy]; exact h.stands y
  · intro y
    by_cases hy : y = t
    · subst hy; simp only [upd_eq]; exact hd
    · simp only [upd_ne _ _ hy]; exact h.nodup y
  · intro y z hyz a ha hb
    by_cases hy : y = t
    · subst hy
      rw [upd_eq] at ha
      rw [upd_ne _ _ (Ne.symm hyz)] at hb
      exact hf a ha z (Ne.symm hyz) hb
    · rw [upd_ne _ _ hy] at ha
      by_cases hz : z = t
      · subst hz
        rw [upd_eq] at hb
        exact hf a hb y hy ha
      · rw [upd_ne _ _ hz] at hb
        exact h.disjoint y z hyz a ha hb

/-- Allocation elsewhere changes nothing. -/
theorem Owns.grew {s : State F} {V : Var → Option (Value F)} {fp} (h : Owns s V fp) {h' : Heap F} (g : Grew s.heap h') :
    Owns { s with heap := h' } V fp := by
  refine ⟨?_, h.nodup, h.disjoint, g.fresh⟩
  intro y
  have := h.stands y
  cases hc : s.vars y <;> cases hw : V y <;> rw [hc, hw] at this <;> simp only
  · exact this
  · exact this.elim
  · exact this.elim
  · obtain ⟨n, hn⟩ := this
    exact ⟨n, hn.frame fun a ha => g.old a (h.alloc ha).2⟩

theorem find_mono {mem mem' : Nat → Option (Block F)} (hm : ∀ a b, mem a = some b → mem' a = some b) :
    ∀ {p : List Nat} {l l' : Loc} {c c' : Cell F}, find mem l c p = some (l', c') → find mem' l c p = some (l', c') := by
  intro p
  induction p with
  | nil => intro l l' c c' h; exact h
  | cons i p ih =>
    intro l l' c c' h
    simp only [find, Option.bind_eq_some_iff] at h ⊢
    obtain ⟨a, ha, b, hb, d, hd, h⟩ := h
    exact ⟨a, ha, b, hm a b hb, d, hd, ih h⟩

theorem Grew.mono {h h' : Heap F} (g : Grew h h') (hf : Fresh h) : ∀ a b, h.mem a = some b → h'.mem a = some b := by
  intro a b hb
  rcases Nat.lt_or_ge a h.next with h1 | h1
  · rw [g.old a h1, hb]
  · rw [hf a h1] at hb; cases hb

theorem At.grew {s : State F} {x p l c} (h : At s x p l c) {h' : Heap F} (g : Grew s.heap h') (hf : Fresh s.heap) :
    At { s with heap := h' } x p l c := by
  obtain ⟨r, hr, hp⟩ := h
  exact ⟨r, hr, find_mono (g.mono hf) hp⟩

/-- Other variables do not matter for a place. -/
theorem At.vars {s : State F} {x p l c} (h : At s x p l c) {t : Var} (ht : t ≠ x) (o : Option (Cell F)) :
    At { s with vars := upd s.vars t o } x p l c := by
  obtain ⟨r, hr, hp⟩ := h
  exact ⟨r, by simp only [upd_ne _ _ (Ne.symm ht)]; exact hr, hp⟩

/-- Blocks somebody owns. -/
def Owned (fp : Var → List Nat) (a : Nat) : Prop := ∃ y, a ∈ fp y

/-- The destructor. -/
theorem Owns.destruct {s : State F} {V : Var → Option (Value F)} {fp} (h : Owns s V fp) {t : Var} {w : Value F} (hw : V t = some w) :
    ∃ s', State.destruct t s = (.ok (), s') ∧ Owns s' (upd V t none) (upd fp t []) ∧ s'.vars = upd s.vars t none ∧
      s'.heap = without s.heap (fp t) := by
  obtain ⟨r, n, hr, hn⟩ := h.alive hw
  have hlen : (fp t).length ≤ s.heap.next :=
    length_le_of_nodup _ _ (h.nodup t) fun a ha => (h.alloc ha).2
  have hn' : Repr s.heap.mem s.depth r w (fp t) := hn.depth.mono (by simp only [State.depth]; omega)
  have hd := destroy_ok hn' (h.nodup t)
  have e1 : State.read (.var t) s = (.ok r, s) := by simp [State.read, hr]
  have e2 : (M.gets State.depth : M (State F) Nat) s = (.ok s.depth, s) := rfl
  have e3 : State.onHeap (Heap.destroy s.depth r) s = (.ok (), { s with heap := without s.heap (fp t) }) := by
    simp only [State.onHeap, hd]
  refine ⟨{ heap := without s.heap (fp t), vars := upd s.vars t none }, ?_, ?_, rfl, rfl⟩
  · simp only [State.destruct]
    rw [M.bind_ok e1, M.bind_ok e2, M.bind_ok e3]
    rfl
  · have hc := h.close t
    refine ⟨?_, hc.nodup, hc.disjoint, ?_⟩
    · intro y
      have := hc.stands y
      by_cases hy : y = t
      · subst hy; simp only [upd_eq] at this ⊢; exact this
      · simp only [upd_ne _ _ hy] at this ⊢
        cases hcy : s.vars y <;> cases hwy : V y <;> rw [hcy, hwy] at this
        · exact this
        · exact this.elim
        · exact this.elim
        · obtain ⟨m, hm⟩ := this
          exact ⟨m, hm.frame fun a ha => without_mem (h.disjoint y t hy a ha)⟩
    · intro a ha
      by_cases hc : a ∈ fp t
      · simp [without, hc]
      · simp only [without_mem hc]; exact h.fresh a ha

/-- The copy constructor of a variable. -/
theorem Owns.copyConstruct {s : State F} {V : Var → Option (Value F)} {fp} (h : Owns s V fp) {t y : Var}
    {q : List Nat} {l c} (hat : At s y q l c) :
    ∃ v u, V y = some v ∧ part v q = some u ∧
      ((∃ s' fw, State.copyConstruct t l s = (.ok (), s') ∧ Owns s' (upd V t (some u)) (upd fp t fw) ∧ Grew s.heap s'.heap ∧
          AllGood s.heap s'.heap ∧ (∃ c', s'.vars = upd s.vars t (some c')) ∧
          ∀ a, a ∈ fw ↔ s.heap.next ≤ a ∧ s'.heap.mem a ≠ none) ∨
       (∃ s', State.copyConstruct t l s = (.error (.exn .badAlloc), s') ∧ Owns s' V fp ∧ Grew s.heap s'.heap ∧
          Failed s.heap s'.heap ∧ RawBeyond s.heap s'.heap ∧ s'.vars = s.vars)) := by
  obtain ⟨v, u, fu, ctx, m, g1, g2, g3, g4, _⟩ := h.update hat
  refine ⟨v, u, g1, g2, ?_⟩
  have hsub : ∀ a ∈ fu, a ∈ fp y := fun a ha => g4.symm.subset (by simp [ha])
  have hlt : ∀ a ∈ fu, a < s.heap.next := fun a ha => (h.alloc (hsub a ha)).2
  have hnd : fu.Nodup := (List.nodup_append.1 (g4.nodup_iff.1 (h.nodup y))).1
  have hlen : fu.length ≤ s.heap.next := length_le_of_nodup _ _ hnd hlt
  have hr : Repr s.heap.mem s.depth c u fu := g3.depth.mono (by simp only [State.depth]; omega)
  have e1 := hat.read
  have e2 : (M.gets State.depth : M (State F) Nat) s = (.ok s.depth, s) := rfl
  rcases copy_cases hr h.fresh hlt with ⟨c', fp', h', e3, k1, k2, k3, k4, k5⟩ | ⟨h', e3, k1, k2, k3⟩
  · have e4 : State.onHeap (Heap.copy s.depth c) s = (.ok c', { s with heap := h' }) := by simp only [State.onHeap, e3]
    refine .inl ⟨{ heap := h', vars := upd s.vars t (some c') }, fp', ?_, ?_, k1, k2, ⟨c', rfl⟩, k5⟩
    · simp only [State.copyConstruct]
      rw [M.bind_ok e1, M.bind_ok e2, M.bind_ok e4]
      rfl
    · refine Owns.open (s := { s with heap := h' }) (h.grew k1) k3 k4 ?_
      intro a ha z _ hb
      have := (h.alloc hb).2
      have := ((k5 a).1 ha).1
      omega
  · have e4 : State.onHeap (Heap.copy s.depth c) s = (.error (.exn .badAlloc), { s with heap := h' }) := by
      simp only [State.onHeap, e3]
    refine .inr ⟨{ s with heap := h' }, ?_, h.grew k1, k1, k2, k3, rfl⟩
    simp only [State.copyConstruct]
    rw [M.bind_ok e1, M.bind_ok e2, M.bind_error e4]

/-- The exchange of a part with a whole variable. -/
theorem Owns.exchange {s : State F} {V : Var → Option (Value F)} {fp} (h : Owns s V fp) {x t : Var} (htx : t ≠ x) {p : List Nat} {l cu}
    (hat : At s x p l cu) {w : Value F} {ct : Cell F} (hw : V t = some w) (hc : s.vars t = some ct) :
    ∃ v u fp', V x = some v ∧ part v p = some u ∧
      Owns (store (store s l ct) (.var t) cu) (upd (upd V x (some (replace v p w))) t (some u)) fp' ∧
      (∀ a, Owned fp' a ↔ Owned fp a) := by
  obtain ⟨r, n, hr, hn⟩ := h.alive hw
  rw [hc] at hr
  injection hr with hr
  subst hr
  have h0 := h.close t
  have hat0 := hat.vars htx none
  obtain ⟨v, u, fu, ctx, m, g1, g2, g3, g4, g5⟩ := h0.update hat0
  rw [upd_ne _ _ (Ne.symm htx)] at g1 g4
  have hnd := List.nodup_append.1 (g4.nodup_iff.1 (h.nodup x))
  have hsub : ∀ a, a ∈ fu ∨ a ∈ ctx → a ∈ fp x := fun a ha => g4.symm.subset (by simpa using ha)
  -- the block that is changed is not one of `t`, nor of the part
  have hblock : ∀ a, (store { s with vars := upd s.vars t none } l ct).heap.mem a = (store s l ct).heap.mem a := by
    intro a
    cases l with
    | var z => rfl
    | slot b i => simp only [store]; cases s.heap.mem b <;> rfl
  have hmem : ∀ a, a ∈ fu ∨ (∃ y, y ≠ x ∧ a ∈ fp y) → (store s l ct).heap.mem a = s.heap.mem a := by
    intro a ha
    rcases hat.cases with ⟨e1, e2, e3⟩ | ⟨e1, b, i, bl, e2, e3, e4⟩
    · subst e2; rfl
    · subst e2
      simp only [store, e3]
      refine upd_ne _ _ ?_
      intro e
      subst e
      obtain ⟨r, hr, hf⟩ := hat
      obtain ⟨v', n', hv', hn'⟩ := h.live hr
      obtain ⟨u', fu', ctx', m', q1, q2, q3, q4, q5⟩ := hn'.focus (h.nodup x) hf
      obtain ⟨a', i', b', z1, z2, z3, z4, z5⟩ := q5 e1
      injection z1 with z1 z1'
      subst z1
      obtain ⟨_, eq⟩ := g3.unique q2
      subst eq
      rcases ha with ha | ⟨y, hy, ha⟩
      · exact (List.nodup_append.1 (q3.nodup_iff.1 (h.nodup x))).2.2 a ha a z3 rfl
      · exact h.disjoint y x hy a ha (q3.symm.subset (by simp [z3]))
  obtain ⟨fp1, k1, k2, k3⟩ := g5 (store { s with vars := upd s.vars t none } l ct) ct w (fp t) n
    (by
      intro y hy
      cases l with
      | var z =>
        rcases hat.cases with ⟨e1, e2, e3⟩ | ⟨e1, b, i, bl, e2, e3, e4⟩
        · injection e2 with e2
          subst e2
          simp only [store]
          rw [upd_ne _ _ hy]
        · cases e2
      | slot b i => simp only [store]; cases s.heap.mem b <;> rfl)
    rfl (fun a _ _ => rfl)
    (hn.frame fun a ha => by rw [hblock]; exact hmem a (.inr ⟨t, htx, ha⟩))
    (h.nodup t)
    (by
      intro a ha
      refine ⟨fun hb => h.disjoint t x htx a ha (hsub a (.inr hb)), ?_⟩
      intro y hy
      by_cases hyt : y = t
      · subst hyt; rw [upd_eq]; simp
      · rw [upd_ne _ _ hyt]; exact h.disjoint t y (Ne.symm hyt) a ha)
    (by
      intro a ha
      rw [store_next] at ha
      exact (store_alloc _ _ _ a).2 (h.fresh a ha))
  have hfu : Repr (store { s with vars := upd s.vars t none } l ct).heap.mem m cu u fu :=
    g3.frame fun a ha => by rw [hblock]; exact hmem a (.inl ha)
  have k4 := k1.open (t := t) hfu hnd.1 (by
    intro a ha y hy hb
    by_cases hyx : y = x
    · subst hyx
      have := k3.subset hb
      simp only [List.mem_append] at this
      rcases this with h' | h'
      · exact h.disjoint t y htx a h' (hsub a (.inl ha))
      · exact hnd.2.2 a ha a h' rfl
    · rw [k2 y hyx, upd_ne _ _ hy] at hb
      exact h.disjoint y x hyx a hb (hsub a (.inl ha)))
  refine ⟨v, u, upd fp1 t fu, g1, g2, ?_, ?_⟩
  · have es : ({ store { s with vars := upd s.vars t none } l ct with
        vars := upd (store { s with vars := upd s.vars t none } l ct).vars t (some cu) } : State F) =
        store (store s l ct) (.var t) cu := by
      cases l with
      | var z =>
        rcases hat.cases with ⟨e1, e2, e3⟩ | ⟨e1, b, i, bl, e2, e3, e4⟩
        · injection e2 with e2
          subst e2
          simp only [store]
          rw [upd_comm _ _ _ htx, upd_same]
        · cases e2
      | slot b i =>
        simp only [store]
        cases s.heap.mem b <;> simp only [upd_same]
    have ev : upd (upd (upd V t none) x (some (replace v p w))) t (some u) = upd (upd V x (some (replace v p w))) t (some u) := by
      rw [upd_comm _ _ _ htx, upd_same]
    rw [es, ev] at k4
    exact k4
  · intro a
    constructor
    · rintro ⟨y, hy⟩
      by_cases hyt : y = t
      · subst hyt; rw [upd_eq] at hy; exact ⟨x, hsub a (.inl hy)⟩
      · rw [upd_ne _ _ hyt] at hy
        by_cases hyx : y = x
        · subst hyx
          have := k3.subset hy
          simp only [List.mem_append] at this
          rcases this with h' | h'
          · exact ⟨t, h'⟩
          · exact ⟨y, hsub a (.inr h')⟩
        · rw [k2 y hyx, upd_ne _ _ hyt] at hy
          exact ⟨y, hy⟩
    · rintro ⟨y, hy⟩
      by_cases hyt : y = t
      · subst hyt
        exact ⟨x, by rw [upd_ne _ _ (Ne.symm htx)]; exact k3.symm.subset (by simp [hy])⟩
      · by_cases hyx : y = x
        · subst hyx
          have := g4.subset hy
          simp only [List.mem_append] at this
          rcases this with h' | h'
          · exact ⟨t, by rw [upd_eq]; exact h'⟩
          · exact ⟨y, by rw [upd_ne _ _ (Ne.symm htx)]; exact k3.symm.subset (by simp [h'])⟩
        · exact ⟨y, by rw [upd_ne _ _ hyt, k2 y hyx, upd_ne _ _ hyt]; exact hy⟩

end Spec
