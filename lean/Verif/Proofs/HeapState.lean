import Verif.Proofs.HeapCopy
/-!
# Changing a place in memory
-/
namespace Spec
open Configor

variable {F : Type}

/-! ## Places -/

/-- In state `s` the path `p` in variable `x` leads to the place `l`, which has the cell `c`. -/
def At (s : State F) (x : Var) (p : List Nat) (l : Loc) (c : Cell F) : Prop :=
  ∃ r, s.vars x = some r ∧ find s.heap.mem (.var x) r p = some (l, c)

/-- A state with another cell at a place. -/
def store (s : State F) : Loc → Cell F → State F
  | .var x, c => { s with vars := upd s.vars x (some c) }
  | .slot a i, c => match s.heap.mem a with
    | some b => { s with heap := { s.heap with mem := upd s.heap.mem a (some (b.withCells (b.cells.set i c))) } }
    | none => s

theorem At.cases {s : State F} {x p l c} (h : At s x p l c) :
    (p = [] ∧ l = .var x ∧ s.vars x = some c) ∨
    (p ≠ [] ∧ ∃ a i b, l = .slot a i ∧ s.heap.mem a = some b ∧ b.cells[i]? = some c) := by
  obtain ⟨r, hr, hf⟩ := h
  by_cases hp : p = []
  · subst hp
    simp only [find] at hf
    injection hf with hf
    injection hf with h1 h2
    subst h1 h2
    exact .inl ⟨rfl, rfl, hr⟩
  · exact .inr ⟨hp, find_slot hf hp⟩

theorem lt_of_getElem? {A : Type} {l : List A} {i : Nat} {a : A} (h : l[i]? = some a) : i < l.length := by
  rcases Nat.lt_or_ge i l.length with h' | h'
  · exact h'
  · rw [List.getElem?_eq_none h'] at h; cases h

theorem At.read {s : State F} {x p l c} (h : At s x p l c) : State.read l s = (.ok c, s) := by
  rcases h.cases with ⟨_, rfl, h0⟩ | ⟨_, a, i, b, rfl, h1, h2⟩
  · simp [State.read, h0]
  · simp [State.read, h1, h2]

theorem At.write {s : State F} {x p l c} (h : At s x p l c) (c' : Cell F) : State.write l c' s = (.ok (), store s l c') := by
  rcases h.cases with ⟨_, rfl, h0⟩ | ⟨_, a, i, b, rfl, h1, h2⟩
  · simp [State.write, h0, store]
  · simp [State.write, h1, lt_of_getElem? h2, store]

theorem locate_find : ∀ {p : List Nat} {s : State F} {l l' : Loc} {c c' : Cell F}, find s.heap.mem l c p = some (l', c') →
    State.locate l c p s = (.ok l', s) := by
  intro p
  induction p with
  | nil =>
    intro s l l' c c' h
    simp only [find] at h
    injection h with h
    injection h with h1 h2
    subst h1
    rfl
  | cons i p ih =>
    intro s l l' c c' h
    simp only [find, Option.bind_eq_some_iff] at h
    obtain ⟨a, ha, b, hb, d, hd, h⟩ := h
    have hr : State.read (.slot a i) s = (.ok d, s) := by simp [State.read, hb, hd]
    cases c <;> simp only [Cell.addr] at ha <;> cases ha
    · simp only [State.locate]
      rw [M.bind_ok (M.pure_def _ _), M.bind_ok hr]
      exact ih h
    · simp only [State.locate]
      rw [M.bind_ok (M.pure_def _ _), M.bind_ok hr]
      exact ih h

theorem At.ref {s : State F} {x p l c} (h : At s x p l c) : State.ref x p s = (.ok l, s) := by
  obtain ⟨r, hr, hf⟩ := h
  have : State.read (.var x) s = (.ok r, s) := by simp [State.read, hr]
  simp only [State.ref]
  rw [M.bind_ok this]
  exact locate_find hf

/-! ## Stores -/

theorem set_self {A : Type} {l : List A} {i : Nat} {a : A} (h : l[i]? = some a) : l.set i a = l := by
  apply List.ext_getElem?
  intro j
  rw [List.getElem?_set]
  split
  · next e => subst e; simp only [h]; rw [if_pos (lt_of_getElem? h)]
  · rfl

theorem upd_self {A B : Type} [DecidableEq A] (f : A → B) (a : A) : upd f a (f a) = f := by
  funext x
  simp only [upd]
  split
  · next h => rw [h]
  · rfl

theorem upd_same {A B : Type} [DecidableEq A] (f : A → B) (a : A) (b b' : B) : upd (upd f a b) a b' = upd f a b' := by
  funext x
  simp only [upd]
  split <;> rfl

theorem upd_comm {A B : Type} [DecidableEq A] (f : A → B) {a a' : A} (b b' : B) (h : a ≠ a') :
    upd (upd f a b) a' b' = upd (upd f a' b') a b := by
  funext x
  simp only [upd]
  by_cases h1 : x = a'
  · subst h1
    simp [Ne.symm h]
  · simp [h1]

theorem upd_eq {A B : Type} [DecidableEq A] (f : A → B) (a : A) (b : B) : upd f a b a = b := by simp [upd]

theorem upd_ne {A B : Type} [DecidableEq A] (f : A → B) {a x : A} (b : B) (h : x ≠ a) : upd f a b x = f x := by simp [upd, h]

/-- Storing what is there changes nothing. -/
theorem At.store_self {s : State F} {x p l c} (h : At s x p l c) : store s l c = s := by
  rcases h.cases with ⟨_, rfl, h0⟩ | ⟨_, a, i, b, rfl, h1, h2⟩
  · simp only [store, ← h0, upd_self]
  · simp only [store, h1, set_self h2, Block.withCells_cells]
    rw [← h1, upd_self]

theorem withCells_withCells (b : Block F) (cs cs' : List (Cell F)) (h : cs.length = b.cells.length) :
    (b.withCells cs).withCells cs' = b.withCells cs' := by
  cases b with
  | obj ms =>
    simp only [Block.withCells, Block.cells] at h ⊢
    rw [List.map_fst_zip]
    simp only [List.length_map] at h ⊢
    omega
  | _ => rfl

theorem store_same (s : State F) (l : Loc) (c c' : Cell F) : store (store s l c) l c' = store s l c' := by
  cases l with
  | var x => simp [store, upd_same]
  | slot a i =>
    simp only [store]
    cases h : s.heap.mem a with
    | none => simp [h]
    | some b =>
      simp only [upd_eq]
      rw [Block.cells_withCells _ _ (by simp), withCells_withCells _ _ _ (by simp), upd_same, List.set_set]

theorem store_comm (s : State F) {l l' : Loc} (c c' : Cell F) (h : l ≠ l') :
    store (store s l c) l' c' = store (store s l' c') l c := by
  cases l with
  | var x => cases l' with
    | var y => simp only [store]; rw [upd_comm _ _ _ (by intro e; exact h (by rw [e]))]
    | slot a i =>
      simp only [store]
      cases s.heap.mem a <;> rfl
  | slot a i => cases l' with
    | var y =>
      simp only [store]
      cases s.heap.mem a <;> rfl
    | slot a' i' =>
      by_cases e : a = a'
      · subst e
        have hi : i ≠ i' := by intro e; exact h (by rw [e])
        simp only [store]
        cases hb : s.heap.mem a with
        | none => simp [hb]
        | some b =>
          simp only [upd_eq]
          rw [Block.cells_withCells _ _ (by simp), withCells_withCells _ _ _ (by simp), upd_same,
            Block.cells_withCells _ _ (by simp), withCells_withCells _ _ _ (by simp), upd_same, List.set_comm _ _ hi]
      · simp only [store]
        cases hb : s.heap.mem a with
        | none =>
          cases hb' : s.heap.mem a' with
          | none => simp [hb]
          | some b' => simp only [upd_ne _ _ e, hb]
        | some b =>
          cases hb' : s.heap.mem a' with
          | none => simp only [upd_ne _ _ (Ne.symm e), hb', hb]
          | some b' =>
            simp only [upd_ne _ _ (Ne.symm e), upd_ne _ _ e, hb, hb']
            rw [upd_comm _ _ _ e]

theorem store_next (s : State F) (l : Loc) (c : Cell F) : (store s l c).heap.next = s.heap.next := by
  cases l with
  | var x => rfl
  | slot a i => simp only [store]; cases s.heap.mem a <;> rfl

theorem store_plan (s : State F) (l : Loc) (c : Cell F) :
    (store s l c).heap.plan = s.heap.plan ∧ (store s l c).heap.tick = s.heap.tick := by
  cases l with
  | var x => exact ⟨rfl, rfl⟩
  | slot a i => simp only [store]; cases s.heap.mem a <;> exact ⟨rfl, rfl⟩

theorem store_alloc (s : State F) (l : Loc) (c : Cell F) (a : Nat) :
    (store s l c).heap.mem a = none ↔ s.heap.mem a = none := by
  cases l with
  | var x => rfl
  | slot a' i =>
    simp only [store]
    cases h : s.heap.mem a' with
    | none => rfl
    | some b =>
      simp only [upd]
      split
      · next e => subst e; simp [h]
      · rfl

theorem store_raw (s : State F) (l : Loc) (c : Cell F) (a : Nat) :
    s.heap.mem a = some .raw → (store s l c).heap.mem a = some .raw := by
  intro hr
  cases l with
  | var x => exact hr
  | slot a' i =>
    simp only [store]
    cases h : s.heap.mem a' with
    | none => exact hr
    | some b =>
      simp only [upd]
      split
      · next e =>
        subst e
        rw [hr] at h
        injection h with h
        subst h
        rfl
      · exact hr

/-! ## Uniqueness of places -/

theorem Repr.slot_mem : ∀ {p : List Nat} {mem : Nat → Option (Block F)} {n : Nat} {c c' : Cell F} {v : Value F} {fp : List Nat} {l : Loc} {a i : Nat},
    Repr mem n c v fp → Spec.find mem l c p = some (.slot a i, c') → p ≠ [] → a ∈ fp := by
  intro p
  induction p with
  | nil => intro mem n c c' v fp l a i _ _ h; exact absurd rfl h
  | cons j p ih =>
    intro mem n c c' v fp l a i hr hf _
    simp only [Spec.find, Option.bind_eq_some_iff] at hf
    obtain ⟨a1, ha, b, hb, d, hd, hf⟩ := hf
    cases n with
    | zero => have h' : Flat mem c v fp := hr; rw [h'.addr] at ha; cases ha
    | succ n =>
      rcases hr with h | ⟨a', b', fps, h1, h2, h3, h4⟩
      · rw [h.addr] at ha; cases ha
      · rw [h2.addr] at ha
        injection ha with ha
        subst ha
        rw [h1] at hb
        injection hb with hb
        subst hb h4
        by_cases hp : p = []
        · subst hp
          simp only [Spec.find] at hf
          injection hf with hf
          injection hf with e1 e2
          injection e1 with e1 e3
          simp [e1]
        · obtain ⟨x, f, pre, post, e1, e2, e3, e4, e5⟩ := All3.get h3 hd
          have := ih e3 hf hp
          rw [e4]
          simp [this]

theorem Repr.path_unique : ∀ {p q : List Nat} {mem : Nat → Option (Block F)} {n : Nat} {c c' c'' : Cell F} {v : Value F} {fp : List Nat} {l l' : Loc} {a i : Nat},
    Repr mem n c v fp → fp.Nodup → Spec.find mem l c p = some (.slot a i, c') → Spec.find mem l' c q = some (.slot a i, c'') →
    p ≠ [] → q ≠ [] → p = q := by
  intro p
  induction p with
  | nil => intro q mem n c c' c'' v fp l l' a i _ _ _ _ h; exact absurd rfl h
  | cons j p ih =>
    intro q mem n c c' c'' v fp l l' a i hr hn hf hg _ hq
    cases q with
    | nil => exact absurd rfl hq
    | cons k q =>
      simp only [Spec.find, Option.bind_eq_some_iff] at hf hg
      obtain ⟨a1, ha, b, hb, d, hd, hf⟩ := hf
      obtain ⟨a2, ha2, b2, hb2, d2, hd2, hg⟩ := hg
      cases n with
      | zero => have h' : Flat mem c v fp := hr; rw [h'.addr] at ha; cases ha
      | succ n =>
        rcases hr with h | ⟨a', b', fps, h1, h2, h3, h4⟩
        · rw [h.addr] at ha; cases ha
        · rw [h2.addr] at ha ha2
          injection ha with ha
          injection ha2 with ha2
          subst ha ha2
          rw [h1] at hb hb2
          injection hb with hb
          injection hb2 with hb2
          subst hb hb2 h4
          obtain ⟨x, f, pre, post, e1, e2, e3, e4, e5⟩ := All3.get h3 hd
          obtain ⟨x', f', pre', post', e1', e2', e3', e4', e5'⟩ := All3.get h3 hd2
          have hn0 := hn
          rw [List.nodup_cons] at hn0
          have hin : ∀ {g : List Nat} {m : Nat}, fps[m]? = some g → ∀ y ∈ g, y ∈ fps.flatten := by
            intro g m hg y hy
            exact List.mem_flatten.2 ⟨g, List.mem_of_getElem? hg, hy⟩
          by_cases hp : p = []
          · subst hp
            simp only [Spec.find] at hf
            injection hf with hf
            injection hf with e6 e7
            injection e6 with e8 e9
            by_cases hq' : q = []
            · subst hq'
              simp only [Spec.find] at hg
              injection hg with hg
              injection hg with g6 g7
              injection g6 with g8 g9
              rw [e9, g9]
            · have := Repr.slot_mem e3' hg hq'
              exact absurd (by rw [e8]; exact hin e2' _ this) hn0.1
          · by_cases hq' : q = []
            · subst hq'
              simp only [Spec.find] at hg
              injection hg with hg
              injection hg with g6 g7
              injection g6 with g8 g9
              have := Repr.slot_mem e3 hf hp
              exact absurd (by rw [g8]; exact hin e2 _ this) hn0.1
            · have m1 := Repr.slot_mem e3 hf hp
              have m2 := Repr.slot_mem e3' hg hq'
              have hjk : j = k := by
                have hnd := hn0.2
                clear ih e3 e3' e4 e4' e5 e5' hf hg hd hd2 h3 hn hn0 h1 h2 hin e1 e1'
                induction fps generalizing j k with
                | nil => simp at e2
                | cons z zs ihz =>
                  rw [List.flatten_cons, List.nodup_append] at hnd
                  cases j with
                  | zero => cases k with
                    | zero => rfl
                    | succ k =>
                      simp at e2 e2'
                      subst e2
                      exact absurd rfl (hnd.2.2 a m1 a (List.mem_flatten.2 ⟨f', List.mem_of_getElem? e2', m2⟩))
                  | succ j => cases k with
                    | zero =>
                      simp at e2 e2'
                      subst e2'
                      exact absurd rfl (hnd.2.2 a m2 a (List.mem_flatten.2 ⟨f, List.mem_of_getElem? e2, m1⟩))
                    | succ k =>
                      simp at e2 e2'
                      rw [ihz j (by simp) k (by simp) e2 e2' hnd.2.1]
              subst hjk
              rw [hd] at hd2
              injection hd2 with hd2
              subst hd2
              rw [e2] at e2'
              injection e2' with e2'
              subst e2'
              have hnf : f.Nodup := by
                have := hn0.2
                rw [e4] at this
                simp only [List.nodup_append] at this
                exact this.1.2.1
              rw [ih e3 hnf hf hg hp hq']

theorem Owns.live {s : State F} {V : Var → Option (Value F)} {fp} (h : Owns s V fp) {x : Var} {r : Cell F} (hr : s.vars x = some r) :
    ∃ v n, V x = some v ∧ Repr s.heap.mem n r v (fp x) := by
  have := h.stands x
  rw [hr] at this
  cases hv : V x with
  | none => rw [hv] at this; exact this.elim
  | some v =>
    rw [hv] at this
    obtain ⟨n, hn⟩ := this
    exact ⟨v, n, rfl, hn⟩

theorem Owns.alive {s : State F} {V : Var → Option (Value F)} {fp} (h : Owns s V fp) {x : Var} {v : Value F} (hv : V x = some v) :
    ∃ r n, s.vars x = some r ∧ Repr s.heap.mem n r v (fp x) := by
  have := h.stands x
  rw [hv] at this
  cases hr : s.vars x with
  | none => rw [hr] at this; exact this.elim
  | some r =>
    rw [hr] at this
    obtain ⟨n, hn⟩ := this
    exact ⟨r, n, rfl, hn⟩

theorem Owns.dead {s : State F} {V : Var → Option (Value F)} {fp} (h : Owns s V fp) {x : Var} (hv : V x = none) :
    s.vars x = none ∧ fp x = [] := by
  have := h.stands x
  rw [hv] at this
  cases hr : s.vars x with
  | none => rw [hr] at this; exact ⟨rfl, this⟩
  | some r => rw [hr] at this; exact this.elim

/-- Owned blocks are allocated, and below `next`. -/
theorem Owns.alloc {s : State F} {V : Var → Option (Value F)} {fp} (h : Owns s V fp) {x : Var} {a : Nat} (ha : a ∈ fp x) :
    s.heap.mem a ≠ none ∧ a < s.heap.next := by
  have hm : s.heap.mem a ≠ none := by
    cases hv : V x with
    | none => rw [(h.dead hv).2] at ha; cases ha
    | some v =>
      obtain ⟨r, n, _, hr⟩ := h.alive hv
      exact hr.allocated a ha
  refine ⟨hm, ?_⟩
  rcases Nat.lt_or_ge a s.heap.next with h' | h'
  · exact h'
  · exact absurd (h.fresh a h') hm

/-- Every part of a live variable has a place. -/
theorem Owns.at {s : State F} {V : Var → Option (Value F)} {fp} (h : Owns s V fp) {x : Var} {v u : Value F} {p : List Nat}
    (hv : V x = some v) (hp : part v p = some u) : ∃ l c, At s x p l c := by
  obtain ⟨r, n, hr, hn⟩ := h.alive hv
  obtain ⟨l, c, hf⟩ := Repr.find (.var x) hn hp
  exact ⟨l, c, r, hr, hf⟩

/-- Different references refer to different places. -/
theorem Owns.at_inj {s : State F} {V : Var → Option (Value F)} {fp} (h : Owns s V fp) {x y : Var} {p q : List Nat} {l c c'}
    (h1 : At s x p l c) (h2 : At s y q l c') : x = y ∧ p = q ∧ c = c' := by
  have hcc : c = c' := by
    have := h1.read
    rw [h2.read] at this
    injection this with this
    injection this with this
    exact this.symm
  refine (fun h : x = y ∧ p = q => ⟨h.1, h.2, hcc⟩) ?_
  rcases h1.cases with ⟨e1, e2, e3⟩ | ⟨e1, a, i, b, e2, e3, e4⟩
  · rcases h2.cases with ⟨g1, g2, g3⟩ | ⟨g1, a, i, b, g2, g3, g4⟩
    · subst e1 g1 e2
      injection g2 with g2
      exact ⟨g2, rfl⟩
    · rw [e2] at g2; cases g2
  · rcases h2.cases with ⟨g1, g2, g3⟩ | ⟨g1, a', i', b', g2, g3, g4⟩
    · rw [e2] at g2; cases g2
    · rw [e2] at g2
      injection g2 with g2 g2'
      subst g2 g2' e2
      obtain ⟨r, hr, hf⟩ := h1
      obtain ⟨r', hr', hf'⟩ := h2
      obtain ⟨v, n, hv, hn⟩ := h.live hr
      obtain ⟨v', n', hv', hn'⟩ := h.live hr'
      have m1 := hn.slot_mem hf e1
      have m2 := hn'.slot_mem hf' g1
      by_cases hxy : x = y
      · subst hxy
        rw [hr] at hr'
        injection hr' with hr'
        subst hr'
        exact ⟨rfl, hn.path_unique (h.nodup x) hf hf' e1 g1⟩
      · exact absurd m2 (h.disjoint x y hxy a m1)

/-! ## References after a store -/

theorem find_here {mem : Nat → Option (Block F)} {p : List Nat} (hp : p ≠ []) (l l' : Loc) (c : Cell F) :
    find mem l c p = find mem l' c p := by
  cases p with
  | nil => exact absurd rfl hp
  | cons i p => rfl

theorem find_store {mem : Nat → Option (Block F)} {a i : Nat} {b : Block F} {cn : Cell F} (hb : mem a = some b) :
    ∀ {q : List Nat} {l l' : Loc} {c c' : Cell F}, find mem l c q = some (l', c') → q ≠ [] →
    (∀ q1 q2 d, q = q1 ++ q2 → q1 ≠ [] → q2 ≠ [] → find mem l c q1 ≠ some (.slot a i, d)) →
    find (upd mem a (some (b.withCells (b.cells.set i cn)))) l c q = some (l', if l' = .slot a i then cn else c') := by
  intro q
  induction q with
  | nil => intro l l' c c' _ h; exact absurd rfl h
  | cons j q ih =>
    intro l l' c c' hf _ hpre
    simp only [find, Option.bind_eq_some_iff] at hf
    obtain ⟨a1, ha, b1, hb1, d, hd, hf⟩ := hf
    by_cases hq : q = []
    · subst hq
      simp only [find] at hf
      injection hf with hf
      injection hf with e1 e2
      subst e1 e2
      simp only [find, ha, Option.bind_some]
      by_cases he : a1 = a
      · subst he
        rw [hb] at hb1
        injection hb1 with hb1
        subst hb1
        rw [upd_eq]
        simp only [Option.bind_some]
        rw [Block.cells_withCells _ _ (by simp), List.getElem?_set]
        by_cases hij : i = j
        · subst hij; simp [lt_of_getElem? hd]
        · simp only [hij, if_false, hd, Option.bind_some, Loc.slot.injEq, true_and]
          rw [if_neg (fun e => hij e.symm)]
      · rw [upd_ne _ _ he, hb1]
        simp [hd, he]
    · have hne : ¬ (a1 = a ∧ j = i) := by
        rintro ⟨rfl, rfl⟩
        exact hpre [j] q d rfl (by simp) hq (by simp [find, ha, hb1, hd])
      have hstep : find (upd mem a (some (b.withCells (b.cells.set i cn)))) (.slot a1 j) d q =
          some (l', if l' = .slot a i then cn else c') := by
        refine ih hf hq ?_
        intro q1 q2 d' e h1 h2 hc
        refine hpre (j :: q1) q2 d' (by rw [e]; rfl) (by simp) h2 ?_
        simp [find, ha, hb1, hd, hc]
      simp only [find, ha, Option.bind_some]
      by_cases he : a1 = a
      · subst he
        rw [hb] at hb1
        injection hb1 with hb1
        subst hb1
        rw [upd_eq]
        simp only [Option.bind_some]
        rw [Block.cells_withCells _ _ (by simp), List.getElem?_set]
        have hij : i ≠ j := fun e => hne ⟨rfl, e.symm⟩
        simp only [hij, if_false, hd, Option.bind_some]
        exact hstep
      · rw [upd_ne _ _ he, hb1]
        simp only [hd, Option.bind_some]
        exact hstep

/-- A reference that does not lead through the changed place refers to the same place as before. -/
theorem Owns.at_store {s : State F} {V : Var → Option (Value F)} {fp} (h : Owns s V fp) {x y : Var} {p q : List Nat} {l l' c c'}
    (h1 : At s x p l c) (h2 : At s y q l' c') (hns : ¬ (x = y ∧ p <+: q ∧ p ≠ q)) (cn : Cell F) :
    At (store s l cn) y q l' (if l' = l then cn else c') := by
  have h1' := h1
  have h2' := h2
  rcases h1.cases with ⟨rfl, rfl, e3⟩ | ⟨e1, a, i, b, rfl, e3, e4⟩
  · obtain ⟨r, hr, hf⟩ := h2
    by_cases hxy : x = y
    · subst hxy
      have hq : q = [] := by
        cases q with
        | nil => rfl
        | cons j q => exact absurd ⟨rfl, List.nil_prefix, by simp⟩ hns
      subst hq
      simp only [find] at hf
      injection hf with hf
      injection hf with g1 g2
      subst g1 g2
      exact ⟨cn, by simp [store, upd_eq], by simp [find]⟩
    · refine ⟨r, by simp only [store]; rw [upd_ne _ _ (Ne.symm hxy)]; exact hr, ?_⟩
      have : l' ≠ .var x := by
        intro e
        subst e
        exact hxy (h.at_inj h1' h2').1
      simp only [this, if_false]
      exact hf
  · obtain ⟨r, hr, hf⟩ := h2
    by_cases hq : q = []
    · subst hq
      simp only [find] at hf
      injection hf with hf
      injection hf with g1 g2
      subst g1 g2
      refine ⟨r, by simp only [store, e3]; exact hr, ?_⟩
      simp [find]
    · refine ⟨r, by simp only [store, e3]; exact hr, ?_⟩
      simp only [store, e3]
      refine find_store e3 hf hq ?_
      intro q1 q2 d e k1 k2 hc
      have := h.at_inj h1' (⟨r, hr, hc⟩ : At s y q1 _ d)
      obtain ⟨rfl, rfl, _⟩ := this
      refine hns ⟨rfl, ⟨q2, e.symm⟩, ?_⟩
      intro e'
      rw [e'] at e
      have := congrArg List.length e
      simp at this
      exact k2 this

/-- What was inside the changed place is now inside the cell that was there. -/
theorem Owns.at_inside {s : State F} {V : Var → Option (Value F)} {fp} (h : Owns s V fp) {x : Var} {p r : List Nat} {l l' c c'}
    (h1 : At s x p l c) (h2 : At s x (p ++ r) l' c') (hr : r ≠ []) (cn : Cell F) (l0 : Loc) :
    find (store s l cn).heap.mem l0 c r = some (l', c') := by
  have h1' := h1
  have h2' := h2
  obtain ⟨r1, hr1, hf1⟩ := h1
  obtain ⟨r2, hr2, hf2⟩ := h2
  rw [hr1] at hr2
  injection hr2 with hr2
  subst hr2
  rw [find_append, hf1] at hf2
  simp only [Option.bind_some] at hf2
  rcases h1'.cases with ⟨rfl, rfl, e3⟩ | ⟨e1, a, i, b, rfl, e3, e4⟩
  · simp only [store]
    rw [find_here hr l0 (.var x)]
    exact hf2
  · simp only [store, e3]
    have hne : l' ≠ .slot a i := by
      intro e
      subst e
      have := (h.at_inj h1' h2').2.1
      have := congrArg List.length this
      simp at this
      exact hr this
    have := find_store (cn := cn) e3 hf2 hr (by
      intro q1 q2 d e k1 k2 hc
      have := h.at_inj h1' (⟨r1, hr1, by rw [find_append, hf1]; exact hc⟩ : At s x (p ++ q1) _ d)
      have := congrArg List.length this.2.1
      simp at this
      exact k1 this)
    rw [find_here hr l0 (.slot a i), this]
    simp [hne]

end Spec
