import Verif.Proofs.HeapUpdate
/-!
# Swap, move and assignment in memory
-/
namespace Spec
open Configor

variable {F : Type}

/-! ## Replacing parts -/

theorem withKids_withKids (v : Value F) (xs ys : List (Value F)) (h : xs.length = (kids v).length) :
    withKids (withKids v xs) ys = withKids v ys := by
  cases v with
  | obj ms =>
    simp only [withKids, kids] at h ⊢
    rw [List.map_fst_zip]
    simp only [List.length_map] at h ⊢
    omega
  | _ => rfl

theorem replace_cons {v x : Value F} {i : Nat} {p : List Nat} (hx : (kids v)[i]? = some x) (w : Value F) :
    replace v (i :: p) w = withKids v ((kids v).set i (replace x p w)) := by simp [replace, hx]

theorem kids_replace_cons {v x : Value F} {i : Nat} {p : List Nat} (hx : (kids v)[i]? = some x) (w : Value F) :
    kids (replace v (i :: p) w) = (kids v).set i (replace x p w) := by
  rw [replace_cons hx, kids_withKids _ _ (by simp)]

theorem replace_none {v : Value F} {i : Nat} {p : List Nat} (hx : (kids v)[i]? = none) (w : Value F) :
    replace v (i :: p) w = v := by simp [replace, hx]

/-- Other parts stay. -/
theorem part_replace_other : ∀ {p q : List Nat} (v w : Value F), ¬ p <+: q → ¬ q <+: p → part (replace v p w) q = part v q := by
  intro p
  induction p with
  | nil => intro q v w h; exact absurd List.nil_prefix h
  | cons i p ih =>
    intro q v w h1 h2
    cases q with
    | nil => exact absurd List.nil_prefix h2
    | cons j q =>
      cases hx : (kids v)[i]? with
      | none => rw [replace_none hx]
      | some x =>
        simp only [part, kids_replace_cons hx, List.getElem?_set]
        by_cases hij : i = j
        · subst hij
          simp only [if_true, lt_of_getElem? hx, Option.bind_some, hx]
          refine ih x w ?_ ?_
          · intro h; exact h1 (by simpa using h)
          · intro h; exact h2 (by simpa using h)
        · simp [hij]

theorem replace_comm : ∀ {p q : List Nat} (v w w' : Value F), ¬ p <+: q → ¬ q <+: p →
    replace (replace v p w) q w' = replace (replace v q w') p w := by
  intro p
  induction p with
  | nil => intro q v w w' h; exact absurd List.nil_prefix h
  | cons i p ih =>
    intro q v w w' h1 h2
    cases q with
    | nil => exact absurd List.nil_prefix h2
    | cons j q =>
      cases hx : (kids v)[i]? with
      | none =>
        rw [replace_none hx]
        cases hy : (kids v)[j]? with
        | none => rw [replace_none hy, replace_none hx]
        | some y =>
          rw [replace_none (v := replace v (j :: q) w')]
          rw [kids_replace_cons hy, List.getElem?_set]
          split
          · next e => subst e; rw [hx] at hy; cases hy
          · exact hx
      | some x =>
        cases hy : (kids v)[j]? with
        | none =>
          rw [replace_none hy, replace_none (v := replace v (i :: p) w)]
          rw [kids_replace_cons hx, List.getElem?_set]
          split
          · next e => subst e; rw [hx] at hy; cases hy
          · exact hy
        | some y =>
          by_cases hij : i = j
          · subst hij
            rw [hx] at hy
            injection hy with hy
            subst hy
            have k1 : (kids (replace v (i :: p) w))[i]? = some (replace x p w) := by
              rw [kids_replace_cons hx]; simp [lt_of_getElem? hx]
            have k2 : (kids (replace v (i :: q) w'))[i]? = some (replace x q w') := by
              rw [kids_replace_cons hx]; simp [lt_of_getElem? hx]
            rw [replace_cons k1, replace_cons k2, kids_replace_cons hx, kids_replace_cons hx, replace_cons hx, replace_cons hx,
              withKids_withKids _ _ _ (by simp), withKids_withKids _ _ _ (by simp), List.set_set, List.set_set,
              ih x w w' (fun h => h1 (by simpa using h)) (fun h => h2 (by simpa using h))]
          · have k1 : (kids (replace v (i :: p) w))[j]? = some y := by
              rw [kids_replace_cons hx, List.getElem?_set, if_neg hij, hy]
            have k2 : (kids (replace v (j :: q) w'))[i]? = some x := by
              rw [kids_replace_cons hy, List.getElem?_set, if_neg (Ne.symm hij), hx]
            rw [replace_cons k1, replace_cons k2, kids_replace_cons hx, kids_replace_cons hy, replace_cons hx, replace_cons hy,
              withKids_withKids _ _ _ (by simp), withKids_withKids _ _ _ (by simp), List.set_comm _ _ hij]

/-- A change inside a part that is replaced does not matter. -/
theorem replace_absorb : ∀ {p r : List Nat} {v u : Value F} (w w' : Value F), part v p = some u →
    replace (replace v (p ++ r) w) p w' = replace v p w' := by
  intro p
  induction p with
  | nil => intro r v u w w' _; rfl
  | cons i p ih =>
    intro r v u w w' h
    simp only [part, Option.bind_eq_some_iff] at h
    obtain ⟨x, hx, h⟩ := h
    have k1 : (kids (replace v (i :: (p ++ r)) w))[i]? = some (replace x (p ++ r) w) := by
      rw [kids_replace_cons hx]; simp [lt_of_getElem? hx]
    rw [List.cons_append, replace_cons k1, kids_replace_cons hx, replace_cons hx, replace_cons hx,
      withKids_withKids _ _ _ (by simp), List.set_set, ih w w' h]

theorem part_append : ∀ {p r : List Nat} {v : Value F}, part v (p ++ r) = (part v p).bind fun u => part u r := by
  intro p
  induction p with
  | nil => intro r v; rfl
  | cons i p ih =>
    intro r v
    simp only [List.cons_append, part]
    cases (kids v)[i]? with
    | none => rfl
    | some x => simp [ih]

/-- A part of a part that is changed. -/
theorem part_replace_inside {p r : List Nat} {v u : Value F} (w : Value F) (h : part v p = some u) :
    part (replace v p w) (p ++ r) = part w r := by
  rw [part_append, part_replace w h]; rfl

/-! ## Leaks -/

/-- Blocks that nobody owns. -/
def Leaked (s : State F) (fp : Var → List Nat) (a : Nat) : Prop := s.heap.mem a ≠ none ∧ ¬ Owned fp a

/-- The operation ended well: nothing new is leaked, no allocation failed. -/
structure Well (s : State F) (fp : Var → List Nat) (s' : State F) (fp' : Var → List Nat) : Prop where
  leaked : ∀ a, Leaked s' fp' a ↔ Leaked s fp a
  next : s.heap.next ≤ s'.heap.next
  plan : s'.heap.plan = s.heap.plan
  tick : s.heap.tick ≤ s'.heap.tick
  good : AllGood s.heap s'.heap
  raw : ∀ a, Leaked s fp a → s.heap.mem a = some .raw → s'.heap.mem a = some .raw

/-- The operation was ended by a failed allocation: new leaks are memory that was never constructed. -/
structure Ill (s : State F) (fp : Var → List Nat) (s' : State F) (fp' : Var → List Nat) : Prop where
  old : ∀ a, Leaked s fp a → Leaked s' fp' a
  new : ∀ a, Leaked s' fp' a → Leaked s fp a ∨ (s.heap.next ≤ a ∧ s'.heap.mem a = some .raw)
  next : s.heap.next ≤ s'.heap.next
  plan : s'.heap.plan = s.heap.plan
  tick : s.heap.tick ≤ s'.heap.tick
  failed : Failed s.heap s'.heap
  raw : ∀ a, Leaked s fp a → s.heap.mem a = some .raw → s'.heap.mem a = some .raw

theorem AllGood.refl (h : Heap F) : AllGood h h := by intro t h1 h2; omega

theorem AllGood.of_tick {h h' : Heap F} (e : h'.tick = h.tick) : AllGood h h' := by intro t h1 h2; omega

theorem Well.trans {s s' s'' : State F} {fp fp' fp''} (a : Well s fp s' fp') (b : Well s' fp' s'' fp'') : Well s fp s'' fp'' := by
  refine ⟨fun x => (b.leaked x).trans (a.leaked x), Nat.le_trans a.next b.next, b.plan.trans a.plan, Nat.le_trans a.tick b.tick, ?_,
    fun x h hr => b.raw x ((a.leaked x).2 h) (a.raw x h hr)⟩
  intro t h1 h2
  rcases Nat.lt_or_ge t s'.heap.tick with h3 | h3
  · exact a.good t h1 h3
  · rw [← a.plan]; exact b.good t h3 h2

theorem Well.ill {s s' s'' : State F} {fp fp' fp''} (a : Well s fp s' fp') (b : Ill s' fp' s'' fp'') : Ill s fp s'' fp'' := by
  refine ⟨fun x hx => b.old x ((a.leaked x).2 hx), ?_, Nat.le_trans a.next b.next, b.plan.trans a.plan, Nat.le_trans a.tick b.tick, ?_,
    fun x h hr => b.raw x ((a.leaked x).2 h) (a.raw x h hr)⟩
  · intro x hx
    rcases b.new x hx with h | h
    · exact .inl ((a.leaked x).1 h)
    · exact .inr ⟨Nat.le_trans a.next h.1, h.2⟩
  · obtain ⟨t, h1, h2, h3⟩ := b.failed
    exact ⟨t, Nat.le_trans a.tick h1, h2, by rw [← a.plan]; exact h3⟩

/-- After a failure, an operation that ended well. -/
theorem Ill.well {s s' s'' : State F} {fp fp' fp''} (a : Ill s fp s' fp') (b : Well s' fp' s'' fp'') : Ill s fp s'' fp'' := by
  refine ⟨fun x hx => (b.leaked x).2 (a.old x hx), ?_, Nat.le_trans a.next b.next, b.plan.trans a.plan, Nat.le_trans a.tick b.tick, ?_,
    fun x h hr => b.raw x (a.old x h) (a.raw x h hr)⟩
  · intro x hx
    have hx' := (b.leaked x).1 hx
    rcases a.new x hx' with h | h
    · exact .inl h
    · exact .inr ⟨h.1, b.raw x hx' h.2⟩
  · obtain ⟨t, h1, h2, h3⟩ := a.failed
    exact ⟨t, h1, Nat.lt_of_lt_of_le h2 b.tick, h3⟩

/-- After a failure, another one. -/
theorem Ill.trans {s s' s'' : State F} {fp fp' fp''} (a : Ill s fp s' fp') (b : Ill s' fp' s'' fp'') : Ill s fp s'' fp'' := by
  refine ⟨fun x hx => b.old x (a.old x hx), ?_, Nat.le_trans a.next b.next, b.plan.trans a.plan, Nat.le_trans a.tick b.tick, ?_,
    fun x h hr => b.raw x (a.old x h) (a.raw x h hr)⟩
  · intro x hx
    rcases b.new x hx with h | h
    · rcases a.new x h with h' | h'
      · exact .inl h'
      · exact .inr ⟨h'.1, b.raw x h h'.2⟩
    · exact .inr ⟨Nat.le_trans a.next h.1, h.2⟩
  · obtain ⟨t, h1, h2, h3⟩ := a.failed
    exact ⟨t, h1, Nat.lt_of_lt_of_le h2 b.tick, h3⟩

/-- Nothing was allocated or freed. -/
theorem Well.same {s s' : State F} {fp fp'} (hm : ∀ a, s'.heap.mem a = none ↔ s.heap.mem a = none) (ho : ∀ a, Owned fp' a ↔ Owned fp a)
    (hn : s'.heap.next = s.heap.next) (hp : s'.heap.plan = s.heap.plan) (ht : s'.heap.tick = s.heap.tick)
    (hr : ∀ a, s.heap.mem a = some .raw → s'.heap.mem a = some .raw) : Well s fp s' fp' := by
  refine ⟨?_, by omega, hp, by omega, .of_tick ht, fun a _ => hr a⟩
  intro a
  simp only [Leaked, ho, ne_eq, hm]

theorem Well.refl (s : State F) (fp) : Well s fp s fp := .same (fun _ => .rfl) (fun _ => .rfl) rfl rfl rfl (fun _ h => h)

/-- All memory that was allocated is owned by `t`. -/
theorem Owns.well_grew {s : State F} {V : Var → Option (Value F)} {fp} (h : Owns s V fp) {t : Var} (ht : fp t = []) {s' : State F} {fw : List Nat}
    (g : Grew s.heap s'.heap) (ag : AllGood s.heap s'.heap) (hw : ∀ a, a ∈ fw ↔ s.heap.next ≤ a ∧ s'.heap.mem a ≠ none) :
    Well s fp s' (upd fp t fw) := by
  refine ⟨?_, g.next, g.plan, g.tick, ag, fun a _ hr => g.mono h.fresh a _ hr⟩
  have ho : ∀ a, Owned (upd fp t fw) a ↔ Owned fp a ∨ a ∈ fw := by
    intro a
    constructor
    · rintro ⟨y, hy⟩
      by_cases e : y = t
      · subst e; rw [upd_eq] at hy; exact .inr hy
      · rw [upd_ne _ _ e] at hy; exact .inl ⟨y, hy⟩
    · rintro (⟨y, hy⟩ | hy)
      · by_cases e : y = t
        · subst e; rw [ht] at hy; cases hy
        · exact ⟨y, by rw [upd_ne _ _ e]; exact hy⟩
      · exact ⟨t, by rw [upd_eq]; exact hy⟩
  intro a
  simp only [Leaked, ho, hw]
  rcases Nat.lt_or_ge a s.heap.next with h1 | h1
  · rw [g.old a h1]
    constructor
    · rintro ⟨h2, h3⟩; exact ⟨h2, fun h4 => h3 (.inl h4)⟩
    · rintro ⟨h2, h3⟩; exact ⟨h2, fun h4 => by
        rcases h4 with h4 | h4
        · exact h3 h4
        · omega⟩
  · constructor
    · rintro ⟨h2, h3⟩; exact absurd (.inr ⟨h1, h2⟩) h3
    · rintro ⟨h2, h3⟩; exact absurd (h.fresh a h1) h2

theorem Owns.ill_grew {s : State F} {V : Var → Option (Value F)} {fp} (h : Owns s V fp) {s' : State F}
    (g : Grew s.heap s'.heap) (fl : Failed s.heap s'.heap) (hw : RawBeyond s.heap s'.heap) : Ill s fp s' fp := by
  refine ⟨?_, ?_, g.next, g.plan, g.tick, fl, fun a _ hr => g.mono h.fresh a _ hr⟩
  · rintro a ⟨h1, h2⟩
    refine ⟨?_, h2⟩
    rcases Nat.lt_or_ge a s.heap.next with h3 | h3
    · rw [g.old a h3]; exact h1
    · exact absurd (h.fresh a h3) h1
  · rintro a ⟨h1, h2⟩
    rcases Nat.lt_or_ge a s.heap.next with h3 | h3
    · rw [g.old a h3] at h1; exact .inl ⟨h1, h2⟩
    · exact .inr ⟨h3, hw a h3 h1⟩

theorem Owns.destruct_well {s : State F} {V : Var → Option (Value F)} {fp} (h : Owns s V fp) {t : Var} {w : Value F} (hw : V t = some w) :
    ∃ s', State.destruct t s = (.ok (), s') ∧ Owns s' (upd V t none) (upd fp t []) ∧ Well s fp s' (upd fp t []) := by
  obtain ⟨s', h1, h2, _, h4⟩ := h.destruct hw
  refine ⟨s', h1, h2, ?_, ?_, ?_, ?_, ?_, ?_⟩
  · intro a
    have ho : Owned (upd fp t []) a ↔ Owned fp a ∧ a ∉ fp t := by
      constructor
      · rintro ⟨y, hy⟩
        by_cases e : y = t
        · subst e; rw [upd_eq] at hy; cases hy
        · rw [upd_ne _ _ e] at hy
          exact ⟨⟨y, hy⟩, h.disjoint y t e a hy⟩
      · rintro ⟨⟨y, hy⟩, hn⟩
        by_cases e : y = t
        · subst e; exact absurd hy hn
        · exact ⟨y, by rw [upd_ne _ _ e]; exact hy⟩
    simp only [Leaked, ho, h4]
    by_cases ha : a ∈ fp t
    · simp only [without, ha, if_true]
      constructor
      · intro h'; exact absurd rfl h'.1
      · intro h'; exact absurd ⟨t, ha⟩ h'.2
    · rw [without_mem ha]
      simp [ha]
  · rw [h4]; exact Nat.le_refl _
  · rw [h4]; rfl
  · rw [h4]; exact Nat.le_refl _
  · rw [h4]; exact .of_tick rfl
  · intro a ha hr
    rw [h4, without_mem fun hf => ha.2 ⟨t, hf⟩, hr]

/-! ## Moves -/

/-- A variable with null begins to live. -/
theorem Owns.null {s : State F} {V : Var → Option (Value F)} {fp} (h : Owns s V fp) {t : Var} (ht : V t = none) :
    Owns { s with vars := upd s.vars t (some .null) } (upd V t (some .null)) fp := by
  have := h.open (t := t) (n := 0) (c := .null) (w := .null) (fw := []) rfl (by simp) (by simp)
  rw [show upd fp t [] = fp by rw [← (h.dead ht).2, upd_self]] at this
  exact this

theorem At.live {s : State F} {x p l c} (h : At s x p l c) : s.vars x ≠ none := by
  obtain ⟨r, hr, _⟩ := h
  simp [hr]

theorem At.ne_var {s : State F} {x t p l c} (h : At s x p l c) (ht : t ≠ x) : l ≠ .var t := by
  rcases h.cases with ⟨_, rfl, _⟩ | ⟨_, a, i, b, rfl, _⟩
  · intro e; injection e with e; exact ht e.symm
  · intro e; cases e

theorem Owns.ne {s : State F} {V : Var → Option (Value F)} {fp} (h : Owns s V fp) {t x : Var} {p l c} (ht : V t = none)
    (hat : At s x p l c) : t ≠ x := by
  intro e
  subst e
  exact hat.live (h.dead ht).1

/-- The contents of the variables after a part was replaced. -/
def vset (V : Var → Option (Value F)) (x : Var) (p : List Nat) (w : Value F) : Var → Option (Value F) :=
  upd V x ((V x).map fun v => replace v p w)

/-- The value of a part of a variable. -/
def vget (V : Var → Option (Value F)) (x : Var) (p : List Nat) : Option (Value F) := (V x).bind fun v => part v p

theorem vget_some {V : Var → Option (Value F)} {x : Var} {p : List Nat} {u : Value F} (h : vget V x p = some u) :
    ∃ v, V x = some v ∧ part v p = some u := by
  simpa [vget, Option.bind_eq_some_iff] using h

theorem Owns.vat {s : State F} {V : Var → Option (Value F)} {fp} (h : Owns s V fp) {x p} {u : Value F} (hu : vget V x p = some u) :
    ∃ l c, At s x p l c := by
  obtain ⟨v, h1, h2⟩ := vget_some hu
  exact h.at h1 h2

theorem Owns.at_vget {s : State F} {V : Var → Option (Value F)} {fp} (h : Owns s V fp) {x p l c} (hat : At s x p l c) :
    ∃ u, vget V x p = some u := by
  obtain ⟨v, u, _, _, _, h1, h2, _⟩ := h.update hat
  exact ⟨u, by simp [vget, h1, h2]⟩

/-- `exchange`, with contents as functions. -/
theorem Owns.xchg {s : State F} {V : Var → Option (Value F)} {fp} (h : Owns s V fp) {x t : Var} (htx : t ≠ x) {p : List Nat} {l cu}
    (hat : At s x p l cu) {w u : Value F} {ct : Cell F} (hw : V t = some w) (hc : s.vars t = some ct) (hu : vget V x p = some u) :
    ∃ fp', Owns (store (store s l ct) (.var t) cu) (upd (vset V x p w) t (some u)) fp' ∧
      Well s fp (store (store s l ct) (.var t) cu) fp' := by
  obtain ⟨v, u', fp', h1, h2, h3, h4⟩ := h.exchange htx hat hw hc
  simp only [vget, h1, Option.bind_some, h2] at hu
  injection hu with hu
  subst hu
  refine ⟨fp', by simp only [vset, h1, Option.map_some]; exact h3, .same ?_ h4 ?_ ?_ ?_ ?_⟩
  · intro a
    exact (store_alloc _ _ _ a).trans (store_alloc _ _ _ a)
  · rw [store_next, store_next]
  · rw [(store_plan _ _ _).1, (store_plan _ _ _).1]
  · rw [(store_plan _ _ _).2, (store_plan _ _ _).2]
  · intro a hr
    exact store_raw _ _ _ a (store_raw _ _ _ a hr)

/-- References after an exchange. -/
theorem Owns.at_xchg {s : State F} {V : Var → Option (Value F)} {fp} (h : Owns s V fp) {x t y : Var} (hty : t ≠ y) {p q : List Nat}
    {l cu l' c'} (hat : At s x p l cu) (h2 : At s y q l' c') (hns : ¬ (x = y ∧ p <+: q ∧ p ≠ q)) (ct : Cell F) :
    At (store (store s l ct) (.var t) cu) y q l' (if l' = l then ct else c') :=
  (h.at_store hat h2 hns ct).vars hty _

theorem Owns.at_xchg_inside {s : State F} {V : Var → Option (Value F)} {fp} (h : Owns s V fp) {x t : Var} {p r : List Nat}
    {l cu l' c'} (hat : At s x p l cu) (h2 : At s x (p ++ r) l' c') (hr : r ≠ []) (ct : Cell F) :
    At (store (store s l ct) (.var t) cu) t r l' c' :=
  ⟨cu, by simp [store, upd_eq], h.at_inside hat h2 hr ct _⟩

/-- The move constructor. -/
theorem Owns.moveConstruct {s : State F} {V : Var → Option (Value F)} {fp} (h : Owns s V fp) {t x : Var} (ht : V t = none)
    {p : List Nat} {l c} (hat : At s x p l c) {u : Value F} (hu : vget V x p = some u) :
    ∃ s' fp', State.moveConstruct t l s = (.ok (), s') ∧ Owns s' (upd (vset V x p .null) t (some u)) fp' ∧ Well s fp s' fp' ∧
      s' = store (store { s with vars := upd s.vars t (some .null) } l .null) (.var t) c := by
  have htx := h.ne ht hat
  have h0 := h.null ht
  have hat0 := hat.vars htx (some .null)
  have hu0 : vget (upd V t (some .null)) x p = some u := by simp only [vget, upd_ne _ _ (Ne.symm htx)]; exact hu
  obtain ⟨fp', h1, h2⟩ := h0.xchg htx hat0 (w := .null) (ct := .null) (upd_eq _ _ _) (by simp [upd_eq]) hu0
  refine ⟨_, fp', ?_, ?_, ?_, rfl⟩
  · have e1 := hat.read
    have e2 : State.declare t c s = (.ok (), { s with vars := upd s.vars t (some c) }) := rfl
    have e3 := (hat.vars htx (some c)).write .null
    simp only [State.moveConstruct]
    rw [M.bind_ok e1, M.bind_ok e2, e3]
    refine Prod.ext rfl ?_
    simp only
    rw [store_comm _ _ _ (hat.ne_var htx)]
    simp only [store]
    rw [upd_same]
  · rw [show upd (vset V x p .null) t (some u) = upd (vset (upd V t (some .null)) x p .null) t (some u) by
      simp only [vset, upd_ne _ _ (Ne.symm htx)]
      rw [upd_comm _ _ _ htx, upd_same]]
    exact h1
  · have w0 : Well s fp { s with vars := upd s.vars t (some .null) } fp := .same (fun _ => .rfl) (fun _ => .rfl) rfl rfl rfl (fun _ h => h)
    exact w0.trans h2

/-- Neither reference leads to the other. -/
def Apart (x : Var) (p : List Nat) (y : Var) (q : List Nat) : Prop := ¬ (x = y ∧ (p <+: q ∨ q <+: p))

theorem vget_vset_other {V : Var → Option (Value F)} {x y : Var} {p q : List Nat} (h : Apart x p y q) (w : Value F) :
    vget (vset V x p w) y q = vget V y q := by
  simp only [vget, vset]
  by_cases e : y = x
  · subst e
    rw [upd_eq]
    cases V y with
    | none => rfl
    | some v =>
      simp only [Option.map_some, Option.bind_some]
      exact part_replace_other v w (fun h1 => h ⟨rfl, .inl h1⟩) (fun h1 => h ⟨rfl, .inr h1⟩)
  · rw [upd_ne _ _ e]

theorem vget_vset {V : Var → Option (Value F)} {x : Var} {p : List Nat} {u : Value F} (h : vget V x p = some u) (w : Value F) :
    vget (vset V x p w) x p = some w := by
  obtain ⟨v, h1, h2⟩ := vget_some h
  simp only [vget, vset, upd_eq, h1, Option.map_some, Option.bind_some]
  exact part_replace w h2

theorem vset_vset {V : Var → Option (Value F)} {x : Var} {p : List Nat} {u : Value F} (h : vget V x p = some u) (w w' : Value F) :
    vset (vset V x p w) x p w' = vset V x p w' := by
  obtain ⟨v, h1, h2⟩ := vget_some h
  simp only [vset, upd_eq, h1, Option.map_some, upd_same, replace_replace w w' h2]

theorem vset_comm {V : Var → Option (Value F)} {x y : Var} {p q : List Nat} (h : Apart x p y q) (w w' : Value F) :
    vset (vset V x p w) y q w' = vset (vset V y q w') x p w := by
  by_cases e : y = x
  · subst e
    simp only [vset, upd_eq, upd_same]
    cases V y with
    | none => rfl
    | some v =>
      simp only [Option.map_some]
      rw [replace_comm v w w' (fun h1 => h ⟨rfl, .inl h1⟩) (fun h1 => h ⟨rfl, .inr h1⟩)]
  · simp only [vset, upd_ne _ _ e, upd_ne _ _ (Ne.symm e)]
    rw [upd_comm _ _ _ (Ne.symm e)]

theorem vset_upd {V : Var → Option (Value F)} {x t : Var} (h : t ≠ x) (p : List Nat) (w : Value F) (o : Option (Value F)) :
    vset (upd V t o) x p w = upd (vset V x p w) t o := by
  simp only [vset, upd_ne _ _ (Ne.symm h)]
  rw [upd_comm _ _ _ h]

theorem vget_upd {V : Var → Option (Value F)} {x t : Var} (h : t ≠ x) (p : List Nat) (o : Option (Value F)) :
    vget (upd V t o) x p = vget V x p := by
  simp only [vget, upd_ne _ _ (Ne.symm h)]

theorem vset_self {V : Var → Option (Value F)} {x : Var} {p : List Nat} {u : Value F} (h : vget V x p = some u) :
    vset V x p u = V := by
  obtain ⟨v, h1, h2⟩ := vget_some h
  simp only [vset, h1, Option.map_some, replace_self h2]
  rw [← h1, upd_self]

/-- `swap` of two parts, neither of which contains the other. -/
theorem Owns.swap {s : State F} {V : Var → Option (Value F)} {fp} (h : Owns s V fp) (hg : V .ghost = none) {x y : Var}
    {p q : List Nat} (hap : Apart x p y q) {l c l' c'} (h1 : At s x p l c) (h2 : At s y q l' c') {u u' : Value F}
    (hu : vget V x p = some u) (hu' : vget V y q = some u') :
    ∃ fp', State.swap l l' s = (.ok (), store (store s l c') l' c) ∧
      Owns (store (store s l c') l' c) (vset (vset V x p u') y q u) fp' ∧ Well s fp (store (store s l c') l' c) fp' := by
  have hgx := h.ne hg h1
  have hgy := h.ne hg h2
  have hll : l' ≠ l := by
    intro e
    subst e
    obtain ⟨e1, e2, _⟩ := h.at_inj h1 h2
    exact hap ⟨e1, .inl (by rw [e2]; exact List.prefix_refl _)⟩
  have n1 : ¬ (x = y ∧ p <+: q ∧ p ≠ q) := fun h => hap ⟨h.1, .inl h.2.1⟩
  have n2 : ¬ (y = x ∧ q <+: p ∧ q ≠ p) := fun h => hap ⟨h.1.symm, .inr h.2.1⟩
  -- the exchanges
  have o0 := h.null hg
  have a0 := h1.vars hgx (some .null)
  have b0 := h2.vars hgy (some .null)
  obtain ⟨f1, o1, w1⟩ := o0.xchg hgx a0 (w := .null) (ct := .null) (upd_eq _ _ _) (by simp [upd_eq])
    (by rw [vget_upd hgx]; exact hu)
  have b1 := o0.at_xchg hgy a0 b0 n1 .null
  have a1 := o0.at_xchg hgx a0 a0 (by simp) .null
  simp only [if_true] at a1
  rw [if_neg hll] at b1
  obtain ⟨f2, o2, w2⟩ := o1.xchg hgy b1 (w := u) (u := u') (ct := c) (upd_eq _ _ _) (by simp [store, upd_eq])
    (by rw [vget_upd hgy, vset_upd hgx, vget_upd hgy, vget_vset_other hap]; exact hu')
  have a2 := o1.at_xchg hgx b1 a1 n2 c
  rw [if_neg (Ne.symm hll)] at a2
  obtain ⟨f3, o3, w3⟩ := o2.xchg hgx a2 (w := u') (u := .null) (ct := c') (upd_eq _ _ _) (by simp [store, upd_eq])
    (by
      rw [vget_upd hgx, vset_upd hgy, vget_upd hgx,
        vget_vset_other (fun h => hap ⟨h.1.symm, h.2.symm⟩), vset_upd hgx, vget_upd hgx]
      exact vget_vset hu .null)
  have o4 := o3.close .ghost
  have hgv := (h.dead hg).1
  have lx : l ≠ .var .ghost := h1.ne_var hgx
  have ly : l' ≠ .var .ghost := h2.ne_var hgy
  -- the state
  have hs : ({ store (store (store (store (store (store { s with vars := upd s.vars .ghost (some .null) } l .null) (.var .ghost) c)
      l' c) (.var .ghost) c') l c') (.var .ghost) .null with
      vars := upd (store (store (store (store (store (store { s with vars := upd s.vars .ghost (some .null) } l .null) (.var .ghost) c)
      l' c) (.var .ghost) c') l c') (.var .ghost) .null).vars .ghost none } : State F) = store (store s l c') l' c := by
    have e0 : ({ s with vars := upd s.vars .ghost (some .null) } : State F) = store s (.var .ghost) .null := rfl
    rw [e0, store_comm s _ _ (Ne.symm lx), store_same, store_comm _ _ _ (Ne.symm ly), store_same,
      store_comm _ _ _ (Ne.symm lx), store_same, store_comm _ _ _ hll, store_same]
    generalize hS : store (store s l c') l' c = S
    have hv : S.vars .ghost = none := by
      rw [← hS]
      have : ∀ (S : State F) (m : Loc) (d : Cell F), m ≠ .var .ghost → (store S m d).vars .ghost = S.vars .ghost := by
        intro S m d hm
        cases m with
        | var z => simp only [store]; exact upd_ne _ _ (fun e => hm (by rw [e]))
        | slot a i => simp only [store]; cases S.heap.mem a <;> rfl
      rw [this _ _ _ ly, this _ _ _ lx, hgv]
    simp only [store, upd_same]
    rw [← hv, upd_self]
  rw [hs] at o4
  -- the contents
  have hV : upd (upd (vset (upd (vset (upd (vset (upd V .ghost (some .null)) x p .null) .ghost (some u)) y q u) .ghost (some u')) x p u')
      .ghost (some .null)) .ghost none = vset (vset V x p u') y q u := by
    simp only [vset_upd hgx, vset_upd hgy, upd_same]
    rw [vset_comm (V := V) hap .null u, vset_comm (V := V) hap u' u]
    rw [vset_vset (V := vset V y q u) (u := u) (by rw [vget_vset_other (fun h => hap ⟨h.1.symm, h.2.symm⟩)]; exact hu)]
    have hv : (vset (vset V y q u) x p u') .ghost = none := by
      simp only [vset, upd_ne _ _ hgx, upd_ne _ _ hgy, hg]
    rw [← hv, upd_self]
  rw [hV] at o4
  have hf3 : f3 .ghost = [] := by
    have := o3.stands .ghost
    rw [upd_eq] at this
    simp only [store, upd_eq] at this
    obtain ⟨n, hn⟩ := this
    cases n with
    | zero => exact hn
    | succ n =>
      rcases hn with hn | ⟨a, b, fps, k1, k2, _⟩
      · exact hn
      · cases b <;> exact k2.elim
  rw [show upd f3 .ghost [] = f3 by rw [← hf3, upd_self]] at o4
  refine ⟨f3, ?_, o4, ?_⟩
  · have e3 := h1.write c'
    have b2 := h.at_store h1 h2 n1 c'
    rw [if_neg hll] at b2
    have e4 := b2.write c
    simp only [State.swap]
    rw [M.bind_ok h1.read, M.bind_ok h2.read, M.bind_ok e3, e4]
  · have w0 : Well s fp { s with vars := upd s.vars .ghost (some .null) } fp := .same (fun _ => .rfl) (fun _ => .rfl) rfl rfl rfl (fun _ h => h)
    have w := ((w0.trans w1).trans w2).trans w3
    rw [← hs]
    exact ⟨w.leaked, w.next, w.plan, w.tick, w.good, w.raw⟩

end Spec
