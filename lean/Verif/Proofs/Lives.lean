import Verif.Proofs.LiveMore
import Verif.Spec.Lives
/-!
# Several variables: which places they have
-/
namespace Spec
open Configor

variable {F : Type}

/-- A place an iterator can name. -/
inductive Nook where
  | pos (p m : Nat)
  | node (id : Nat)
  | home (h : Nat)

def Nook.num : Nook → Nat
  | .pos _ m => m
  | .node id => id
  | .home h => h

/-- The data has the place. -/
def HasNook : LShape F → Nook → Prop
  | .vec _ marks _, .pos p m => marks[p]? = some m
  | .map _ ms, .node id => ∃ a ∈ ms, a.2.1 = id
  | .map home _, .home h => h = home
  | _, _ => False

theorem has_old {c : Live F} (hc : LiveOk c) {a : Nook} (h : HasNook c.shape a) : a.num < c.next := by
  obtain ⟨n, sh⟩ := c
  cases sh <;> cases a <;> simp only [HasNook] at h
  · exact hc.2 _ (List.mem_of_getElem? h)
  · obtain ⟨a, ha, rfl⟩ := h
    exact hc.2.2.1 a ha
  · subst h; exact hc.1

/-- A variable has no places but those it had and new ones. -/
structure NooksOf (c d : Live F) : Prop where
  next : c.next ≤ d.next
  has : ∀ a, HasNook d.shape a → HasNook c.shape a ∨ c.next ≤ a.num

theorem NooksOf.refl (c : Live F) : NooksOf c c := ⟨Nat.le_refl _, fun _ h => .inl h⟩

theorem fresh_grown {n : Nat} (sh : LShape F) (spare : Nat) (v : Value F) : NooksOf ⟨n, sh⟩ (Live.fresh n spare v) := by
  cases v with
  | arr xs =>
    refine ⟨Nat.le_succ _, fun a h => ?_⟩
    cases a with
    | pos p m =>
      refine .inr (Nat.not_lt.1 fun hm => ?_)
      exact all_new hm h
    | _ => exact h.elim
  | obj ms =>
    refine ⟨by show n ≤ n + 1 + ms.length; omega, fun a h => ?_⟩
    cases a with
    | pos p m => exact h.elim
    | node id =>
      obtain ⟨a, ha, rfl⟩ := h
      obtain ⟨p, hp⟩ := List.mem_iff_getElem?.1 ha
      have := number_ids _ _ _ _ hp
      exact .inr (by show n ≤ a.2.1; omega)
    | home h' =>
      have h : h' = n := h
      exact .inr (by show n ≤ h'; omega)
  | _ => exact ⟨Nat.le_refl _, fun a h => by cases a <;> exact h.elim⟩

/-- The number of a map does not change while it is one. -/
theorem home_act (fo : FloatOps F) (g : Growth) {c : Live F} (hc : LiveOk c) (ch : Edit F) {h : Nat} (hh : HasNook (Live.act fo g ch c).2.shape (.home h)) :
    HasNook c.shape (.home h) ∨ c.next ≤ h := by
  obtain ⟨n, sh⟩ := c
  have app : ∀ n' (xs : List (Value F)) marks cap ys, ¬ HasNook (Live.append g n' xs marks cap ys : Live F).shape (.home h) := by
    intro n' xs marks cap ys
    obtain ⟨a, b, e⟩ := append_shape g n' xs marks cap ys
    rw [e]; exact id
  cases sh with
  | vec xs marks cap =>
    cases ch with
    | setAt i x =>
      obtain ⟨n', ys, marks', cap', _, hle, e, ok, _⟩ := putElem_eq g i x hc
      have hh : HasNook (Live.putElem g i n x xs marks cap).2.shape (.home h) := hh
      rw [e] at hh; exact hh.elim
    | push x => exact (app _ _ _ _ _ hh).elim
    | eraseAt i =>
      have hh : HasNook (if i < xs.length then ((.ok (), Live.vecErase n xs marks cap i) : Except Stop Unit × Live F) else (.error .ub, ⟨n, .vec xs marks cap⟩)).2.shape (.home h) := hh
      split at hh <;> exact hh.elim
    | clear => exact hh.elim
    | assign x spare => exact .inr ((fresh_grown (.plain .null) _ _).has _ hh |>.resolve_left id)
    | _ => exact .inl hh
  | map home ms =>
    cases ch with
    | put k x =>
      obtain ⟨id', ms', e, _⟩ := putMember_eq n home k x hc.2.1
      have hh : HasNook (Live.putMember n home k x ms).2.shape (.home h) := hh
      rw [e] at hh
      exact .inl hh
    | eraseKey k => exact .inl hh
    | clear => exact .inl hh
    | assign x spare => exact .inr ((fresh_grown (.plain .null) _ _).has _ hh |>.resolve_left id)
    | _ => exact .inl hh
  | plain v =>
    have hnil : LiveOk (⟨n + 1, .vec [] [n] 0⟩ : Live F) := ⟨rfl, by intro m hm; rw [List.mem_singleton.1 hm]; exact Nat.lt_succ_self n⟩
    cases ch with
    | put k x =>
      cases v with
      | null =>
        obtain ⟨id', ms', e, _⟩ := putMember_eq (n + 1) n k x (ms := []) .nil
        have hh : HasNook (Live.putMember (n + 1) n k x []).2.shape (.home h) := hh
        rw [e] at hh
        have hh : h = n := hh
        exact .inr (by show n ≤ h; omega)
      | _ => exact hh.elim
    | setAt i x =>
      cases v with
      | null =>
        obtain ⟨n', ys, marks', cap', _, hle, e, ok, _⟩ := putElem_eq g i x hnil
        have hh : HasNook (Live.putElem g i (n + 1) x [] [n] 0).2.shape (.home h) := hh
        rw [e] at hh; exact hh.elim
      | _ => exact hh.elim
    | push x =>
      cases v with
      | null => exact (app (n + 1) [] [n] 0 [x] hh).elim
      | _ => exact hh.elim
    | clear => exact hh.elim
    | assign x spare => exact .inr ((fresh_grown (.plain .null) _ _).has _ hh |>.resolve_left id)
    | _ => exact hh.elim

theorem next_act (fo : FloatOps F) (g : Growth) (ch : Edit F) (c : Live F) : c.next ≤ (Live.act fo g ch c).2.next := by
  refine Nat.not_lt.1 fun hlt => ?_
  have : ∃ p, DeadArr p (Live.act fo g ch c).2.next c := by
    obtain ⟨n, sh⟩ := c
    cases sh with
    | vec xs marks cap => exact ⟨marks.length, hlt, fun _ _ _ h => by cases h; simp⟩
    | _ => exact ⟨0, hlt, fun _ _ _ h => by cases h⟩
  obtain ⟨p, h⟩ := this
  exact Nat.lt_irrefl _ (dead_act fo g h ch).1

theorem act_grown (fo : FloatOps F) (g : Growth) {c : Live F} (hc : LiveOk c) (ch : Edit F) : NooksOf c (Live.act fo g ch c).2 := by
  refine ⟨next_act fo g ch c, fun a ha => ?_⟩
  cases a with
  | home h => exact home_act fo g hc ch ha
  | pos p m =>
    refine Classical.byContradiction fun hn => ?_
    obtain ⟨h1, h2⟩ := not_or.1 hn
    have hd := dead_act fo g (p := p) (m := m) (c := c) ⟨Nat.not_le.1 h2, fun xs marks cap e hm => h1 (by rw [e]; exact hm)⟩ ch
    cases e : (Live.act fo g ch c).2.shape with
    | vec xs marks cap => rw [e] at ha; exact hd.2 _ _ _ e ha
    | _ => rw [e] at ha; exact ha
  | node id =>
    refine Classical.byContradiction fun hn => ?_
    obtain ⟨h1, h2⟩ := not_or.1 hn
    have hd := dead_act_node fo g (id := id) hc ⟨Nat.not_le.1 h2, fun home ms e a ha hm => h1 (by rw [e]; exact ⟨a, ha, hm⟩)⟩ ch
    cases e : (Live.act fo g ch c).2.shape with
    | map home ms =>
      rw [e] at ha
      obtain ⟨a, ha, hi⟩ := ha
      exact hd.2 _ _ e a ha hi
    | _ => rw [e] at ha; exact ha

theorem erase_grown (it : LIter) {c : Live F} (hc : LiveOk c) : NooksOf c (Live.erase it c).2 := by
  obtain ⟨n, sh⟩ := c
  unfold Live.erase
  split
  · exact .refl _
  · split
    · rename_i h1 _
      have h1 : sh = _ := h1
      subst h1
      split
      · refine ⟨Nat.le_succ _, fun a ha => ?_⟩
        cases a with
        | pos p m =>
          refine Classical.byContradiction fun hn => ?_
          obtain ⟨h1, h2⟩ := not_or.1 hn
          exact mark_take (Nat.not_le.1 h2) h1 ha
        | _ => exact ha.elim
      · exact .refl _
    · rename_i h1 _
      have h1 : sh = _ := h1
      subst h1
      split
      · refine ⟨Nat.le_refl _, fun a ha => ?_⟩
        cases a with
        | pos p m => exact ha.elim
        | node id =>
          obtain ⟨a, ha, hi⟩ := ha
          exact .inl ⟨a, (List.eraseIdx_sublist _ _).subset ha, hi⟩
        | home h => exact .inl ha
      · exact .refl _
    · exact .refl _
    · exact .refl _

theorem eraseRange_grown (it jt : LIter) {c : Live F} (hc : LiveOk c) : NooksOf c (Live.eraseRange it jt c).2 := by
  obtain ⟨n, sh⟩ := c
  cases sh with
  | plain v => exact .refl _
  | vec xs marks cap =>
    simp only [Live.eraseRange]
    split
    · split
      · refine ⟨Nat.le_succ _, fun a ha => ?_⟩
        cases a with
        | pos p m =>
          refine Classical.byContradiction fun hn => ?_
          obtain ⟨h1, h2⟩ := not_or.1 hn
          exact mark_take (Nat.not_le.1 h2) h1 ha
        | _ => exact ha.elim
      · exact .refl _
    · exact .refl _
  | map home ms =>
    simp only [Live.eraseRange]
    split
    · split
      · rename_i hpq
        refine ⟨Nat.le_refl _, fun a ha => ?_⟩
        cases a with
        | pos p m => exact ha.elim
        | node id =>
          obtain ⟨a, ha, hi⟩ := ha
          exact .inl ⟨a, (take_drop_sublist ms hpq).subset ha, hi⟩
        | home h => exact .inl ha
      · exact .refl _
    · exact .refl _

theorem store_grown (it : LIter) (x : Value F) {c : Live F} (hc : LiveOk c) : NooksOf c (Live.store it x c).2 := by
  obtain ⟨n, sh⟩ := c
  unfold Live.store
  split
  · exact .refl _
  · split
    · exact .refl _
    · split
      · rename_i h1 _
        have h1 : sh = _ := h1
        subst h1
        exact ⟨Nat.le_refl _, fun a ha => by cases a <;> exact .inl ha⟩
      · rename_i h1 _
        have h1 : sh = _ := h1
        subst h1
        refine ⟨Nat.le_refl _, fun a ha => ?_⟩
        cases a with
        | pos p m => exact ha.elim
        | node id =>
          obtain ⟨a, ha, hi⟩ := ha
          have : (a.1, a.2.1) ∈ _ := List.mem_map_of_mem (f := fun m => (m.1, m.2.1)) ha
          rw [modify_keys] at this
          obtain ⟨b, hb, e⟩ := List.mem_map.1 this
          exact .inl ⟨b, hb, by rw [(Prod.mk.inj e).2]; exact hi⟩
        | home h => exact .inl ha
      · exact fresh_grown _ _ _
      · exact .refl _

/-! ## The invariant -/

/-- What is true of all variables together: no two have a place in common. -/
structure LivesOk (s : Lives F) : Prop where
  one : ∀ x, LiveOk (s.one x)
  apart : ∀ x y, x ≠ y → ∀ a, HasNook (s.vars x) a → ¬ HasNook (s.vars y) a

theorem LiveOk.later {n n' : Nat} (hn : n ≤ n') {sh : LShape F} (h : LiveOk ⟨n, sh⟩) : LiveOk ⟨n', sh⟩ := by
  cases sh with
  | vec xs marks cap => exact ⟨h.1, fun m hm => Nat.lt_of_lt_of_le (h.2 m hm) hn⟩
  | map home ms => exact ⟨Nat.lt_of_lt_of_le h.1 hn, h.2.1, fun a ha => Nat.lt_of_lt_of_le (h.2.2.1 a ha) hn, h.2.2.2⟩
  | plain v => exact h

theorem back_ok {s : Lives F} (h : LivesOk s) {x : Nat} {c : Live F} (hc : LiveOk c) (hg : NooksOf (s.one x) c) : LivesOk (s.back x c) := by
  have hold : ∀ y a, HasNook (s.vars y) a → a.num < s.next := fun y a ha => has_old (h.one y) ha
  have hnew : ∀ y, y ≠ x → ∀ a, HasNook c.shape a → ¬ HasNook (s.vars y) a := by
    intro y hy a ha hb
    rcases hg.has a ha with h1 | h1
    · exact h.apart x y (Ne.symm hy) a h1 hb
    · have := hold y a hb
      have h1 : s.next ≤ a.num := h1
      omega
  refine ⟨fun y => ?_, fun y z hyz a ha hb => ?_⟩
  · show LiveOk ⟨c.next, if y = x then c.shape else s.vars y⟩
    split
    · exact hc
    · exact LiveOk.later hg.next (h.one y)
  · simp only [Lives.back] at ha hb
    split at ha
    · rename_i e
      subst e
      rw [if_neg (Ne.symm hyz)] at hb
      exact hnew z (Ne.symm hyz) a ha hb
    · split at hb
      · rename_i e1 e2
        subst e2
        exact hnew y hyz a hb ha
      · exact h.apart y z hyz a ha hb

theorem exchange_ok {s : Lives F} (h : LivesOk s) (x y : Nat) : LivesOk (Lives.exchange x y s) := by
  refine ⟨fun z => ?_, fun z w hzw a ha hb => ?_⟩
  · show LiveOk ⟨s.next, if z = x then s.vars y else if z = y then s.vars x else s.vars z⟩
    split
    · exact h.one y
    · split
      · exact h.one x
      · exact h.one z
  · simp only [Lives.exchange] at ha hb
    by_cases hx : z = x
    · rw [if_pos hx] at ha
      rw [if_neg (by omega)] at hb
      split at hb
      · exact h.apart y x (by omega) a ha hb
      · exact h.apart y w (by omega) a ha hb
    · rw [if_neg hx] at ha
      by_cases hy : z = y
      · rw [if_pos hy] at ha
        split at hb
        · exact h.apart x y (by omega) a ha hb
        · rw [if_neg (by omega)] at hb
          exact h.apart x w (by omega) a ha hb
      · rw [if_neg hy] at ha
        split at hb
        · exact h.apart z y (by omega) a ha hb
        · split at hb
          · exact h.apart z x (by omega) a ha hb
          · exact h.apart z w hzw a ha hb

theorem fresh_ok' (n spare : Nat) {v : Value F} (hv : ∀ ms, v = .obj ms → Sorted ms) : LiveOk (Live.fresh n spare v) := by
  cases v with
  | arr xs => exact newVec_ok _ _ _
  | obj ms =>
    have hs := number_sorted (n := n + 1) (hv ms rfl)
    refine ⟨?_, hs, fun a ha => ?_, fun a ha b hb e => ?_⟩
    · show n < n + 1 + ms.length
      omega
    · obtain ⟨p, hp⟩ := List.mem_iff_getElem?.1 ha
      have h1 := number_ids _ _ _ _ hp
      have h2 := (List.getElem?_eq_some_iff.1 hp).1
      rw [number_length] at h2
      show a.2.1 < n + 1 + ms.length
      omega
    · obtain ⟨p, hp⟩ := List.mem_iff_getElem?.1 ha
      obtain ⟨q, hq⟩ := List.mem_iff_getElem?.1 hb
      have h1 := number_ids _ _ _ _ hp
      have h2 := number_ids _ _ _ _ hq
      have : p = q := by omega
      subst this
      rw [hp] at hq; cases hq; rfl
  | _ => exact ⟨by simp [Value.type], by simp [Value.type]⟩

theorem content_sorted {c : Live F} (hc : LiveOk c) {ms} (h : c.content = .obj ms) : Sorted ms := by
  obtain ⟨n, sh⟩ := c
  cases sh with
  | vec xs marks cap => cases h
  | map home ns =>
    have h : (.obj (strip ns) : Value F) = .obj ms := h
    injection h with h
    rw [← h]
    exact strip_sorted hc.2.1
  | plain v =>
    have h : v = .obj ms := h
    subst h
    exact absurd rfl hc.2

theorem deal_ok (fo : FloatOps F) (g : Growth) {s : Lives F} (h : LivesOk s) {d : Deal F} (hd : UsualDeal d) : LivesOk (Lives.deal fo g d s).2 := by
  cases d with
  | edit x e => exact back_ok h (act_ok fo g (h.one x) hd) (act_grown fo g (h.one x) e)
  | swap x y => exact exchange_ok h x y
  | copy x y spare =>
    show LivesOk (if x = y then ((.ok (), s) : Except Stop Unit × Lives F) else (.ok (), s.back x (Live.fresh s.next spare (s.content y)))).2
    split
    · exact h
    · exact back_ok h (fresh_ok' _ _ fun ms e => content_sorted (h.one y) e) (fresh_grown _ _ _)
  | move x y =>
    show LivesOk (if x = y then ((.ok (), s) : Except Stop Unit × Lives F) else (.ok (), Lives.exchange x y (s.back x ⟨s.next, .plain .null⟩))).2
    split
    · exact h
    · have hn : LiveOk (⟨s.next, .plain .null⟩ : Live F) := ⟨by simp [Value.type], by simp [Value.type]⟩
      exact exchange_ok (back_ok (x := x) h hn ⟨Nat.le_refl _, fun a ha => by cases a <;> exact ha.elim⟩) x y

theorem dealt_ok {fo : FloatOps F} {g : Growth} {s : Lives F} (h : Dealt fo g s) : LivesOk s := by
  induction h with
  | start => exact ⟨fun _ => ⟨by simp [Lives.one, Value.type], by simp [Lives.one, Value.type]⟩, fun _ _ _ a ha => by cases a <;> exact ha.elim⟩
  | @deal s d r t _ hd e ih =>
    have := deal_ok fo g ih hd
    rw [e] at this
    exact this
  | @erase s it r t _ e ih =>
    have := back_ok ih (erase_ok it.place (ih.one it.owner)) (erase_grown it.place (ih.one it.owner))
    unfold Lives.erase at e
    split at e
    all_goals
      rename_i h1
      rw [h1] at this
      rw [← (Prod.mk.inj e).2]
      exact this
  | @eraseOf s x it r t _ e ih =>
    have := back_ok ih (erase_ok it.place (ih.one x)) (erase_grown it.place (ih.one x))
    unfold Lives.eraseOf at e
    split at e
    all_goals
      rename_i h1
      rw [h1] at this
      rw [← (Prod.mk.inj e).2]
      exact this
  | @eraseRange s x it jt r t _ e ih =>
    have := back_ok ih (eraseRange_ok it.place jt.place (ih.one x)) (eraseRange_grown it.place jt.place (ih.one x))
    unfold Lives.eraseRange at e
    split at e
    all_goals
      rename_i h1
      rw [h1] at this
      rw [← (Prod.mk.inj e).2]
      exact this
  | @store s it v r t _ hv e ih =>
    have := back_ok ih (store_ok it.place hv (ih.one it.owner)) (store_grown it.place v (ih.one it.owner))
    unfold Lives.store at e
    rw [← (Prod.mk.inj e).2]
    exact this

/-! ## Iterators -/

theorem undefined_of {s : Lives F} {it : VIter} (h : Useless (s.one it.owner) it.place) : Undefined s it := by
  refine ⟨h.deref, h.key, ?_, fun jt => ?_, ?_, fun v => ?_, ?_, fun ha off => ?_, fun ha jt e => ⟨?_, ?_⟩, fun jt => ?_, fun jt => ?_⟩
  · unfold Lives.incr; rw [h.incr]; rfl
  · unfold Lives.ne
    by_cases e : it.owner = jt.owner
    · rw [if_neg (by simpa using e), if_pos e, h.ne]
    · rw [if_pos e, if_neg e]
  · unfold Lives.erase; rw [h.erase]
  · unfold Lives.store; rw [h.store]
  · unfold Lives.decr; rw [h.decr]; rfl
  · unfold Lives.plus; rw [h.plus ha]; rfl
  · unfold Lives.diff; rw [if_neg (by simpa using e)]; exact (h.distance ha _).1
  · unfold Lives.lt; rw [if_neg (by simpa using e)]; exact (h.distance ha _).2
  · unfold Lives.eraseRange; rw [h.eraseFrom]
  · unfold Lives.eraseRange; rw [h.eraseTo]

/-- The place is one that the iterator names. -/
def Names (it : LIter) : Nook → Prop
  | .pos p m => it.arr = some (p, m)
  | .node id => it.obj = some (.node id)
  | .home h => it.obj = some (.past h)

theorem useless_unless {c : Live F} (hc : LiveOk c) (ht : Container c.content) {it : LIter} (h : ∀ a, Names it a → ¬ HasNook c.shape a) : Useless c it := by
  obtain ⟨n, sh⟩ := c
  cases sh with
  | vec xs marks cap =>
    cases e : it.arr with
    | none => exact useless_of (by simp only [Live.resolve, e])
    | some a => exact useless_vec e (h (.pos a.1 a.2) e)
  | map home ms =>
    cases e : it.obj with
    | none => exact useless_of (by simp only [Live.resolve, e])
    | some a =>
      cases a with
      | node id => exact useless_node e fun a ha hi => h (.node id) e ⟨a, ha, hi⟩
      | past h' => exact useless_past e fun hi => h (.home h') e hi
  | plain v =>
    rcases ht with ht | ht
    · exact absurd ht hc.1
    · exact absurd ht hc.2

/-- All places that a usable iterator of one kind names are those of its variable. -/
theorem names_has {c : Live F} (hc : LiveOk c) (ht : Container c.content) {p : Nat} {it : LIter} (hp : PointsAt c p it)
    (h1 : it.arr = none ∨ it.obj = none) {a : Nook} (ha : Names it a) : HasNook c.shape a := by
  obtain ⟨n, sh⟩ := c
  cases sh with
  | vec xs marks cap =>
    obtain ⟨m, e, hm⟩ := (at_vec hc).1 hp
    have ho : it.obj = none := by rcases h1 with h1 | h1; · rw [e] at h1; cases h1
                                  · exact h1
    cases a with
    | pos q k =>
      have ha : it.arr = some (q, k) := ha
      rw [e] at ha
      have ha := Prod.mk.inj (Option.some.inj ha)
      rw [← ha.1, ← ha.2]
      exact hm
    | node id => have ha : it.obj = _ := ha; rw [ho] at ha; cases ha
    | home h => have ha : it.obj = _ := ha; rw [ho] at ha; cases ha
  | map home ms =>
    have hs : ∀ a, it.obj = some a → it.arr = none := by
      intro a e
      rcases h1 with h1 | h1
      · exact h1
      · rw [e] at h1; cases h1
    rcases (at_map hc).1 hp with ⟨m, hm, e⟩ | ⟨_, e⟩
    · cases a with
      | pos q k => have ha : it.arr = _ := ha; rw [hs _ e] at ha; cases ha
      | node id =>
        have ha : it.obj = some (.node id) := ha
        rw [e] at ha
        injection ha with ha
        injection ha with ha
        exact ⟨m, List.mem_of_getElem? hm, ha⟩
      | home h => have ha : it.obj = some (.past h) := ha; rw [e] at ha; injection ha with ha; cases ha
    · cases a with
      | pos q k => have ha : it.arr = _ := ha; rw [hs _ e] at ha; cases ha
      | node id => have ha : it.obj = some (.node id) := ha; rw [e] at ha; injection ha with ha; cases ha
      | home h =>
        have ha : it.obj = some (.past h) := ha
        rw [e] at ha
        injection ha with ha
        injection ha with ha
        exact ha.symm
  | plain v =>
    rcases ht with ht | ht
    · exact absurd ht hc.1
    · exact absurd ht hc.2

/-- No variable has a place that the iterator names, and will not get it, since the numbers are old. -/
def Gone (it : LIter) (s : Lives F) : Prop := ∀ a, Names it a → a.num < s.next ∧ ∀ x, ¬ HasNook (s.vars x) a

theorem gone_back {s : Lives F} {it : LIter} (h : Gone it s) {x : Nat} {c : Live F} (hg : NooksOf (s.one x) c) : Gone it (s.back x c) := by
  intro a ha
  obtain ⟨h1, h2⟩ := h a ha
  refine ⟨Nat.lt_of_lt_of_le h1 hg.next, fun y hy => ?_⟩
  simp only [Lives.back] at hy
  split at hy
  · rcases hg.has a hy with h3 | h3
    · exact h2 x h3
    · have h3 : s.next ≤ a.num := h3
      omega
  · exact h2 y hy

theorem gone_exchange {s : Lives F} {it : LIter} (h : Gone it s) (x y : Nat) : Gone it (Lives.exchange x y s) := by
  intro a ha
  obtain ⟨h1, h2⟩ := h a ha
  refine ⟨h1, fun z hz => ?_⟩
  simp only [Lives.exchange] at hz
  split at hz
  · exact h2 _ hz
  · split at hz <;> exact h2 _ hz

theorem gone_deal (fo : FloatOps F) (g : Growth) {s : Lives F} (hs : LivesOk s) {it : LIter} (h : Gone it s) (d : Deal F) : Gone it (Lives.deal fo g d s).2 := by
  cases d with
  | edit x e => exact gone_back h (act_grown fo g (hs.one x) e)
  | swap x y => exact gone_exchange h x y
  | copy x y spare =>
    show Gone it (if x = y then ((.ok (), s) : Except Stop Unit × Lives F) else (.ok (), s.back x (Live.fresh s.next spare (s.content y)))).2
    split
    · exact h
    · exact gone_back h (fresh_grown _ _ _)
  | move x y =>
    show Gone it (if x = y then ((.ok (), s) : Except Stop Unit × Lives F) else (.ok (), Lives.exchange x y (s.back x ⟨s.next, .plain .null⟩))).2
    split
    · exact h
    · exact gone_exchange (gone_back (x := x) h (c := ⟨s.next, .plain .null⟩) ⟨Nat.le_refl _, fun a ha => by cases a <;> exact ha.elim⟩) x y

theorem gone_all (fo : FloatOps F) (g : Growth) {it : LIter} : ∀ (ds : List (Deal F)) {s t : Lives F}, LivesOk s → Gone it s → (∀ d ∈ ds, UsualDeal d) →
    Lives.dealAll fo g ds s = some t → LivesOk t ∧ Gone it t
  | [], s, t, hs, h, _, e => by cases e; exact ⟨hs, h⟩
  | d :: ds, s, t, hs, h, hu, e => by
    have h' := gone_deal fo g hs h d
    have hs' := deal_ok fo g hs (hu d (by simp))
    have hu' : ∀ d ∈ ds, UsualDeal d := fun x hx => hu x (by simp [hx])
    unfold Lives.dealAll at e
    split at e
    · rename_i h1; rw [h1] at h' hs'; exact gone_all fo g ds hs' h' hu' e
    · rename_i h1; rw [h1] at h' hs'; exact gone_all fo g ds hs' h' hu' e
    · cases e

/-- A variable keeps its data under operations that do not touch it. -/
theorem untouched_deal (fo : FloatOps F) (g : Growth) (s : Lives F) {x : Nat} {d : Deal F} (hd : ¬ Touches x d) : (Lives.deal fo g d s).2.vars x = s.vars x := by
  cases d with
  | edit y e => exact if_neg hd
  | swap y z =>
    obtain ⟨h1, h2⟩ := not_or.1 hd
    show (if x = y then s.vars z else if x = z then s.vars y else s.vars x) = _
    rw [if_neg h1, if_neg h2]
  | copy y z spare =>
    show (if y = z then ((.ok (), s) : Except Stop Unit × Lives F) else (.ok (), s.back y (Live.fresh s.next spare (s.content z)))).2.vars x = _
    split
    · rfl
    · exact if_neg hd
  | move y z =>
    obtain ⟨h1, h2⟩ := not_or.1 hd
    show (if y = z then ((.ok (), s) : Except Stop Unit × Lives F) else (.ok (), Lives.exchange y z (s.back y ⟨s.next, .plain .null⟩))).2.vars x = _
    split
    · rfl
    · show (if x = y then _ else if x = z then _ else (s.back y ⟨s.next, .plain .null⟩).vars x) = _
      rw [if_neg h1, if_neg h2]
      exact if_neg h1

theorem untouched_all (fo : FloatOps F) (g : Growth) {x : Nat} : ∀ (ds : List (Deal F)) {s t : Lives F}, (∀ d ∈ ds, ¬ Touches x d) →
    Lives.dealAll fo g ds s = some t → t.vars x = s.vars x
  | [], s, t, _, e => by cases e; rfl
  | d :: ds, s, t, hd, e => by
    have h := untouched_deal fo g s (hd d (by simp))
    have hd' : ∀ d ∈ ds, ¬ Touches x d := fun y hy => hd y (by simp [hy])
    unfold Lives.dealAll at e
    split at e
    · rename_i h1; rw [h1] at h; rw [untouched_all fo g ds hd' e, h]
    · rename_i h1; rw [h1] at h; rw [untouched_all fo g ds hd' e, h]
    · cases e

end Spec
