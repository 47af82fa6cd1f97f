import Verif.Proofs.StepsTame
import Verif.Proofs.Threads
/-!
# Threads that are interrupted between any two steps
-/
set_option autoImplicit false
namespace Configor
open Spec

variable {F A B : Type}

/-! ## A part of the memory, and all of it -/

/-- The memory `w` has all that `st` has; what is more is neither new to `st` nor a variable of the thread. -/
structure Zone.Agree (Z : Zone F) (st w : State F) : Prop where
  mem : ∀ a b, st.heap.mem a = some b → w.heap.mem a = some b
  fresh : ∀ a, st.heap.next ≤ a → w.heap.mem a = none
  next : w.heap.next = st.heap.next
  plan : w.heap.plan = st.heap.plan
  tick : w.heap.tick = st.heap.tick
  vars : ∀ y c, st.vars y = some c → w.vars y = some c
  own : ∀ y, Z.Own y → w.vars y = st.vars y

namespace Zone
variable {Z : Zone F}

theorem Agree.split {st w : State F} (h : Z.Agree st w) : ∃ g gv, w = st.add g gv ∧ st.Beside g gv ∧ ∀ y, Z.Own y → gv y = none := by
  refine ⟨fun a => match st.heap.mem a with | some _ => none | none => w.heap.mem a,
    fun y => match st.vars y with | some _ => none | none => w.vars y, ?_, ⟨?_, ?_⟩, ?_⟩
  · have hm : ∀ a, w.heap.mem a = (st.heap.mem a).or (match st.heap.mem a with | some _ => none | none => w.heap.mem a) := by
      intro a
      cases e : st.heap.mem a with
      | none => simp
      | some b => rw [h.mem a b e]; simp
    have hv : ∀ x, w.vars x = (st.vars x).or (match st.vars x with | some _ => none | none => w.vars x) := by
      intro x
      cases e : st.vars x with
      | none => simp
      | some c => rw [h.vars x c e]; simp
    have h1 := h.next
    have h2 := h.plan
    have h3 := h.tick
    obtain ⟨⟨m, n, p, t⟩, v⟩ := w
    obtain ⟨⟨m0, n0, p0, t0⟩, v0⟩ := st
    simp only at hm hv h1 h2 h3
    simp only [State.add, Heap.add, ← hm, ← hv, h1, h2, h3]
  · intro a ha
    cases e : st.heap.mem a with
    | some b => simp only [e] at ha; exact absurd rfl ha
    | none =>
      simp only [e] at ha
      refine ⟨rfl, ?_⟩
      rcases Nat.lt_or_ge a st.heap.next with hl | hl
      · exact hl
      · exact absurd (h.fresh a hl) ha
  · intro x hx
    cases e : st.vars x with
    | some b => simp only [e] at hx; exact absurd rfl hx
    | none => rfl
  · intro y hy
    cases e : st.vars y with
    | some b => simp only [e]
    | none => simp only; rw [h.own y hy, e]

theorem Agree.of_add {st : State F} {g gv} (hb : st.Beside g gv) (hn : ∀ y, Z.Own y → gv y = none) (hf : ∀ a, st.heap.next ≤ a → st.heap.mem a = none) :
    Z.Agree st (st.add g gv) where
  mem a b e := by simp only [State.add, Heap.add, e]; rfl
  fresh a ha := by
    simp only [State.add, Heap.add, hf a ha, Option.none_or]
    cases e : g a with
    | none => rfl
    | some b => exact absurd (hb.1 a (by rw [e]; simp)).2 (by omega)
  next := rfl
  plan := rfl
  tick := rfl
  vars y c e := by simp only [State.add, e]; rfl
  own y hy := by simp only [State.add, hn y hy, Option.or_none]

/-- A step of the thread, in all of the memory. -/
theorem Fine.step {m : M (State F) A} {Q : A → Prop} (h : Z.Fine m Q) {st w : State F} (hk : Z.Keep st) (ha : Z.Agree st w) {b : A}
    (e : (m st).1 = .ok b) :
    (m w).1 = .ok b ∧ Q b ∧ Z.Keep (m st).2 ∧ Z.Agree (m st).2 (m w).2 ∧
      (∀ a, a < Z.base.heap.next → Z.base.heap.mem a = none ∨ Z.Sh a ∧ Z.base.heap.mem a ≠ none → (m w).2.heap.mem a = w.heap.mem a) ∧
      ∀ y, ¬ Z.Own y → (m w).2.vars y = w.vars y := by
  obtain ⟨g, gv, rfl, hb, hn⟩ := ha.split
  obtain ⟨f1, f2⟩ := h.frames st g gv hb hn (by rw [e]; trivial)
  obtain ⟨k1, k2⟩ := h.keeps st hk
  rw [f1]
  refine ⟨e, k2 b e, k1, .of_add f2 hn k1.fresh, ?_, ?_⟩
  · intro a ha hs
    simp only [State.add, Heap.add]
    rcases hs with hs | ⟨hs, _⟩
    · rw [k1.gone a ha hs, hk.gone a ha hs]
    · rw [k1.shared a hs, hk.shared a hs]
  · intro y hy
    simp only [State.add, k1.others y hy, hk.others y hy]

end Zone

/-! ## One thread's part -/

/-- The variables a thread may name. -/
def Named (owner : Nat → Option Nat) (i x : Nat) : Prop := owner x = some i ∨ owner x = none

open Classical in
/-- The part of the memory a thread may access. -/
noncomputable def partOf (owner : Nat → Option Nat) (fp : Var → List Nat) (s : State F) (i : Nat) : State F where
  heap := { s.heap with mem := fun a => if ∃ x, Named owner i x ∧ a ∈ fp (.user x) then s.heap.mem a else none }
  vars
    | .user x => if Named owner i x then s.vars (.user x) else none
    | _ => none

/-- The blocks no thread may change. -/
def SharedBlock (owner : Nat → Option Nat) (fp : Var → List Nat) (a : Nat) : Prop := ∃ x, owner x = none ∧ a ∈ fp (.user x)

noncomputable def zoneOf (owner : Nat → Option Nat) (fp : Var → List Nat) (s : State F) (i : Nat) : Zone F where
  owner := owner
  me := i
  Sh := SharedBlock owner fp
  base := partOf owner fp s i

open Classical in
/-- The contents of the variables a thread may name. -/
noncomputable def Env.named (owner : Nat → Option Nat) (i : Nat) (E : Env F) : Env F := fun x => if Named owner i x then E x else none

theorem within_next {mem : Nat → Option (Block F)} {c d : Cell F} {a b : Nat} {k : Block F} (h : WithinCell mem c a) (hk : mem a = some k) (hd : d ∈ k.cells)
    (hb : blockOf d = some b) : WithinCell mem c b := by
  induction h with
  | here h => exact .inside h hk hd (.here hb)
  | inside h1 h2 h3 _ ih => exact .inside h1 h2 h3 (ih hk)

theorem owned_repr {s : State F} {E : Env F} {fp} (h : Owns s E.all fp) {x a : Nat} (ha : a ∈ fp (.user x)) :
    ∃ c v n, s.vars (.user x) = some c ∧ E x = some v ∧ Repr s.heap.mem n c v (fp (.user x)) := by
  have := h.stands (.user x)
  simp only [Env.all] at this
  cases e : E x <;> cases e' : s.vars (.user x) <;> rw [e, e'] at this <;> simp only [Stands] at this
  · rw [this] at ha; cases ha
  · obtain ⟨n, hn⟩ := this
    exact ⟨_, _, n, rfl, rfl, hn⟩

theorem owned_of_var {s : State F} {E : Env F} {fp} (h : Owns s E.all fp) {x : Nat} {c : Cell F} (hc : s.vars (.user x) = some c) :
    ∃ v n, E x = some v ∧ Repr s.heap.mem n c v (fp (.user x)) := by
  have := h.stands (.user x)
  simp only [Env.all] at this
  cases e : E x <;> rw [e, hc] at this <;> simp only [Stands] at this
  obtain ⟨n, hn⟩ := this
  exact ⟨_, n, rfl, hn⟩

theorem owned_mem {s : State F} {E : Env F} {fp} (h : Owns s E.all fp) {x a : Nat} (ha : a ∈ fp (.user x)) :
    s.heap.mem a ≠ none := by
  obtain ⟨c, v, n, _, _, hr⟩ := owned_repr h ha
  exact hr.allocated a ha

theorem owned_lt {s : State F} {E : Env F} {fp} (h : Owns s E.all fp) {x a : Nat} (ha : a ∈ fp (.user x)) : a < s.heap.next := by
  rcases Nat.lt_or_ge a s.heap.next with hl | hl
  · exact hl
  · exact absurd (h.fresh a hl) (owned_mem h ha)

theorem owned_inj {s : State F} {E : Env F} {fp} (h : Owns s E.all fp) {x y a : Nat} (hx : a ∈ fp (.user x)) (hy : a ∈ fp (.user y)) : x = y := by
  rcases Nat.decEq x y with hn | rfl
  · exact absurd hy (h.disjoint (.user x) (.user y) (fun e => hn (by cases e; rfl)) a hx)
  · rfl

variable {owner : Nat → Option Nat} {fp : Var → List Nat} {s : State F} {E : Env F}

theorem partOf_mem {i a : Nat} (h : ∃ x, Named owner i x ∧ a ∈ fp (.user x)) : (partOf owner fp s i).heap.mem a = s.heap.mem a := by
  simp only [partOf, if_pos h]

theorem partOf_mem_none {i a : Nat} (h : ¬ ∃ x, Named owner i x ∧ a ∈ fp (.user x)) : (partOf owner fp s i).heap.mem a = none := by
  simp only [partOf, if_neg h]

theorem partOf_var {i x : Nat} (h : Named owner i x) : (partOf owner fp s i).vars (.user x) = s.vars (.user x) := by
  simp only [partOf, if_pos h]

theorem partOf_var_none {i x : Nat} (h : ¬ Named owner i x) : (partOf owner fp s i).vars (.user x) = none := by
  simp only [partOf, if_neg h]

theorem zone_keep (h : Owns s E.all fp) (i : Nat) : (zoneOf owner fp s i).Keep (partOf owner fp s i) where
  shared _ _ := rfl
  others _ _ := rfl
  free y c hy hc := by
    cases y with
    | user x =>
      have hx : owner x = some i := hy
      rw [partOf_var (.inl hx)] at hc
      obtain ⟨v, n, _, hr⟩ := owned_of_var h hc
      rintro a ha ⟨x', hx', ha'⟩
      have := owned_inj h (WithinCell.mem_of (.here ha) hr) ha'
      subst this
      rw [hx] at hx'; cases hx'
    | _ => cases hc
  inside a k ha hk d hd := by
    have he : ∃ x, Named owner i x ∧ a ∈ fp (.user x) := Classical.byContradiction fun hn => by rw [partOf_mem_none hn] at hk; cases hk
    rw [partOf_mem he] at hk
    obtain ⟨x, hx, hax⟩ := he
    rcases hx with hx | hx
    · obtain ⟨c, v, n, hc, _, hr⟩ := owned_repr h hax
      rintro b hb ⟨x', hx', hb'⟩
      have := owned_inj h ((within_next (hr.within a hax) hk hd hb).mem_of hr) hb'
      subst this
      rw [hx] at hx'; cases hx'
    · exact absurd ⟨x, hx, hax⟩ ha
  old a := fun ⟨_, _, ha⟩ => owned_lt h ha
  next := Nat.le_refl _
  gone _ _ h := h
  fresh a ha := by
    simp only [partOf]
    split
    · exact h.fresh a ha
    · rfl

theorem zone_holds (h : Owns s E.all fp) (i : Nat) : ∃ L, Holds (partOf owner fp s i) (Env.named owner i E) L := by
  classical
  refine ⟨_, fun y => match y with | .user x => if Named owner i x then fp (.user x) else [] | _ => [], ⟨?_, ?_, ?_, ?_⟩, fun a => Iff.rfl⟩
  · intro y
    cases y with
    | user x =>
      simp only [Env.all, Env.named]
      by_cases hx : Named owner i x
      · rw [if_pos hx, if_pos hx, partOf_var hx]
        have := h.stands (.user x)
        simp only [Env.all] at this
        cases e : E x <;> cases e' : s.vars (.user x) <;> rw [e, e'] at this <;> simp only [Stands] at this ⊢
        · exact this
        · obtain ⟨n, hn⟩ := this
          exact ⟨n, hn.frame fun a ha => partOf_mem ⟨x, hx, ha⟩⟩
      · rw [if_neg hx, if_neg hx, partOf_var_none hx]; rfl
    | _ => simp only [Env.all, partOf]; rfl
  · intro y
    cases y with
    | user x => simp only; split; exact h.nodup _; exact List.nodup_nil
    | _ => exact List.nodup_nil
  · intro y z hyz a ha hz
    cases y with
    | user x =>
      cases z with
      | user x' =>
        simp only at ha hz
        split at ha
        · split at hz
          · exact h.disjoint _ _ hyz a ha hz
          · cases hz
        · cases ha
      | _ => cases hz
    | _ => cases ha
  · exact (zone_keep (owner := owner) h i).fresh

/-! ## One thread alone -/

theorem runAll_holds (fo : FloatOps F) : ∀ (cs : List (Cmd F)) {s : State F} {E : Env F} {L}, Holds s E L → (∀ t, s.heap.plan t = true) →
    ProgramAllowed fo E cs → ∃ s', Cmd.runAll fo cs s = (.ok (), s') ∧ Shows s' (cs.foldl (fun E c => c.meaning fo E) E) := by
  intro cs
  induction cs with
  | nil => intro s E L h hp _; exact ⟨s, rfl, h.shows⟩
  | cons c cs ih =>
    intro s E L h hp ⟨h1, h2⟩
    rcases c.correct fo h h1 with ⟨s1, e, k2, k3, _⟩ | ⟨s1, E1, L1, e, _, _, _, _, _, t, _, _, k6⟩
    · obtain ⟨s', a1, a2⟩ := ih k2 (by rw [k3]; exact hp) h2
      exact ⟨s', by rw [Cmd.runAll, M.bind_ok e, a1], a2⟩
    · rw [hp t] at k6; cases k6

theorem program_congr (fo : FloatOps F) (X : Nat → Prop) : ∀ (cs : List (Cmd F)) {E E' : Env F}, (∀ c ∈ cs, ∀ x ∈ c.vars, X x) → (∀ x, X x → E' x = E x) →
    ProgramAllowed fo E cs → ProgramAllowed fo E' cs ∧
      ∀ x, X x → cs.foldl (fun E c => c.meaning fo E) E' x = cs.foldl (fun E c => c.meaning fo E) E x := by
  intro cs
  induction cs with
  | nil => intro E E' _ h _; exact ⟨trivial, h⟩
  | cons c cs ih =>
    intro E E' hv h ⟨h1, h2⟩
    have hc : ∀ x ∈ c.vars, E' x = E x := fun x hx => h x (hv c List.mem_cons_self x hx)
    obtain ⟨k1, k2⟩ := ih (E := c.meaning fo E) (E' := c.meaning fo E') (fun d hd => hv d (List.mem_cons_of_mem _ hd)) (by
      intro x hx
      by_cases hxc : x ∈ c.vars
      · exact c.meaning_congr fo hc x hxc
      · have ht : x ∉ c.targets := fun ht => hxc (by cases c <;> simp_all [Cmd.targets, Cmd.vars])
        rw [c.meaning_other fo _ ht, c.meaning_other fo _ ht]
        exact h x hx) h2
    exact ⟨⟨c.allowed_congr hc h1, k1⟩, k2⟩

theorem zone_run (fo : FloatOps F) (h : Owns s E.all fp) (hp : ∀ t, s.heap.plan t = true) {prog : Nat → List (Cmd F)} (hk : KeepsTo owner prog)
    (ha : ∀ i, ProgramAllowed fo E (prog i)) (i : Nat) :
    ∃ fin E', (Cmd.allSteps fo (prog i)).run (partOf owner fp s i) = (.ok (), fin) ∧ Shows fin E' ∧
      ∀ x, Named owner i x → E' x = (prog i).foldl (fun E c => c.meaning fo E) E x := by
  classical
  obtain ⟨L, hL⟩ := zone_holds (owner := owner) h i
  obtain ⟨k1, k2⟩ := program_congr fo (Named owner i) (prog i) (E := E) (E' := Env.named owner i E) (fun c hc => (hk i c hc).2)
    (fun x hx => by simp only [Env.named, if_pos hx]) (ha i)
  obtain ⟨fin, r1, r2⟩ := runAll_holds fo (prog i) hL hp k1
  exact ⟨fin, _, by rw [Cmd.run_allSteps]; exact r1, r2, k2⟩

/-! ## All threads -/

theorem Joint.view_back (g : Joint F) (i : Nat) (w : State F) : (g.back i w).view i = w := by
  obtain ⟨⟨m, n, p, t⟩, v⟩ := w
  simp only [Joint.view, Joint.back, upd, if_pos]
  congr 1
  · congr 1
    funext a
    split <;> rfl
  · funext y
    cases y <;> rfl

/-- What is true of thread `i` after some steps of all threads: `n` steps are left. -/
structure Doing (owner : Nat → Option Nat) (fp : Var → List Nat) (s : State F) (i : Nat) (fin : State F) (p : Prog (State F) Unit) (w : State F) (n : Nat) (st : State F) : Prop where
  keep : (zoneOf owner fp s i).Keep st
  agree : (zoneOf owner fp s i).Agree st w
  tame : (zoneOf owner fp s i).Tame (fun _ => True) p
  run : p.run st = (.ok (), fin)
  cost : p.cost st = n

theorem Doing.step {i n : Nat} {fin : State F} {β : Type} {m : M (State F) β} {k} {w st : State F} (h : Doing owner fp s i fin (.step m k) w n st) :
    ∃ n', n = n' + 1 ∧ Doing owner fp s i fin (k (m w).1) (m w).2 n' (m st).2 ∧
      (∀ a, a < s.heap.next → (partOf owner fp s i).heap.mem a = none ∨ SharedBlock owner fp a ∧ (partOf owner fp s i).heap.mem a ≠ none →
        (m w).2.heap.mem a = w.heap.mem a) ∧
      ∀ y, ¬ (zoneOf owner fp s i).Own y → (m w).2.vars y = w.vars y := by
  have hr : (k (m st).1).run (m st).2 = (.ok (), fin) := h.run
  have hc : (k (m st).1).cost (m st).2 + 1 = n := h.cost
  rcases h.tame with hf | ⟨Q, h1, h2, h3⟩
  · obtain ⟨e, he⟩ := (hf (m st).1).run (m st).2
    rw [hr] at he; cases he
  · cases e : (m st).1 with
    | error e' =>
      rw [e] at hr
      obtain ⟨e, he⟩ := (h3 e').run (m st).2
      rw [hr] at he; cases he
    | ok b =>
      obtain ⟨k1, k2, k3, k4, k5, k6⟩ := h1.step h.keep h.agree e
      rw [e] at hr hc
      exact ⟨_, hc.symm, ⟨k3, k4, by rw [k1]; exact h2 b k2, by rw [k1]; exact hr, by rw [k1]⟩, k5, k6⟩

theorem Doing.done {i n : Nat} {fin : State F} {r} {w st : State F} (h : Doing owner fp s i fin (.done r) w n st) :
    r = .ok () ∧ n = 0 ∧ st = fin := by
  have hr : (r, st) = (Except.ok (), fin) := h.run
  injection hr with h1 h2
  exact ⟨h1, h.cost.symm, h2⟩

/-- In all of the memory a thread makes as many steps. -/
theorem Doing.costs {i : Nat} {fin : State F} {p : Prog (State F) Unit} : ∀ {n : Nat} {w st : State F}, Doing owner fp s i fin p w n st → p.cost w = n := by
  induction p with
  | done r => intro n w st h; exact h.done.2.1.symm
  | step m k ih =>
    intro n w st h
    obtain ⟨n', rfl, h2, _⟩ := h.step
    show (k (m w).1).cost (m w).2 + 1 = n' + 1
    rw [ih _ h2]

/-- A step of another thread. -/
theorem Doing.other {i j n : Nat} (ho : Owns s E.all fp) (hij : i ≠ j) {fin : State F} {p} {g : Joint F} {st w' : State F} (hs : g.start = s.heap.next)
    (h : Doing owner fp s i fin p (g.view i) n st)
    (h1 : ∀ a, a < s.heap.next → (partOf owner fp s j).heap.mem a = none ∨ SharedBlock owner fp a ∧ (partOf owner fp s j).heap.mem a ≠ none →
        w'.heap.mem a = (g.view j).heap.mem a)
    (h2 : ∀ y, ¬ (zoneOf owner fp s j).Own y → w'.vars y = (g.view j).vars y) : Doing owner fp s i fin p ((g.back j w').view i) n st := by
  have hm : ∀ a, g.start ≤ a → ((g.back j w').view i).heap.mem a = (g.view i).heap.mem a := by
    intro a ha
    simp only [Joint.view, Joint.back, upd, if_neg hij, if_neg (Nat.not_lt.2 ha)]
  have hm' : ∀ a, a < g.start → ((g.back j w').view i).heap.mem a = w'.heap.mem a := by
    intro a ha
    simp only [Joint.view, Joint.back, if_pos ha]
  have hg : ∀ a, a < g.start → (g.view j).heap.mem a = (g.view i).heap.mem a := by
    intro a ha
    simp only [Joint.view, if_pos ha]
  have hv : ∀ x, owner x ≠ some j → ((g.back j w').view i).vars (.user x) = (g.view i).vars (.user x) := fun x hx => h2 (.user x) hx
  have hl : ∀ y, (∀ x, y ≠ .user x) → ((g.back j w').view i).vars y = (g.view i).vars y := by
    intro y hy
    cases y with
    | user x => exact absurd rfl (hy x)
    | _ => simp only [Joint.view, Joint.back, upd, if_neg hij]
  refine ⟨h.keep, ⟨?_, ?_, ?_, ?_, ?_, ?_, ?_⟩, h.tame, h.run, h.cost⟩
  · intro a b e
    rcases Nat.lt_or_ge a g.start with ha | ha
    · rw [hm' a ha]
      have he : ∃ x, Named owner i x ∧ a ∈ fp (.user x) := Classical.byContradiction fun hn => by
        have := h.keep.gone a (by rw [hs] at ha; exact ha) (partOf_mem_none hn)
        rw [this] at e; cases e
      rw [h1 a (by rw [← hs]; exact ha), hg a ha]
      · exact h.agree.mem a b e
      · obtain ⟨x, hx, hax⟩ := he
        rcases hx with hx | hx
        · refine .inl (partOf_mem_none ?_)
          rintro ⟨x', hx', hax'⟩
          have := owned_inj ho hax hax'
          subst this
          rcases hx' with hx' | hx' <;> rw [hx] at hx' <;> cases hx'
          exact hij rfl
        · exact .inr ⟨⟨x, hx, hax⟩, by rw [partOf_mem ⟨x, .inr hx, hax⟩]; exact owned_mem ho hax⟩
    · rw [hm a ha]; exact h.agree.mem a b e
  · intro a ha
    rw [hm a (by rw [hs]; exact Nat.le_trans h.keep.next ha)]
    exact h.agree.fresh a ha
  · rw [← h.agree.next]; simp only [Joint.view, Joint.back, upd, if_neg hij]
  · rw [← h.agree.plan]; simp only [Joint.view, Joint.back, upd, if_neg hij]
  · rw [← h.agree.tick]; simp only [Joint.view, Joint.back, upd, if_neg hij]
  · intro y c e
    rw [← h.agree.vars y c e]
    cases y with
    | user x =>
      refine hv x fun hx => ?_
      have hn : ¬ (zoneOf owner fp s i).Own (.user x) := fun hy => by
        have hy : owner x = some i := hy
        rw [hx] at hy; cases hy; exact hij rfl
      have hb := h.keep.others _ hn
      rw [e] at hb
      have : (partOf owner fp s i).vars (.user x) = none := partOf_var_none fun hy => by
        rcases hy with hy | hy <;> rw [hx] at hy <;> cases hy
        exact hij rfl
      exact absurd (hb.trans this) (by simp)
    | _ => exact hl _ (by intro x hx; cases hx)
  · intro y hy
    rw [← h.agree.own y hy]
    cases y with
    | user x =>
      have hy : owner x = some i := hy
      refine hv x fun hx => ?_
      rw [hy] at hx; cases hx; exact hij rfl
    | _ => exact hl _ (by intro x hx; cases hx)

/-- What is true of all threads. -/
structure Going (owner : Nat → Option Nat) (fp : Var → List Nat) (s : State F) (fin : Nat → State F) (T : Threads F) (left : Nat → Nat) : Prop where
  start : T.joint.start = s.heap.next
  shared : ∀ x, owner x = none → T.joint.vars x = s.vars (.user x)
  each : ∀ i, ∃ st, Doing owner fp s i (fin i) (T.todo i) (T.joint.view i) (left i) st

theorem Going.turn (ho : Owns s E.all fp) {fin : Nat → State F} {T : Threads F} {left : Nat → Nat} (h : Going owner fp s fin T left) (j : Nat) :
    Going owner fp s fin (T.turn j) (fun i => if i = j then left i - 1 else left i) := by
  obtain ⟨st, hj⟩ := h.each j
  unfold Threads.turn
  generalize hq : T.todo j = q at hj
  cases q with
  | done r =>
    obtain ⟨_, h2, _⟩ := hj.done
    refine ⟨h.start, h.shared, fun i => ?_⟩
    have : (if i = j then left i - 1 else left i) = left i := by
      split
      · next e => subst e; omega
      · rfl
    rw [this]
    exact h.each i
  | step m k =>
    obtain ⟨n', h1, h2, h3, h4⟩ := hj.step
    refine ⟨h.start, fun x hx => (h4 (.user x) fun hy => by
      have hy : owner x = some j := hy
      rw [hx] at hy; cases hy).trans (h.shared x hx), fun i => ?_⟩
    by_cases hij : i = j
    · subst hij
      refine ⟨(m st).2, ?_⟩
      simp only [if_pos]
      rw [Joint.view_back, h1]
      exact h2
    · obtain ⟨si, hi⟩ := h.each i
      simp only [if_neg hij]
      exact ⟨si, hi.other ho hij h.start h3 h4⟩

theorem Going.turns (ho : Owns s E.all fp) {fin : Nat → State F} : ∀ (sched : List Nat) {T : Threads F} {left : Nat → Nat}, Going owner fp s fin T left →
    Going owner fp s fin (T.turns sched) (fun i => left i - sched.count i)
  | [], _, _, h => h
  | j :: sched, T, left, h => by
    have := Going.turns ho sched (h.turn ho j)
    show Going owner fp s fin ((T.turn j).turns sched) _
    have e : (fun i => left i - (j :: sched).count i) = fun i => (if i = j then left i - 1 else left i) - sched.count i := by
      funext i
      rw [List.count_cons]
      by_cases hij : i = j
      · subst hij; simp; omega
      · simp [hij, Ne.symm hij]
    rw [e]
    exact this

theorem Joint.view_of (s : State F) (i : Nat) : (Joint.of s).view i = s := by
  obtain ⟨⟨m, n, p, t⟩, v⟩ := s
  simp only [Joint.view, Joint.of]
  congr 1
  · congr 1
    funext a
    exact ite_self _
  · funext y
    cases y <;> rfl

theorem zone_agree (h : Owns s E.all fp) (i : Nat) : (zoneOf owner fp s i).Agree (partOf owner fp s i) s where
  mem a b e := by
    simp only [partOf] at e
    split at e
    · exact e
    · cases e
  fresh := h.fresh
  next := rfl
  plan := rfl
  tick := rfl
  vars y c e := by
    cases y with
    | user x =>
      simp only [partOf] at e
      split at e
      · exact e
      · cases e
    | _ => cases e
  own y hy := by
    have loc : ∀ x, Env.all E x = none → s.vars x = none := by
      intro x hx
      have := h.stands x
      rw [hx] at this
      cases e : s.vars x with
      | none => rfl
      | some c => rw [e] at this; exact this.elim
    cases y with
    | user x => exact (partOf_var (.inl hy)).symm
    | _ => exact loc _ rfl

/-- The threads begin. -/
theorem Going.launch (fo : FloatOps F) (h : Owns s E.all fp) {prog : Nat → List (Cmd F)} (hk : KeepsTo owner prog) {fin : Nat → State F}
    (hf : ∀ i, (Cmd.allSteps fo (prog i)).run (partOf owner fp s i) = (.ok (), fin i)) :
    Going owner fp s fin (launch fo prog s) (fun i => (Cmd.allSteps fo (prog i)).cost (partOf owner fp s i)) where
  start := rfl
  shared _ _ := rfl
  each i := ⟨partOf owner fp s i, zone_keep h i, by
    show Zone.Agree _ _ ((Joint.of s).view i)
    rw [Joint.view_of]; exact zone_agree h i, Zone.allSteps fo _ fun c hc => (hk i c hc).1, hf i, rfl⟩

theorem Zone.Agree.has {Z : Zone F} {st w : State F} (h : Z.Agree st w) {E : Env F} (hE : Shows st E) {x : Nat} {v : Option (Value F)} (hv : E x = v)
    (hx : w.vars (.user x) = st.vars (.user x)) : Has w x v := by
  subst hv
  have := hE x
  simp only [Has, hx]
  cases e : st.vars (.user x) <;> cases e' : E x <;> rw [e, e'] at this <;> simp only at this ⊢
  obtain ⟨n, fp, hr⟩ := this
  refine ⟨n, fp, hr.frame fun a ha => ?_⟩
  cases e : st.heap.mem a with
  | none => exact absurd e (hr.allocated a ha)
  | some b => exact h.mem a b e

/-- A shared variable is what it was. -/
theorem Doing.shared (ho : Owns s E.all fp) {i n : Nat} {fin : State F} {p} {w st : State F} (h : Doing owner fp s i fin p w n st) {x : Nat} (hx : owner x = none)
    (hw : w.vars (.user x) = s.vars (.user x)) : Has w x (E x) := by
  simp only [Has, hw]
  have := ho.stands (.user x)
  simp only [Env.all] at this
  cases e : s.vars (.user x) <;> cases e' : E x <;> rw [e, e'] at this <;> simp only [Stands] at this ⊢
  obtain ⟨n, hr⟩ := this
  refine ⟨n, _, hr.frame fun a ha => ?_⟩
  have h1 : st.heap.mem a = s.heap.mem a := (h.keep.shared a ⟨x, hx, ha⟩).trans (partOf_mem ⟨x, .inr hx, ha⟩)
  cases e : st.heap.mem a with
  | none => rw [e] at h1; exact absurd h1.symm (hr.allocated a ha)
  | some b => rw [h.agree.mem a b e, ← h1, e]

end Configor
