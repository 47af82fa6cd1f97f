import Verif.Proofs.HeapHist
import Verif.Spec.Threads
/-!
# Operations do not touch what they do not need

An operation that ends in a small memory ends in the same way in a larger one, and leaves the rest of it alone.
-/
namespace Configor
open Spec

variable {F A B : Type}

/-- The result is not undefined behaviour, and the bound was large enough. -/
def Sane : Except Stop A → Prop
  | .error .ub => False
  | .error .fuel => False
  | _ => True

/-- More blocks. -/
def Heap.add (h : Heap F) (g : Nat → Option (Block F)) : Heap F := { h with mem := fun a => (h.mem a).or (g a) }

/-- The other blocks are not among those of the heap, and are not new. -/
def Heap.Beside (h : Heap F) (g : Nat → Option (Block F)) : Prop := ∀ a, g a ≠ none → h.mem a = none ∧ a < h.next

/-- A computation on the heap that does not touch other blocks. -/
def Heap.Frames (m : M (Heap F) A) : Prop :=
  ∀ h g, h.Beside g → Sane (m h).1 → m (h.add g) = ((m h).1, (m h).2.add g) ∧ (m h).2.Beside g

namespace Heap.Frames

theorem pure (a : A) : Heap.Frames (F := F) (Pure.pure a : M (Heap F) A) := fun _ _ hb _ => ⟨rfl, hb⟩

theorem stop (e : Stop) : Heap.Frames (F := F) (M.stop e : M (Heap F) A) := fun _ _ hb _ => ⟨rfl, hb⟩

theorem bind {m : M (Heap F) A} {f : A → M (Heap F) B} (hm : Heap.Frames m) (hf : ∀ a, Heap.Frames (f a)) :
    Heap.Frames (m >>= f) := by
  intro h g hb hs
  simp only [M.bind_def] at hs ⊢
  cases e : m h with
  | mk r h1 =>
    rw [e] at hs
    have hm := hm h g hb
    rw [e] at hm
    cases r with
    | ok a =>
      obtain ⟨h2, h3⟩ := hm trivial
      rw [h2]
      exact hf a h1 g h3 hs
    | error e' =>
      obtain ⟨h2, h3⟩ := hm (by cases e' <;> simp_all [Sane])
      rw [h2]
      exact ⟨rfl, h3⟩

theorem attempt : Heap.Frames (F := F) Heap.attempt := by
  intro h g hb _
  by_cases hp : h.plan h.tick = true
  · have hp' : (h.add g).plan (h.add g).tick = true := hp
    simp only [Heap.attempt, if_pos hp, if_pos hp']
    exact ⟨rfl, hb⟩
  · have hp' : ¬ (h.add g).plan (h.add g).tick = true := hp
    simp only [Heap.attempt, if_neg hp, if_neg hp']
    exact ⟨rfl, hb⟩

theorem attemptIf (b : Bool) : Heap.Frames (F := F) (Heap.attemptIf b) := by
  cases b
  · exact pure ()
  · exact attempt

theorem add_upd {h : Heap F} {g : Nat → Option (Block F)} {a : Nat} (b : Option (Block F)) (hg : g a = none) :
    (fun x => (upd h.mem a b x).or (g x)) = upd (fun x => (h.mem x).or (g x)) a b := by
  funext x
  simp only [upd]
  split
  · next e => subst e; simp [hg]
  · rfl

theorem extend : Heap.Frames (F := F) Heap.extend := by
  intro h g hb _
  have hg : g h.next = none := by
    cases e : g h.next with
    | none => rfl
    | some b => exact absurd (hb h.next (by rw [e]; simp)).2 (Nat.lt_irrefl _)
  refine ⟨?_, fun a ha => ?_⟩
  · simp only [Heap.extend, Heap.add, add_upd _ hg]
  · obtain ⟨h1, h2⟩ := hb a ha
    refine ⟨?_, Nat.lt_succ_of_lt h2⟩
    show upd h.mem h.next _ a = none
    simp only [upd, if_neg (Nat.ne_of_lt h2)]
    exact h1

theorem beside_none {h : Heap F} {g : Nat → Option (Block F)} (hb : h.Beside g) {a : Nat} {b : Block F} (h1 : h.mem a = some b) : g a = none := by
  cases e : g a with
  | none => rfl
  | some b' => rw [(hb a (by rw [e]; simp)).1] at h1; cases h1

theorem replaceBlock {h : Heap F} {g : Nat → Option (Block F)} (hb : h.Beside g) {a : Nat} {b : Block F} (h1 : h.mem a = some b) (o : Option (Block F)) :
    ({ h.add g with mem := upd (h.add g).mem a o } : Heap F) = Heap.add { h with mem := upd h.mem a o } g ∧
      Heap.Beside { h with mem := upd h.mem a o } g := by
  have hg := beside_none hb h1
  refine ⟨?_, fun x hx => ?_⟩
  · simp only [Heap.add, add_upd _ hg]
  · obtain ⟨h2, h3⟩ := hb x hx
    refine ⟨?_, h3⟩
    show upd h.mem a o x = none
    simp only [upd]
    rw [if_neg (fun e => by subst e; exact hx hg)]
    exact h2

theorem add_mem {h : Heap F} {g : Nat → Option (Block F)} {a : Nat} {b : Block F} (h1 : h.mem a = some b) : (h.add g).mem a = some b := by
  simp only [Heap.add, h1, Option.some_or]

theorem put (a : Nat) (b : Block F) : Heap.Frames (Heap.put a b) := by
  intro h g hb hs
  simp only [Heap.put] at hs ⊢
  cases e : h.mem a with
  | none => rw [e] at hs; exact hs.elim
  | some b' =>
    rw [add_mem e]
    obtain ⟨h1, h2⟩ := replaceBlock hb e (some b)
    exact ⟨by simp only [h1], h2⟩

theorem free (a : Nat) : Heap.Frames (F := F) (Heap.free a) := by
  intro h g hb hs
  simp only [Heap.free] at hs ⊢
  cases e : h.mem a with
  | none => rw [e] at hs; exact hs.elim
  | some b' =>
    rw [add_mem e]
    obtain ⟨h1, h2⟩ := replaceBlock hb e none
    exact ⟨by simp only [h1], h2⟩

theorem string (a : Nat) : Heap.Frames (F := F) (Heap.string a) := by
  intro h g hb hs
  simp only [Heap.string] at hs ⊢
  cases e : h.mem a with
  | none => rw [e] at hs; exact hs.elim
  | some b' =>
    rw [e] at hs
    rw [add_mem e]
    cases b' <;> first | exact hs.elim | exact ⟨rfl, hb⟩

theorem vector (a : Nat) : Heap.Frames (F := F) (Heap.vector a) := by
  intro h g hb hs
  simp only [Heap.vector] at hs ⊢
  cases e : h.mem a with
  | none => rw [e] at hs; exact hs.elim
  | some b' =>
    rw [e] at hs
    rw [add_mem e]
    cases b' <;> first | exact hs.elim | exact ⟨rfl, hb⟩

theorem map (a : Nat) : Heap.Frames (F := F) (Heap.map a) := by
  intro h g hb hs
  simp only [Heap.map] at hs ⊢
  cases e : h.mem a with
  | none => rw [e] at hs; exact hs.elim
  | some b' =>
    rw [e] at hs
    rw [add_mem e]
    cases b' <;> first | exact hs.elim | exact ⟨rfl, hb⟩

theorem allocate : Heap.Frames (F := F) Heap.allocate := bind attempt fun _ => extend

theorem each {d : Cell F → M (Heap F) Unit} (hd : ∀ c, Heap.Frames (d c)) : ∀ cs, Heap.Frames (Heap.each d cs)
  | [] => pure ()
  | c :: cs => bind (hd c) fun _ => each hd cs

theorem destroy : ∀ (n : Nat) (c : Cell F), Heap.Frames (Heap.destroy n c) := by
  intro n
  induction n with
  | zero => intro c; cases c <;> unfold Heap.destroy <;> first | exact pure () | exact stop _ | exact bind (string _) fun _ => free _
  | succ n ih =>
    intro c
    cases c <;> unfold Heap.destroy
    · exact pure ()
    · exact pure ()
    · exact pure ()
    · exact pure ()
    · exact bind (string _) fun _ => free _
    · exact bind (vector _) fun _ => bind (each ih _) fun _ => free _
    · exact bind (map _) fun _ => bind (each ih _) fun _ => free _

/-- Undefined behaviour and a bound that is too small are the only ways not to end. -/
def Calm (m : M (Heap F) A) : Prop := ∀ h, (∃ a, (m h).1 = .ok a) ∨ ¬ Sane (m h).1

theorem calm_bind {m : M (Heap F) A} {f : A → M (Heap F) B} (hm : Calm m) (hf : ∀ a, Calm (f a)) : Calm (m >>= f) := by
  intro h
  have := hm h
  cases e' : m h with
  | mk r h1 =>
    rw [e'] at this
    cases r with
    | ok a => rw [M.bind_ok e']; exact hf a h1
    | error e =>
      rw [M.bind_error e']
      rcases this with ⟨_, h2⟩ | h2
      · cases h2
      · right; cases e <;> simp_all [Sane]

theorem calm_each {d : Cell F → M (Heap F) Unit} (hd : ∀ c, Calm (d c)) : ∀ cs, Calm (Heap.each d cs)
  | [] => fun _ => by simp [Heap.each, M.pure_def]
  | c :: cs => calm_bind (hd c) fun _ => calm_each hd cs

theorem calm_free (a : Nat) : Calm (F := F) (Heap.free a) := by
  intro h; simp only [Heap.free]; split <;> simp [Sane]

theorem calm_destroy : ∀ (n : Nat) (c : Cell F), Calm (Heap.destroy n c) := by
  have h0 : Calm (F := F) (Pure.pure ()) := fun _ => by simp [M.pure_def]
  have h1 : ∀ a, Calm (F := F) (Heap.string a) := by intro a h; simp only [Heap.string]; split <;> simp [Sane]
  have h2 : ∀ a, Calm (F := F) (Heap.vector a) := by intro a h; simp only [Heap.vector]; split <;> simp [Sane]
  have h3 : ∀ a, Calm (F := F) (Heap.map a) := by intro a h; simp only [Heap.map]; split <;> simp [Sane]
  have h4 : Calm (F := F) (A := Unit) (M.stop .fuel) := fun _ => by simp [M.stop, Sane]
  intro n
  induction n with
  | zero =>
    intro c
    cases c <;> unfold Heap.destroy
    · exact h0
    · exact h0
    · exact h0
    · exact h0
    · exact calm_bind (h1 _) fun _ => calm_free _
    · exact h4
    · exact h4
  | succ n ih =>
    intro c
    cases c <;> unfold Heap.destroy
    · exact h0
    · exact h0
    · exact h0
    · exact h0
    · exact calm_bind (h1 _) fun _ => calm_free _
    · exact calm_bind (h2 _) fun _ => calm_bind (calm_each ih _) fun _ => calm_free _
    · exact calm_bind (h3 _) fun _ => calm_bind (calm_each ih _) fun _ => calm_free _

theorem unwinding {m : M (Heap F) A} {c : M (Heap F) Unit} (hm : Heap.Frames m) (hc : Heap.Frames c) (hn : Calm c) :
    Heap.Frames (Heap.unwinding m c) := by
  intro h g hb hs
  have hm := hm h g hb
  cases e : m h with
  | mk r h1 =>
    rw [e] at hm
    cases r with
    | ok a =>
      obtain ⟨h2, h3⟩ := hm trivial
      simp only [Heap.unwinding, e, h2]
      exact ⟨trivial, h3⟩
    | error e1 =>
      have hn := hn h1
      have hc := hc h1 g
      cases e2 : c h1 with
      | mk r2 h2 =>
        rw [e2] at hn hc
        simp only [Heap.unwinding, e, e2] at hs
        cases r2 with
        | ok a =>
          obtain ⟨k1, k2⟩ := hm (by cases e1 <;> simp_all [Sane])
          obtain ⟨k3, k4⟩ := hc k2 trivial
          simp only [Heap.unwinding, e, e2, k1, k3]
          exact ⟨trivial, k4⟩
        | error e3 =>
          rcases hn with ⟨_, h⟩ | h
          · cases h
          · exact (h (by cases e3 <;> simp_all [Sane])).elim

theorem copyAll {f : Cell F → M (Heap F) (Cell F)} {d : Cell F → M (Heap F) Unit} (hf : ∀ c, Heap.Frames (f c)) (hd : ∀ c, Heap.Frames (d c))
    (hn : ∀ c, Calm (d c)) : ∀ cs, Heap.Frames (Heap.copyAll f d cs)
  | [] => pure []
  | c :: cs => bind attempt fun _ => bind (hf c) fun _ => bind (unwinding (copyAll hf hd hn cs) (hd _) (hn _)) fun _ => pure _

theorem copy : ∀ (n : Nat) (c : Cell F), Heap.Frames (Heap.copy n c) := by
  intro n
  induction n with
  | zero =>
    intro c
    cases c <;> unfold Heap.copy
    · exact pure _
    · exact pure _
    · exact pure _
    · exact pure _
    · exact bind (string _) fun _ => bind allocate fun _ => bind attempt fun _ => bind (put _ _) fun _ => pure _
    · exact stop _
    · exact stop _
  | succ n ih =>
    intro c
    cases c <;> unfold Heap.copy
    · exact pure _
    · exact pure _
    · exact pure _
    · exact pure _
    · exact bind (string _) fun _ => bind allocate fun _ => bind attempt fun _ => bind (put _ _) fun _ => pure _
    · exact bind (vector _) fun _ => bind allocate fun _ => bind attempt fun _ =>
        bind (copyAll ih (destroy n) (calm_destroy n) _) fun _ => bind (put _ _) fun _ => pure _
    · exact bind (map _) fun _ => bind allocate fun _ => bind attempt fun _ =>
        bind (copyAll ih (destroy n) (calm_destroy n) _) fun _ => bind (put _ _) fun _ => pure _

theorem create (b : Block F) : Heap.Frames (Heap.create b) :=
  bind allocate fun _ => bind attempt fun _ => bind (put _ _) fun _ => pure _

end Heap.Frames

/-- More blocks and variables. -/
def State.add (s : State F) (g : Nat → Option (Block F)) (gv : Var → Option (Cell F)) : State F where
  heap := s.heap.add g
  vars := fun x => (s.vars x).or (gv x)

/-- The other variables are not among those of the state. -/
def State.Beside (s : State F) (g : Nat → Option (Block F)) (gv : Var → Option (Cell F)) : Prop :=
  s.heap.Beside g ∧ ∀ x, gv x ≠ none → s.vars x = none

/-- A computation that does not touch other blocks, nor other variables except those of `W`, which it may declare. -/
def State.Frames (W : Var → Prop) (m : M (State F) A) : Prop :=
  ∀ s g gv, s.Beside g gv → (∀ x, W x → gv x = none) → Sane (m s).1 →
    m (s.add g gv) = ((m s).1, (m s).2.add g gv) ∧ (m s).2.Beside g gv

namespace State.Frames

variable {W : Var → Prop}

theorem pure (a : A) : State.Frames (F := F) W (Pure.pure a : M (State F) A) := fun _ _ _ hb _ _ => ⟨rfl, hb⟩

theorem stop (e : Stop) : State.Frames (F := F) W (M.stop e : M (State F) A) := fun _ _ _ hb _ _ => ⟨rfl, hb⟩

theorem throw (e : Err) : State.Frames (F := F) W (M.throw e : M (State F) A) := fun _ _ _ hb _ _ => ⟨rfl, hb⟩

theorem bind {m : M (State F) A} {f : A → M (State F) B} (hm : State.Frames W m) (hf : ∀ a, State.Frames W (f a)) :
    State.Frames W (m >>= f) := by
  intro s g gv hb hw hs
  have hm := hm s g gv hb hw
  cases e : m s with
  | mk r s1 =>
    rw [e] at hm
    cases r with
    | ok a =>
      obtain ⟨h2, h3⟩ := hm trivial
      rw [M.bind_ok e] at hs ⊢
      rw [M.bind_ok h2]
      exact hf a s1 g gv h3 hw hs
    | error e' =>
      rw [M.bind_error e] at hs ⊢
      obtain ⟨h2, h3⟩ := hm (by cases e' <;> simp_all [Sane])
      rw [M.bind_error h2]
      exact ⟨rfl, h3⟩

theorem depth : State.Frames (F := F) W (M.gets State.depth) := fun _ _ _ hb _ _ => ⟨rfl, hb⟩

theorem onHeap {m : M (Heap F) A} (hm : Heap.Frames m) : State.Frames W (State.onHeap m) := by
  intro s g gv hb _ hs
  obtain ⟨h1, h2⟩ := hm s.heap g hb.1 hs
  refine ⟨?_, h2, hb.2⟩
  simp only [State.onHeap, State.add, h1]

theorem read (l : Loc) : State.Frames (F := F) W (State.read l) := by
  intro s g gv hb _ hs
  cases l with
  | var x =>
    simp only [State.read] at hs
    cases e : s.vars x with
    | none => rw [e] at hs; exact hs.elim
    | some c =>
      have e' : (s.add g gv).vars x = some c := by simp [State.add, e]
      simp only [State.read, e, e']
      exact ⟨trivial, hb⟩
  | slot a i =>
    simp only [State.read] at hs
    cases e : s.heap.mem a with
    | none => rw [e] at hs; exact hs.elim
    | some b =>
      rw [e] at hs
      simp only at hs
      have e' : (s.add g gv).heap.mem a = some b := Heap.Frames.add_mem e
      cases e2 : b.cells[i]? with
      | none => rw [e2] at hs; exact hs.elim
      | some c =>
        simp only [State.read, e, e', e2]
        exact ⟨trivial, hb⟩

theorem add_vars {s : State F} {gv : Var → Option (Cell F)} {x : Var} (o : Option (Cell F)) (hg : gv x = none) :
    (fun y => (upd s.vars x o y).or (gv y)) = upd (fun y => (s.vars y).or (gv y)) x o := by
  funext y
  simp only [upd]
  split
  · next e => subst e; simp [hg]
  · rfl

theorem setVar {s : State F} {g} {gv : Var → Option (Cell F)} (hb : s.Beside g gv) {x : Var} (hg : gv x = none) (o : Option (Cell F)) :
    ({ s.add g gv with vars := upd (s.add g gv).vars x o } : State F) = State.add { s with vars := upd s.vars x o } g gv ∧
      State.Beside { s with vars := upd s.vars x o } g gv := by
  refine ⟨?_, hb.1, fun y hy => ?_⟩
  · simp only [State.add, add_vars _ hg]
  · show upd s.vars x o y = none
    simp only [upd]
    rw [if_neg (fun e => by subst e; exact hy hg)]
    exact hb.2 y hy

theorem beside_none {s : State F} {g} {gv : Var → Option (Cell F)} (hb : s.Beside g gv) {x : Var} {c : Cell F} (h : s.vars x = some c) : gv x = none := by
  cases e : gv x with
  | none => rfl
  | some d => rw [hb.2 x (by rw [e]; simp)] at h; cases h

theorem write (l : Loc) (c : Cell F) : State.Frames W (State.write l c) := by
  intro s g gv hb _ hs
  cases l with
  | var x =>
    simp only [State.write] at hs
    cases e : s.vars x with
    | none => rw [e] at hs; exact hs.elim
    | some d =>
      have e' : (s.add g gv).vars x = some d := by simp [State.add, e]
      obtain ⟨h1, h2⟩ := setVar hb (beside_none hb e) (some c)
      simp only [State.write, e, e', h1]
      exact ⟨trivial, h2⟩
  | slot a i =>
    simp only [State.write] at hs
    cases e : s.heap.mem a with
    | none => rw [e] at hs; exact hs.elim
    | some b =>
      rw [e] at hs
      simp only at hs
      have e' : (s.add g gv).heap.mem a = some b := Heap.Frames.add_mem e
      by_cases hi : i < b.cells.length
      · obtain ⟨h1, h2⟩ := Heap.Frames.replaceBlock hb.1 e (some (b.withCells (b.cells.set i c)))
        simp only [State.write, e, e', if_pos hi]
        refine ⟨?_, h2, hb.2⟩
        simp only [State.add] at h1 ⊢
        rw [h1]
      · rw [if_neg hi] at hs; exact hs.elim

theorem declare {x : Var} (hx : W x) (c : Cell F) : State.Frames W (State.declare x c) := by
  intro s g gv hb hw _
  obtain ⟨h1, h2⟩ := setVar hb (hw x hx) (some c)
  simp only [State.declare, h1]
  exact ⟨trivial, h2⟩

theorem forget {x : Var} (hx : W x) : State.Frames (F := F) W (State.forget x) := by
  intro s g gv hb hw _
  obtain ⟨h1, h2⟩ := setVar hb (hw x hx) none
  simp only [State.forget, h1]
  exact ⟨trivial, h2⟩

theorem destruct {x : Var} (hx : W x) : State.Frames (F := F) W (State.destruct x) :=
  bind (read _) fun _ => bind depth fun _ => bind (onHeap (Heap.Frames.destroy _ _)) fun _ => forget hx

theorem construct {x : Var} (hx : W x) (v : Value F) : State.Frames W (State.construct x v) := by
  cases v <;> unfold State.construct
  · exact declare hx _
  · exact declare hx _
  · exact declare hx _
  · exact declare hx _
  · exact bind (onHeap (Heap.Frames.create _)) fun _ => declare hx _
  · exact bind (onHeap (Heap.Frames.create _)) fun _ => declare hx _
  · exact bind (onHeap (Heap.Frames.create _)) fun _ => declare hx _

theorem copyConstruct {x : Var} (hx : W x) (l : Loc) : State.Frames (F := F) W (State.copyConstruct x l) :=
  bind (read _) fun _ => bind depth fun _ => bind (onHeap (Heap.Frames.copy _ _)) fun _ => declare hx _

theorem moveConstruct {x : Var} (hx : W x) (l : Loc) : State.Frames (F := F) W (State.moveConstruct x l) :=
  bind (read _) fun _ => bind (declare hx _) fun _ => write _ _

theorem swap (l r : Loc) : State.Frames (F := F) W (State.swap l r) :=
  bind (read _) fun _ => bind (read _) fun _ => bind (write _ _) fun _ => write _ _

theorem copyAssign (ht : W .tmp) (l r : Loc) : State.Frames (F := F) W (State.copyAssign l r) := by
  unfold State.copyAssign
  split
  · exact pure ()
  · exact bind (copyConstruct ht _) fun _ => bind (swap _ _) fun _ => destruct ht

theorem moveAssign (ht : W .tmp) (l r : Loc) : State.Frames (F := F) W (State.moveAssign l r) := by
  unfold State.moveAssign
  split
  · exact pure ()
  · exact bind (moveConstruct ht _) fun _ => bind (swap _ _) fun _ => destruct ht

theorem become (ht : W .tmp) (ha : W .arg) (l : Loc) (v : Value F) : State.Frames W (State.become l v) :=
  bind (construct ha v) fun _ => bind (moveAssign ht _ _) fun _ => destruct ha

theorem fill (ht : W .tmp) (ha : W .arg) (l : Loc) (v : Value F) : State.Frames W (State.fill l v) := by
  refine bind (read _) fun c => ?_
  cases c <;> first | exact become ht ha _ _ | exact pure ()

theorem asArray (ht : W .tmp) (ha : W .arg) (e : Err) (l : Loc) : State.Frames (F := F) W (State.asArray e l) := by
  refine bind (fill ht ha _ _) fun _ => bind (read _) fun c => ?_
  cases c <;> first | exact pure _ | exact throw _

theorem asObject (ht : W .tmp) (ha : W .arg) (e : Err) (l : Loc) : State.Frames (F := F) W (State.asObject e l) := by
  refine bind (fill ht ha _ _) fun _ => bind (read _) fun c => ?_
  cases c <;> first | exact pure _ | exact throw _

theorem pushBack (ht : W .tmp) (ha : W .arg) (l r : Loc) : State.Frames (F := F) W (State.pushBack l r) :=
  bind (asArray ht ha _ _) fun _ => bind (onHeap Heap.Frames.attempt) fun _ => bind (read _) fun _ => bind depth fun _ =>
    bind (onHeap (Heap.Frames.copy _ _)) fun _ => bind (onHeap (Heap.Frames.vector _)) fun _ => onHeap (Heap.Frames.put _ _)

theorem pushMove (ht : W .tmp) (ha : W .arg) (l r : Loc) : State.Frames (F := F) W (State.pushMove l r) :=
  bind (asArray ht ha _ _) fun _ => bind (onHeap Heap.Frames.attempt) fun _ => bind (read _) fun _ => bind (write _ _) fun _ =>
    bind (onHeap (Heap.Frames.vector _)) fun _ => onHeap (Heap.Frames.put _ _)

theorem touchKey (ht : W .tmp) (ha : W .arg) (l : Loc) (k : List Nat) : State.Frames (F := F) W (State.touchKey l k) :=
  bind (asObject ht ha _ _) fun _ => bind (onHeap (Heap.Frames.map _)) fun _ => bind (onHeap (Heap.Frames.attemptIf _)) fun _ =>
    onHeap (Heap.Frames.put _ _)

theorem touchIndex (ht : W .tmp) (ha : W .arg) (l : Loc) (i : Nat) : State.Frames (F := F) W (State.touchIndex l i) :=
  bind (asArray ht ha _ _) fun _ => bind (onHeap (Heap.Frames.vector _)) fun _ => bind (onHeap (Heap.Frames.attemptIf _)) fun _ =>
    onHeap (Heap.Frames.put _ _)

theorem clear (zero : F) (l : Loc) : State.Frames W (State.clear zero l) := by
  refine bind depth fun _ => bind (read _) fun c => ?_
  cases c
  · exact pure ()
  · exact write _ _
  · exact write _ _
  · exact write _ _
  · exact bind (onHeap (Heap.Frames.string _)) fun _ => onHeap (Heap.Frames.put _ _)
  · exact bind (onHeap (Heap.Frames.vector _)) fun _ => bind (onHeap (Heap.Frames.each (Heap.Frames.destroy _) _)) fun _ => onHeap (Heap.Frames.put _ _)
  · exact bind (onHeap (Heap.Frames.map _)) fun _ => bind (onHeap (Heap.Frames.each (Heap.Frames.destroy _) _)) fun _ => onHeap (Heap.Frames.put _ _)

theorem eraseAt (l : Loc) (i : Nat) : State.Frames (F := F) W (State.eraseAt l i) := by
  refine bind depth fun _ => bind (read _) fun c => ?_
  cases c
  case arr a =>
    refine bind (onHeap (Heap.Frames.vector _)) fun cs => ?_
    cases cs[i]? with
    | none => exact stop _
    | some c => exact bind (onHeap (Heap.Frames.destroy _ _)) fun _ => onHeap (Heap.Frames.put _ _)
  case obj a =>
    refine bind (onHeap (Heap.Frames.map _)) fun ms => ?_
    cases ms[i]? with
    | none => exact stop _
    | some c => exact bind (onHeap (Heap.Frames.destroy _ _)) fun _ => onHeap (Heap.Frames.put _ _)
  all_goals exact throw _

theorem locate : ∀ (p : List Nat) (l : Loc) (c : Cell F), State.Frames W (State.locate l c p)
  | [], _, _ => pure _
  | i :: p, l, c => by
    unfold State.locate
    cases c <;> first | exact bind (pure _) fun _ => bind (read _) fun _ => locate p _ _ | exact bind (throw _) fun _ => bind (read _) fun _ => locate p _ _

theorem ref (x : Var) (p : List Nat) : State.Frames (F := F) W (State.ref x p) := bind (read _) fun _ => locate p _ _

end State.Frames

/-- A command touches nothing but the variables it names and the local ones. -/
theorem Cmd.frames (fo : FloatOps F) (c : Cmd F) :
    State.Frames (fun x => x = .tmp ∨ x = .arg ∨ ∃ n ∈ c.vars, x = .user n) (c.run fo) := by
  cases c <;> simp only [Cmd.run]
  · exact .construct (.inr (.inr ⟨_, by simp [Cmd.vars], rfl⟩)) _
  · exact .bind (.ref _ _) fun _ => .copyConstruct (.inr (.inr ⟨_, by simp [Cmd.vars], rfl⟩)) _
  · exact .bind (.ref _ _) fun _ => .moveConstruct (.inr (.inr ⟨_, by simp [Cmd.vars], rfl⟩)) _
  · exact .destruct (.inr (.inr ⟨_, by simp [Cmd.vars], rfl⟩))
  · exact .bind (.ref _ _) fun _ => .bind (.ref _ _) fun _ => .copyAssign (.inl rfl) _ _
  · exact .bind (.ref _ _) fun _ => .bind (.ref _ _) fun _ => .moveAssign (.inl rfl) _ _
  · exact .bind (.ref _ _) fun _ => .bind (.ref _ _) fun _ => .swap _ _
  · exact .bind (.ref _ _) fun _ => .clear _ _
  · exact .bind (.ref _ _) fun _ => .bind (.ref _ _) fun _ => .pushBack (.inl rfl) (.inr (.inl rfl)) _ _
  · exact .bind (.ref _ _) fun _ => .bind (.ref _ _) fun _ => .pushMove (.inl rfl) (.inr (.inl rfl)) _ _
  · exact .bind (.ref _ _) fun _ => .touchKey (.inl rfl) (.inr (.inl rfl)) _ _
  · exact .bind (.ref _ _) fun _ => .touchIndex (.inl rfl) (.inr (.inl rfl)) _ _
  · exact .bind (.ref _ _) fun _ => .eraseAt _ _

end Configor
