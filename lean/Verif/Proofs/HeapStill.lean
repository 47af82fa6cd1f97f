import Verif.Proofs.HeapHist
/-!
# Commands that allocate nothing
-/
namespace Spec
open Configor

variable {F : Type}

/-- No attempt to allocate is made. -/
def StillH {A : Type} (m : M (Heap F) A) : Prop := ∀ h, (m h).2.tick = h.tick

/-- No attempt to allocate is made. -/
def Still {A : Type} (m : M (State F) A) : Prop := ∀ s, (m s).2.heap.tick = s.heap.tick

theorem StillH.bind {A B : Type} {m : M (Heap F) A} {f : A → M (Heap F) B} (h1 : StillH m) (h2 : ∀ a, StillH (f a)) : StillH (m >>= f) := by
  intro h
  have k := h1 h
  rw [M.bind_def]
  rcases e : m h with ⟨_ | a, h'⟩
  · rw [e] at k; exact k
  · rw [e] at k
    exact (h2 a h').trans k

theorem Still.bind {A B : Type} {m : M (State F) A} {f : A → M (State F) B} (h1 : Still m) (h2 : ∀ a, Still (f a)) : Still (m >>= f) := by
  intro h
  have k := h1 h
  rw [M.bind_def]
  rcases e : m h with ⟨_ | a, h'⟩
  · rw [e] at k; exact k
  · rw [e] at k
    exact (h2 a h').trans k

theorem StillH.pure {A : Type} (a : A) : StillH (F := F) (Pure.pure a) := fun _ => rfl
theorem Still.pure {A : Type} (a : A) : Still (F := F) (Pure.pure a) := fun _ => rfl

theorem StillH.put (a : Nat) (b : Block F) : StillH (Heap.put a b) := by
  intro h; simp only [Heap.put]; split <;> rfl
theorem StillH.free (a : Nat) : StillH (F := F) (Heap.free a) := by
  intro h; simp only [Heap.free]; split <;> rfl
theorem StillH.string (a : Nat) : StillH (F := F) (Heap.string a) := by
  intro h; simp only [Heap.string]; split <;> rfl
theorem StillH.vector (a : Nat) : StillH (F := F) (Heap.vector a) := by
  intro h; simp only [Heap.vector]; split <;> rfl
theorem StillH.map (a : Nat) : StillH (F := F) (Heap.map a) := by
  intro h; simp only [Heap.map]; split <;> rfl

theorem StillH.each {d : Cell F → M (Heap F) Unit} (h : ∀ c, StillH (d c)) : ∀ cs, StillH (Heap.each d cs)
  | [] => .pure ()
  | c :: cs => .bind (h c) fun _ => StillH.each h cs

theorem StillH.destroy : ∀ (n : Nat) (c : Cell F), StillH (Heap.destroy n c) := by
  intro n
  induction n with
  | zero =>
    intro c
    cases c <;> simp only [Heap.destroy]
    case str => exact .bind (.string _) fun _ => .free _
    all_goals exact fun _ => rfl
  | succ n ih =>
    intro c
    cases c <;> simp only [Heap.destroy]
    case str => exact .bind (.string _) fun _ => .free _
    case arr => exact .bind (.vector _) fun _ => .bind (.each ih _) fun _ => .free _
    case obj => exact .bind (.map _) fun _ => .bind (.each ih _) fun _ => .free _
    all_goals exact fun _ => rfl

theorem Still.onHeap {A : Type} {m : M (Heap F) A} (h : StillH m) : Still (State.onHeap m) := by
  intro s
  exact h s.heap

theorem Still.read (l : Loc) : Still (F := F) (State.read l) := by
  intro s
  simp only [State.read]
  cases l with
  | var x => simp only; split <;> rfl
  | slot a i =>
    simp only
    split
    · split <;> rfl
    · rfl

theorem Still.write (l : Loc) (c : Cell F) : Still (State.write l c) := by
  intro s
  simp only [State.write]
  cases l with
  | var x => simp only; split <;> rfl
  | slot a i =>
    simp only
    split
    · split <;> rfl
    · rfl

theorem Still.gets {A : Type} (f : State F → A) : Still (M.gets f) := fun _ => rfl

theorem Still.destruct (x : Var) : Still (F := F) (State.destruct x) :=
  .bind (.read _) fun _ => .bind (.gets _) fun _ => .bind (.onHeap (.destroy _ _)) fun _ => fun _ => rfl

theorem Still.moveConstruct (x : Var) (l : Loc) : Still (F := F) (State.moveConstruct x l) :=
  .bind (.read _) fun _ => .bind (fun _ => rfl) fun _ => .write _ _

theorem Still.swap (l r : Loc) : Still (F := F) (State.swap l r) :=
  .bind (.read _) fun _ => .bind (.read _) fun _ => .bind (.write _ _) fun _ => .write _ _

theorem Still.moveAssign (l r : Loc) : Still (F := F) (State.moveAssign l r) := by
  simp only [State.moveAssign]
  split
  · exact .pure ()
  · exact .bind (.moveConstruct _ _) fun _ => .bind (.swap _ _) fun _ => .destruct _

theorem Still.clear (z : F) (l : Loc) : Still (State.clear z l) := by
  refine .bind (.gets _) fun n => .bind (.read _) fun c => ?_
  cases c <;> simp only
  case str => exact .bind (.onHeap (.string _)) fun _ => .onHeap (.put _ _)
  case arr => exact .bind (.onHeap (.vector _)) fun _ => .bind (.onHeap (.each (fun _ => .destroy _ _) _)) fun _ => .onHeap (.put _ _)
  case obj => exact .bind (.onHeap (.map _)) fun _ => .bind (.onHeap (.each (fun _ => .destroy _ _) _)) fun _ => .onHeap (.put _ _)
  case null => exact .pure ()
  all_goals exact .write _ _

theorem Still.eraseAt (l : Loc) (i : Nat) : Still (F := F) (State.eraseAt l i) := by
  refine .bind (.gets _) fun n => .bind (.read _) fun c => ?_
  cases c <;> simp only
  case arr =>
    refine .bind (.onHeap (.vector _)) fun cs => ?_
    split
    · exact .bind (.onHeap (.destroy _ _)) fun _ => .onHeap (.put _ _)
    · exact fun _ => rfl
  case obj =>
    refine .bind (.onHeap (.map _)) fun cs => ?_
    split
    · exact .bind (.onHeap (.destroy _ _)) fun _ => .onHeap (.put _ _)
    · exact fun _ => rfl
  all_goals exact fun _ => rfl

theorem Still.locate : ∀ (p : List Nat) (l : Loc) (c : Cell F), Still (State.locate l c p)
  | [], _, _ => .pure _
  | i :: p, l, c => by
    simp only [State.locate]
    split
    · exact .bind (.pure _) fun a => .bind (.read _) fun _ => Still.locate p _ _
    · exact .bind (.pure _) fun a => .bind (.read _) fun _ => Still.locate p _ _
    · exact fun _ => rfl

theorem Still.ref (x : Var) (p : List Nat) : Still (F := F) (State.ref x p) :=
  .bind (.read _) fun _ => .locate _ _ _

theorem Cmd.still (fo : FloatOps F) (c : Cmd F) (h : c.AllocatesNothing) : Still (c.run fo) := by
  cases c <;> simp only [Cmd.AllocatesNothing] at h <;> simp only [Cmd.run]
  · exact .bind (.ref _ _) fun _ => .moveConstruct _ _
  · exact .destruct _
  · exact .bind (.ref _ _) fun _ => .bind (.ref _ _) fun _ => .moveAssign _ _
  · exact .bind (.ref _ _) fun _ => .bind (.ref _ _) fun _ => .swap _ _
  · exact .bind (.ref _ _) fun _ => .clear _ _
  · exact .bind (.ref _ _) fun _ => .eraseAt _ _

/-- Commands that allocate nothing are done. -/
theorem Reach.run_still {fo : FloatOps F} {s : State F} (h : Reach fo s) {E : Env F} (hE : Shows s E) {c : Cmd F} (hc : c.Allowed E)
    (hn : c.AllocatesNothing) : ∃ s', c.run fo s = (.ok (), s') ∧ Shows s' (c.meaning fo E) := by
  rcases h.run hE hc with ⟨s', e, k, _⟩ | ⟨s', E', e, _, _, t, t1, t2, _⟩
  · exact ⟨s', e, k⟩
  · have := Cmd.still fo c hn s
    rw [e] at this
    simp only at this
    omega

end Spec
