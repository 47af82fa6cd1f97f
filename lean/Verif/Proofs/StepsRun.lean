import Verif.Spec.Steps
/-!
# Without interruption, the steps of an operation are the operation
-/
set_option autoImplicit false
namespace Configor
open Spec

variable {F A B : Type} {σ : Type}

namespace Prog

@[simp] theorem run_pure (a : A) : run (Pure.pure a : Prog σ A) = (Pure.pure a : M σ A) := rfl

@[simp] theorem run_stop (e : Stop) : run (stop e : Prog σ A) = (M.stop e : M σ A) := rfl

@[simp] theorem run_act (m : M σ A) : run (act m) = m := by
  funext s; simp only [act, run]

theorem run_bind (p : Prog σ A) (f : A → Prog σ B) : run (p >>= f) = run p >>= fun a => run (f a) := by
  show run (bind p f) = _
  induction p with
  | done r => cases r <;> rfl
  | step m k ih =>
    funext s
    simp only [bind, run, ih, M.bind_def]
    rfl

theorem run_unwinding (p : Prog (State F) A) (c : Prog (State F) Unit) (m : M (Heap F) A) (d : M (Heap F) Unit)
    (hp : run p = State.onHeap m) (hc : run c = State.onHeap d) : run (unwinding p c) = State.onHeap (Heap.unwinding m d) := by
  have key : ∀ p : Prog (State F) A, run (unwinding p c) = fun s =>
      match run p s with
      | (.ok a, s) => (.ok a, s)
      | (.error e, s) =>
        match run c s with
        | (.ok _, s) => (.error e, s)
        | (.error e', s) => (.error e', s) := by
    intro p
    induction p with
    | done r =>
      cases r with
      | ok a => rfl
      | error e =>
        funext s
        show run (c >>= fun _ => Prog.done (.error e)) s = _
        rw [run_bind]
        rw [M.bind_def]
        show _ = match run c s with | (.ok _, s) => (Except.error e, s) | (.error e', s) => (Except.error e', s)
        rcases run c s with ⟨_ | _, _⟩ <;> rfl
    | step m k ih =>
      funext s
      simp only [unwinding, run, ih]
  rw [key, hp, hc]
  funext s
  simp only [State.onHeap, Heap.unwinding]
  cases e : m s.heap with
  | mk r h =>
    cases r with
    | ok a => rfl
    | error e1 =>
      simp only
      cases e2 : d h with
      | mk r2 h2 => cases r2 <;> rfl

end Prog

theorem onHeap_bind (m : M (Heap F) A) (f : A → M (Heap F) B) :
    State.onHeap (m >>= f) = State.onHeap m >>= fun a => State.onHeap (f a) := by
  funext s
  simp only [State.onHeap, M.bind_def]
  cases e : m s.heap with
  | mk r h => cases r <;> rfl

theorem onHeap_pure (a : A) : State.onHeap (Pure.pure a : M (Heap F) A) = Pure.pure a := rfl

theorem onHeap_stop (e : Stop) : State.onHeap (M.stop e : M (Heap F) A) = M.stop e := rfl

namespace Steps
open Prog

theorem run_heap (m : M (Heap F) A) : run (heap m) = State.onHeap m := run_act _

theorem run_allocate : run (allocate (F := F)) = State.onHeap Heap.allocate := by
  simp only [allocate, Heap.allocate, run_bind, run_heap, onHeap_bind]

theorem run_attemptIf (b : Bool) : run (attemptIf (F := F) b) = State.onHeap (Heap.attemptIf b) := by
  cases b
  · rfl
  · exact run_heap _

theorem run_each (d : Cell F → Prog (State F) Unit) (d' : Cell F → M (Heap F) Unit) (h : ∀ c, run (d c) = State.onHeap (d' c)) :
    ∀ cs, run (each d cs) = State.onHeap (Heap.each d' cs)
  | [] => rfl
  | c :: cs => by simp only [each, Heap.each, run_bind, onHeap_bind, h, run_each d d' h cs]

theorem run_destroy : ∀ (n : Nat) (c : Cell F), run (destroy n c) = State.onHeap (Heap.destroy n c) := by
  intro n
  induction n with
  | zero => intro c; cases c <;> simp only [destroy, Heap.destroy, run_bind, run_heap, onHeap_bind, run_pure, run_stop, onHeap_pure, onHeap_stop]
  | succ n ih =>
    intro c
    cases c <;> simp only [destroy, Heap.destroy, run_bind, run_heap, onHeap_bind, run_pure, onHeap_pure, run_each _ _ ih]

theorem run_copyAll (f : Cell F → Prog (State F) (Cell F)) (f' : Cell F → M (Heap F) (Cell F)) (hf : ∀ c, run (f c) = State.onHeap (f' c))
    (d : Cell F → Prog (State F) Unit) (d' : Cell F → M (Heap F) Unit) (hd : ∀ c, run (d c) = State.onHeap (d' c)) :
    ∀ cs, run (copyAll f d cs) = State.onHeap (Heap.copyAll f' d' cs)
  | [] => rfl
  | c :: cs => by
    simp only [copyAll, Heap.copyAll, run_bind, onHeap_bind, run_heap, hf, run_pure, onHeap_pure]
    simp only [run_unwinding _ _ _ _ (run_copyAll f f' hf d d' hd cs) (hd _)]

theorem run_copy : ∀ (n : Nat) (c : Cell F), run (copy n c) = State.onHeap (Heap.copy n c) := by
  intro n
  induction n with
  | zero => intro c; cases c <;> simp only [copy, Heap.copy, run_bind, run_heap, onHeap_bind, run_pure, run_stop, onHeap_pure, onHeap_stop, run_allocate]
  | succ n ih =>
    intro c
    cases c <;> simp only [copy, Heap.copy, run_bind, run_heap, onHeap_bind, run_pure, onHeap_pure, run_allocate,
      run_copyAll _ _ ih _ _ (run_destroy n)]

theorem run_create (b : Block F) : run (create b) = State.onHeap (Heap.create b) := by
  simp only [create, Heap.create, run_bind, run_heap, onHeap_bind, run_pure, onHeap_pure, run_allocate]

theorem run_read (l : Loc) : run (read (F := F) l) = State.read l := run_act _
theorem run_write (l : Loc) (c : Cell F) : run (write l c) = State.write l c := run_act _
theorem run_declare (x : Var) (c : Cell F) : run (declare x c) = State.declare x c := run_act _
theorem run_forget (x : Var) : run (forget (F := F) x) = State.forget x := run_act _
theorem run_depth : run (depth (F := F)) = M.gets State.depth := run_act _

theorem run_destruct (x : Var) : run (destruct (F := F) x) = State.destruct x := by
  simp only [destruct, State.destruct, run_bind, run_read, run_depth, run_destroy, run_forget]

theorem run_construct (x : Var) (v : Value F) : run (construct x v) = State.construct x v := by
  cases v <;> simp only [construct, State.construct, run_bind, run_create, run_declare]

theorem run_copyConstruct (x : Var) (l : Loc) : run (copyConstruct (F := F) x l) = State.copyConstruct x l := by
  simp only [copyConstruct, State.copyConstruct, run_bind, run_read, run_depth, run_copy, run_declare]

theorem run_moveConstruct (x : Var) (l : Loc) : run (moveConstruct (F := F) x l) = State.moveConstruct x l := by
  simp only [moveConstruct, State.moveConstruct, run_bind, run_read, run_write, run_declare]

theorem run_swap (l r : Loc) : run (swap (F := F) l r) = State.swap l r := by
  simp only [swap, State.swap, run_bind, run_read, run_write]

theorem run_copyAssign (l r : Loc) : run (copyAssign (F := F) l r) = State.copyAssign l r := by
  simp only [copyAssign, State.copyAssign]
  split
  · rfl
  · simp only [run_bind, run_copyConstruct, run_swap, run_destruct]

theorem run_moveAssign (l r : Loc) : run (moveAssign (F := F) l r) = State.moveAssign l r := by
  simp only [moveAssign, State.moveAssign]
  split
  · rfl
  · simp only [run_bind, run_moveConstruct, run_swap, run_destruct]

theorem run_become (l : Loc) (v : Value F) : run (become l v) = State.become l v := by
  simp only [become, State.become, run_bind, run_construct, run_moveAssign, run_destruct]

theorem run_fill (l : Loc) (v : Value F) : run (fill l v) = State.fill l v := by
  simp only [fill, State.fill, run_bind, run_read]
  congr 1; funext c
  cases c <;> first | exact run_become _ _ | rfl

theorem run_asArray (e : Err) (l : Loc) : run (asArray (F := F) e l) = State.asArray e l := by
  simp only [asArray, State.asArray, run_bind, run_read, run_fill]
  congr 1; funext _; congr 1; funext c
  cases c <;> rfl

theorem run_asObject (e : Err) (l : Loc) : run (asObject (F := F) e l) = State.asObject e l := by
  simp only [asObject, State.asObject, run_bind, run_read, run_fill]
  congr 1; funext _; congr 1; funext c
  cases c <;> rfl

theorem run_pushBack (l r : Loc) : run (pushBack (F := F) l r) = State.pushBack l r := by
  simp only [pushBack, State.pushBack, run_bind, run_read, run_asArray, run_heap, run_depth, run_copy]

theorem run_pushMove (l r : Loc) : run (pushMove (F := F) l r) = State.pushMove l r := by
  simp only [pushMove, State.pushMove, run_bind, run_read, run_asArray, run_heap, run_write]

theorem run_touchKey (l : Loc) (k : List Nat) : run (touchKey (F := F) l k) = State.touchKey l k := by
  simp only [touchKey, State.touchKey, run_bind, run_asObject, run_heap, run_attemptIf]

theorem run_touchIndex (l : Loc) (i : Nat) : run (touchIndex (F := F) l i) = State.touchIndex l i := by
  simp only [touchIndex, State.touchIndex, run_bind, run_asArray, run_heap, run_attemptIf]

theorem run_clear (zero : F) (l : Loc) : run (clear zero l) = State.clear zero l := by
  simp only [clear, State.clear, run_bind, run_depth, run_read]
  congr 1; funext n; congr 1; funext c
  cases c <;> simp only [run_pure, run_write, run_bind, run_heap, run_each _ _ (run_destroy n)]

theorem run_eraseAt (l : Loc) (i : Nat) : run (eraseAt (F := F) l i) = State.eraseAt l i := by
  simp only [eraseAt, State.eraseAt, run_bind, run_depth, run_read]
  congr 1; funext n; congr 1; funext c
  cases c <;> try rfl
  · simp only [run_bind, run_heap]
    congr 1; funext cs
    cases cs[i]? <;> simp only [run_stop, run_bind, run_heap, run_destroy]
  · simp only [run_bind, run_heap]
    congr 1; funext cs
    cases cs[i]? <;> simp only [run_stop, run_bind, run_heap, run_destroy]

theorem run_locate : ∀ (p : List Nat) (l : Loc) (c : Cell F), run (locate l c p) = State.locate l c p
  | [], _, _ => rfl
  | i :: p, l, c => by
    cases c <;> simp only [locate, State.locate, run_bind, run_read, run_locate p, run_pure, run_stop] <;> rfl

theorem run_ref (x : Var) (p : List Nat) : run (ref (F := F) x p) = State.ref x p := by
  simp only [ref, State.ref, run_bind, run_read, run_locate]

end Steps

theorem Cmd.run_steps (fo : FloatOps F) (c : Cmd F) : (Cmd.steps fo c).run = c.run fo := by
  cases c <;> simp only [Cmd.steps, Cmd.run, Prog.run_bind, Steps.run_ref, Steps.run_construct, Steps.run_copyConstruct,
    Steps.run_moveConstruct, Steps.run_destruct, Steps.run_copyAssign, Steps.run_moveAssign, Steps.run_swap, Steps.run_clear,
    Steps.run_pushBack, Steps.run_pushMove, Steps.run_touchKey, Steps.run_touchIndex, Steps.run_eraseAt]

theorem Cmd.run_allSteps (fo : FloatOps F) : ∀ cs : List (Cmd F), (Cmd.allSteps fo cs).run = Cmd.runAll fo cs
  | [] => rfl
  | c :: cs => by simp only [Cmd.allSteps, Cmd.runAll, Prog.run_bind, Cmd.run_steps, Cmd.run_allSteps fo cs]

end Configor
