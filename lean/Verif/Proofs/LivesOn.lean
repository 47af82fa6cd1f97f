import Verif.Model.ConvertHeap
/-!
# Calls after which a variable still lives
-/
set_option autoImplicit false
namespace Configor

variable {F : Type}

/-- However `m` ends, variable `x` lives if it did before. -/
def LivesOn {α : Type} (x : Var) (m : M (State F) α) : Prop := ∀ s, s.vars x ≠ none → (m s).2.vars x ≠ none

namespace LivesOn
open State
variable {x : Var} {α β : Type}

theorem pure (a : α) : LivesOn (F := F) x (Pure.pure a) := fun _ h => h
theorem stop (e : Stop) : LivesOn (F := F) (α := α) x (M.stop e) := fun _ h => h
theorem throw (e : Err) : LivesOn (F := F) (α := α) x (M.throw e) := fun _ h => h
theorem gets (f : State F → α) : LivesOn x (M.gets f) := fun _ h => h

theorem bind {m : M (State F) α} {f : α → M (State F) β} (hm : LivesOn x m) (hf : ∀ a, LivesOn x (f a)) : LivesOn x (m >>= f) := by
  intro s hs
  have h1 := hm s hs
  show (M.bind m f s).2.vars x ≠ none
  unfold M.bind
  revert h1
  rcases m s with ⟨e | a, s'⟩ <;> intro h1
  · exact h1
  · exact hf a s' h1

theorem onHeap (m : M (Heap F) α) : LivesOn x (State.onHeap m) := fun _ h => h

theorem read (l : Loc) : LivesOn (F := F) x (State.read l) := by
  intro s h
  unfold State.read
  repeat' split
  all_goals exact h

theorem write (l : Loc) (c : Cell F) : LivesOn x (State.write l c) := by
  intro s h
  unfold State.write
  cases l with
  | var y =>
    simp only
    split
    · simp only [upd]
      split
      · simp
      · exact h
    · exact h
  | slot a i =>
    simp only
    repeat' split
    all_goals exact h

theorem declare (y : Var) (c : Cell F) : LivesOn x (State.declare y c) := by
  intro s h
  simp only [State.declare, upd]
  split
  · simp
  · exact h

theorem forget {y : Var} (hy : x ≠ y) : LivesOn (F := F) x (State.forget y) := by
  intro s h
  simp only [State.forget, upd]
  split
  · exact absurd ‹_› hy
  · exact h

theorem destruct {y : Var} (hy : x ≠ y) : LivesOn (F := F) x (State.destruct y) :=
  (read _).bind fun _ => (gets _).bind fun _ => (onHeap _).bind fun _ => forget hy

theorem construct (y : Var) (v : Value F) : LivesOn x (State.construct y v) := by
  cases v <;> simp only [State.construct] <;> first | exact declare _ _ | exact (onHeap _).bind fun _ => declare _ _

theorem copyConstruct (y : Var) (src : Loc) : LivesOn (F := F) x (State.copyConstruct y src) :=
  (read _).bind fun _ => (gets _).bind fun _ => (onHeap _).bind fun _ => declare _ _

theorem moveConstruct (y : Var) (src : Loc) : LivesOn (F := F) x (State.moveConstruct y src) :=
  (read _).bind fun _ => (declare _ _).bind fun _ => write _ _

theorem swap (l r : Loc) : LivesOn (F := F) x (State.swap l r) :=
  (read _).bind fun _ => (read _).bind fun _ => (write _ _).bind fun _ => write _ _

theorem copyAssign (h : x ≠ .tmp) (dst src : Loc) : LivesOn (F := F) x (State.copyAssign dst src) := by
  unfold State.copyAssign
  split
  · exact pure _
  · exact (copyConstruct _ _).bind fun _ => (swap _ _).bind fun _ => destruct h

theorem moveAssign (h : x ≠ .tmp) (dst src : Loc) : LivesOn (F := F) x (State.moveAssign dst src) := by
  unfold State.moveAssign
  split
  · exact pure _
  · exact (moveConstruct _ _).bind fun _ => (swap _ _).bind fun _ => destruct h

theorem become (h : x ≠ .tmp) (h' : x ≠ .arg) (dst : Loc) (v : Value F) : LivesOn x (State.become dst v) :=
  (construct _ _).bind fun _ => (moveAssign h _ _).bind fun _ => destruct h'

theorem fill (h : x ≠ .tmp) (h' : x ≠ .arg) (dst : Loc) (v : Value F) : LivesOn x (State.fill dst v) := by
  refine (read _).bind fun c => ?_
  cases c <;> first | exact become h h' _ _ | exact pure _

theorem asArray (h : x ≠ .tmp) (h' : x ≠ .arg) (e : Err) (dst : Loc) : LivesOn (F := F) x (State.asArray e dst) := by
  refine (fill h h' _ _).bind fun _ => (read _).bind fun c => ?_
  cases c <;> first | exact throw _ | exact pure _

theorem asObject (h : x ≠ .tmp) (h' : x ≠ .arg) (e : Err) (dst : Loc) : LivesOn (F := F) x (State.asObject e dst) := by
  refine (fill h h' _ _).bind fun _ => (read _).bind fun c => ?_
  cases c <;> first | exact throw _ | exact pure _

theorem touchKey (h : x ≠ .tmp) (h' : x ≠ .arg) (dst : Loc) (k : List Nat) : LivesOn (F := F) x (State.touchKey dst k) :=
  (asObject h h' _ _).bind fun _ => (onHeap _).bind fun _ => (onHeap _).bind fun _ => onHeap _

theorem touchIndex (h : x ≠ .tmp) (h' : x ≠ .arg) (dst : Loc) (i : Nat) : LivesOn (F := F) x (State.touchIndex dst i) :=
  (asArray h h' _ _).bind fun _ => (onHeap _).bind fun _ => (onHeap _).bind fun _ => onHeap _

theorem locate (here : Loc) (c : Cell F) (p : List Nat) : LivesOn x (State.locate here c p) := by
  induction p generalizing here c with
  | nil => exact pure _
  | cons i p ih =>
    unfold State.locate
    cases c <;> first
      | exact (throw _).bind fun _ => (read _).bind fun _ => ih _ _
      | exact (pure _).bind fun _ => (read _).bind fun _ => ih _ _

theorem ref (y : Var) (p : List Nat) : LivesOn (F := F) x (State.ref y p) := (read _).bind fun _ => locate _ _ _

theorem abandoning {y : Var} (hy : x ≠ y) {m : M (State F) Unit} (hm : LivesOn x m) : LivesOn x (State.abandoning y m) := by
  intro s h
  have h1 := hm s h
  unfold State.abandoning
  revert h1
  rcases m s with ⟨e | a, s'⟩ <;> intro h1
  · have h2 := forget (F := F) hy s' h1
    simp only
    revert h2
    rcases State.forget y s' with ⟨e' | a, s''⟩ <;> exact id
  · exact h1

theorem making {y : Var} (hy : x ≠ y) {m : M (State F) Unit} (hm : LivesOn x m) : LivesOn x (State.making y m) :=
  (declare _ _).bind fun _ => abandoning hy hm

theorem leavingTemp {y : Var} (hy : x ≠ y) {m : M (State F) Unit} (hm : LivesOn x m) : LivesOn x (State.leavingTemp y m) := by
  intro s h
  have h1 := hm s h
  unfold State.leavingTemp
  revert h1
  rcases m s with ⟨e | a, s'⟩ <;> intro h1
  · have h2 := destruct (F := F) hy s' h1
    simp only
    revert h2
    rcases State.destruct y s' with ⟨e' | a, s''⟩ <;> exact id
  · exact h1

theorem moveFrom (h : x ≠ .tmp) {dst : M (State F) Loc} (hd : LivesOn x dst) {t : Nat} (ht : x ≠ .user t) : LivesOn x (State.moveFrom dst t) :=
  hd.bind fun _ => (ref _ _).bind fun _ => (moveAssign h _ _).bind fun _ => destruct ht

theorem assignObj (h : x ≠ .tmp) {dst : M (State F) Loc} (hd : LivesOn x dst) {t : Nat} (ht : x ≠ .user t) (o : Obj F) {m : M (State F) Unit}
    (hm : LivesOn x m) : LivesOn x (State.assignObj dst t o m) := by
  cases o <;> first
    | exact hd.bind fun _ => (ref _ _).bind fun _ => copyAssign h _ _
    | exact (making ht hm).bind fun _ => moveFrom h hd ht

theorem assignPart (h : x ≠ .tmp) (left : Bool) {touch : M (State F) Unit} (hc : LivesOn x touch) {dst : M (State F) Loc} (hd : LivesOn x dst)
    {t : Nat} (ht : x ≠ .user t) (o : Obj F) {m : M (State F) Unit} (hm : LivesOn x m) : LivesOn x (State.assignPart left touch dst t o m) := by
  have h1 : LivesOn x (do touch; State.making (.user t) m; State.moveFrom dst t) :=
    hc.bind fun _ => (making ht hm).bind fun _ => moveFrom h hd ht
  have h2 : LivesOn x (do State.making (.user t) m; State.leavingTemp (.user t) touch; State.moveFrom dst t) :=
    (making ht hm).bind fun _ => (leavingTemp ht hc).bind fun _ => moveFrom h hd ht
  have h3 : LivesOn x (if left then (do touch; State.making (.user t) m; State.moveFrom dst t)
      else (do State.making (.user t) m; State.leavingTemp (.user t) touch; State.moveFrom dst t)) := by
    cases left
    · exact h2
    · exact h1
  cases o <;> first | exact hc.bind fun _ => assignObj h hd ht _ hm | exact h3

theorem member (y : Nat) (key : List Nat) : LivesOn (F := F) x (State.member y key) := by
  refine (read _).bind fun c => ?_
  cases c <;> first | exact stop _ | exact (onHeap _).bind fun _ => ref _ _

theorem reset {y : Var} (hy : x ≠ y) (v : Value F) : LivesOn x (State.reset y v) := (destruct hy).bind fun _ => construct _ _

theorem user_tmp (k : Nat) : Var.user k ≠ .tmp := by simp
theorem user_arg (k : Nat) : Var.user k ≠ .arg := by simp
theorem user_ne {j k : Nat} (h : j < k) : Var.user j ≠ .user k := by simp; omega

mutual
theorem toValue (d : Order) {j k : Nat} (h : j < k) (o : Obj F) : LivesOn (.user j) (State.toValue d k o) := by
  match o with
  | .null =>
    simp only [State.toValue]
    exact (construct _ _).bind fun _ => moveFrom (user_tmp j) (ref _ _) (user_ne (by omega))
  | .bool b => simp only [State.toValue]; exact reset (user_ne h) _
  | .int b => simp only [State.toValue]; exact reset (user_ne h) _
  | .flt b => simp only [State.toValue]; exact reset (user_ne h) _
  | .str b => simp only [State.toValue]; exact reset (user_ne h) _
  | .value y p => simp only [State.toValue]; exact (ref _ _).bind fun _ => (ref _ _).bind fun _ => copyAssign (user_tmp j) _ _
  | .ptr o =>
    simp only [State.toValue]
    exact assignObj (user_tmp j) (ref _ _) (user_ne (by omega)) o (toValue d (by omega) o)
  | .seq os => simp only [State.toValue]; exact (reset (user_ne h) _).bind fun _ => putItems d (by omega) 0 os
  | .map ms => simp only [State.toValue]; exact (reset (user_ne h) _).bind fun _ => putMembers d _ (by omega) ms
  | .bound ms => simp only [State.toValue]; exact putMembers d _ (by omega) ms
  | .throws e => simp only [State.toValue]; exact throw _

theorem putItems (d : Order) {j k : Nat} (h : j ≤ k) (i : Nat) (os : List (Obj F)) : LivesOn (.user j) (State.putItems d k i os) := by
  match os with
  | [] => simp only [State.putItems]; exact pure _
  | o :: os =>
    simp only [State.putItems]
    exact (assignPart (user_tmp j) _ ((ref _ _).bind fun _ => touchIndex (user_tmp j) (user_arg j) _ _) (ref _ _) (user_ne (by omega)) o
      (toValue d (by omega) o)).bind fun _ => putItems d h _ os

theorem putMembers (d : Order) (left : Bool) {j k : Nat} (h : j ≤ k) (ms : List (List Nat × Obj F)) :
    LivesOn (.user j) (State.putMembers d left k ms) := by
  match ms with
  | [] => simp only [State.putMembers]; exact pure _
  | (key, o) :: ms =>
    simp only [State.putMembers]
    exact (assignPart (user_tmp j) _ ((ref _ _).bind fun _ => touchKey (user_tmp j) (user_arg j) _ _) (member _ _) (user_ne (by omega)) o
      (toValue d (by omega) o)).bind fun _ => putMembers d left h ms
end

end LivesOn
end Configor
