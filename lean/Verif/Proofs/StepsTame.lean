import Verif.Proofs.StepsRun
import Verif.Proofs.Frame
/-!
# Every step of a thread leaves what is shared as it is
-/
set_option autoImplicit false
namespace Configor
open Spec

variable {F A B : Type}

/-- A thread, with the blocks that are shared and the memory it began with. -/
structure Zone (F : Type) where
  owner : Nat → Option Nat
  me : Nat
  Sh : Nat → Prop
  base : State F

namespace Zone
variable (Z : Zone F)

/-- The variables of the thread. -/
def Own : Var → Prop
  | .user x => Z.owner x = some Z.me
  | .ghost => False
  | _ => True

/-- A cell that is not in a shared block. -/
def Free (c : Cell F) : Prop := ∀ a, blockOf c = some a → ¬ Z.Sh a

/-- A place that belongs to the thread. -/
def Place : Loc → Prop
  | .var x => Z.Own x
  | .slot a _ => ¬ Z.Sh a

/-- What is true of the memory of a thread at any time. -/
structure Keep (s : State F) : Prop where
  shared : ∀ a, Z.Sh a → s.heap.mem a = Z.base.heap.mem a
  others : ∀ y, ¬ Z.Own y → s.vars y = Z.base.vars y
  free : ∀ y c, Z.Own y → s.vars y = some c → Z.Free c
  inside : ∀ a k, ¬ Z.Sh a → s.heap.mem a = some k → ∀ d ∈ k.cells, Z.Free d
  old : ∀ a, Z.Sh a → a < Z.base.heap.next
  next : Z.base.heap.next ≤ s.heap.next
  gone : ∀ a, a < Z.base.heap.next → Z.base.heap.mem a = none → s.heap.mem a = none
  fresh : ∀ a, s.heap.next ≤ a → s.heap.mem a = none

/-- A step that keeps to the rules, and what its result is. -/
structure Fine (m : M (State F) A) (Q : A → Prop) : Prop where
  frames : State.Frames Z.Own m
  keeps : ∀ s, Z.Keep s → Z.Keep (m s).2 ∧ ∀ b, (m s).1 = .ok b → Q b

end Zone

/-- A program that cannot end well. -/
def Prog.Fails {σ : Type} : Prog σ A → Prop
  | .done (.ok _) => False
  | .done (.error _) => True
  | .step _ k => ∀ r, Fails (k r)

/-- A program all of whose steps keep to the rules, as long as they end well; if one does not, nor does the program. -/
def Zone.Tame (Z : Zone F) (P : A → Prop) : Prog (State F) A → Prop
  | .done (.ok a) => P a
  | .done (.error _) => True
  | .step (β := B) m k => (∀ r, (k r).Fails) ∨ ∃ Q : B → Prop, Z.Fine m Q ∧ (∀ b, Q b → Tame Z P (k (.ok b))) ∧ ∀ e, (k (.error e)).Fails

namespace Prog
variable {σ : Type}

theorem Fails.bind {p : Prog σ A} {f : A → Prog σ B} (h : p.Fails) : Fails (p >>= f) := by
  show Fails (Prog.bind p f)
  induction p with
  | done r =>
    cases r with
    | ok a => exact h.elim
    | error e => exact trivial
  | step m k ih => exact fun r => ih r (h r)

theorem fails_after {p : Prog σ A} {e : Stop} : Fails (Prog.bind p fun _ => (.done (.error e) : Prog σ B)) := by
  induction p with
  | done r => cases r <;> exact trivial
  | step m k ih => exact fun r => ih r

theorem Fails.unwinding {p : Prog σ A} {c : Prog σ Unit} (h : p.Fails) : Fails (Prog.unwinding p c) := by
  induction p with
  | done r =>
    cases r with
    | ok a => exact h.elim
    | error e => exact fails_after
  | step m k ih => exact fun r => ih r (h r)

theorem Fails.run {p : Prog σ A} (h : p.Fails) : ∀ s, ∃ e, (p.run s).1 = .error e := by
  induction p with
  | done r =>
    cases r with
    | ok a => exact h.elim
    | error e => exact fun s => ⟨e, rfl⟩
  | step m k ih => exact fun s => ih _ (h _) _

end Prog

namespace Zone
variable {Z : Zone F}

theorem Tame.mono {P Q : A → Prop} {p : Prog (State F) A} (h : Z.Tame P p) (hq : ∀ a, P a → Q a) : Z.Tame Q p := by
  induction p with
  | done r =>
    cases r with
    | ok a => exact hq a h
    | error e => exact trivial
  | step m k ih =>
    rcases h with h | ⟨R, h1, h2, h3⟩
    · exact .inl h
    · exact .inr ⟨R, h1, fun b hb => ih _ (h2 b hb), h3⟩

theorem Tame.of_fails {P : A → Prop} {p : Prog (State F) A} (h : p.Fails) : Z.Tame P p := by
  cases p with
  | done r =>
    cases r with
    | ok a => exact h.elim
    | error e => exact trivial
  | step m k => exact .inl h

theorem Tame.pure {P : A → Prop} {a : A} (h : P a) : Z.Tame P (Pure.pure a) := h

theorem Tame.stop {P : A → Prop} (e : Stop) : Z.Tame P (Prog.stop e : Prog (State F) A) := trivial

theorem Tame.act {P : A → Prop} {m : M (State F) A} (h : Z.Fine m P) : Z.Tame P (Prog.act m) :=
  .inr ⟨P, h, fun _ hb => hb, fun _ => trivial⟩

theorem Tame.bind {Q : A → Prop} {P : B → Prop} {p : Prog (State F) A} {f : A → Prog (State F) B} (hp : Z.Tame Q p)
    (hf : ∀ a, Q a → Z.Tame P (f a)) : Z.Tame P (p >>= f) := by
  show Z.Tame P (Prog.bind p f)
  induction p with
  | done r =>
    cases r with
    | ok a => exact hf a hp
    | error e => exact trivial
  | step m k ih =>
    rcases hp with h | ⟨R, h1, h2, h3⟩
    · exact .inl fun r => (h r).bind
    · exact .inr ⟨R, h1, fun b hb => ih _ (h2 b hb), fun e => (h3 e).bind⟩

theorem Tame.unwinding {P : A → Prop} {p : Prog (State F) A} {c : Prog (State F) Unit} (hp : Z.Tame P p) : Z.Tame P (Prog.unwinding p c) := by
  induction p with
  | done r =>
    cases r with
    | ok a => exact hp
    | error e => exact .of_fails Prog.fails_after
  | step m k ih =>
    rcases hp with h | ⟨R, h1, h2, h3⟩
    · exact .inl fun r => (h r).unwinding
    · exact .inr ⟨R, h1, fun b hb => ih _ (h2 b hb), fun e => (h3 e).unwinding⟩

/-! ## Single steps -/

theorem Keep.setMem {s : State F} (h : Z.Keep s) {a : Nat} (ha : ¬ Z.Sh a) {b : Block F} (e : s.heap.mem a = some b) (o : Option (Block F))
    (ho : ∀ k, o = some k → ∀ d ∈ k.cells, Z.Free d) : Z.Keep { s with heap := { s.heap with mem := upd s.heap.mem a o } } where
  shared x hx := by
    show upd s.heap.mem a o x = _
    simp only [upd, if_neg (fun e : x = a => ha (e ▸ hx))]
    exact h.shared x hx
  others := h.others
  free := h.free
  inside x k hx hk := by
    simp only [upd] at hk
    split at hk
    · exact ho k hk
    · exact h.inside x k hx hk
  old := h.old
  next := h.next
  gone x hx hb := by
    have := h.gone x hx hb
    show upd s.heap.mem a o x = none
    simp only [upd]
    split
    · next e' => subst e'; rw [this] at e; cases e
    · exact this
  fresh x hx := by
    have := h.fresh x hx
    show upd s.heap.mem a o x = none
    simp only [upd]
    split
    · next e' => subst e'; rw [this] at e; cases e
    · exact this

theorem Keep.setVar {s : State F} (h : Z.Keep s) {y : Var} (hy : Z.Own y) (o : Option (Cell F)) (ho : ∀ c, o = some c → Z.Free c) :
    Z.Keep { s with vars := upd s.vars y o } where
  shared := h.shared
  others x hx := by
    show upd s.vars y o x = _
    simp only [upd, if_neg (fun e : x = y => hx (e ▸ hy))]
    exact h.others x hx
  free x c hx hc := by
    simp only [upd] at hc
    split at hc
    · exact ho c hc
    · exact h.free x c hx hc
  inside := h.inside
  old := h.old
  next := h.next
  gone := h.gone
  fresh := h.fresh

theorem Fine.attempt : Z.Fine (State.onHeap Heap.attempt) fun _ => True where
  frames := .onHeap .attempt
  keeps s h := by
    refine ⟨?_, fun _ _ => trivial⟩
    simp only [State.onHeap, Heap.attempt]
    split <;> exact ⟨h.shared, h.others, h.free, h.inside, h.old, h.next, h.gone, h.fresh⟩

theorem Fine.extend : Z.Fine (State.onHeap Heap.extend) fun a => ¬ Z.Sh a where
  frames := .onHeap .extend
  keeps s h := by
    have hs : ¬ Z.Sh s.heap.next := fun hs => absurd (h.old _ hs) (by have := h.next; omega)
    refine ⟨⟨?_, h.others, h.free, ?_, h.old, Nat.le_succ_of_le h.next, ?_, ?_⟩, ?_⟩
    · intro x hx
      show upd s.heap.mem _ _ x = _
      simp only [upd, if_neg (fun e : x = s.heap.next => hs (e ▸ hx))]
      exact h.shared x hx
    · intro x k hx hk
      simp only [State.onHeap, Heap.extend, upd] at hk
      split at hk
      · cases hk; intro d hd; cases hd
      · exact h.inside x k hx hk
    · intro x hx hb
      show upd s.heap.mem _ _ x = _
      have := h.next
      simp only [upd, if_neg (show x ≠ s.heap.next by omega)]
      exact h.gone x hx hb
    · intro x hx
      have hx : s.heap.next + 1 ≤ x := hx
      show upd s.heap.mem _ _ x = _
      simp only [upd, if_neg (show x ≠ s.heap.next by omega)]
      exact h.fresh x (by omega)
    · intro b hb
      cases hb
      exact hs

theorem Fine.put {a : Nat} {b : Block F} (ha : ¬ Z.Sh a) (hb : ∀ d ∈ b.cells, Z.Free d) : Z.Fine (State.onHeap (Heap.put a b)) fun _ => True where
  frames := .onHeap (.put _ _)
  keeps s h := by
    refine ⟨?_, fun _ _ => trivial⟩
    simp only [State.onHeap, Heap.put]
    cases e : s.heap.mem a with
    | none => exact h
    | some b' => exact h.setMem ha e _ (by intro k hk; cases hk; exact hb)

theorem Fine.free {a : Nat} (ha : ¬ Z.Sh a) : Z.Fine (State.onHeap (Heap.free a)) fun _ => True where
  frames := .onHeap (.free _)
  keeps s h := by
    refine ⟨?_, fun _ _ => trivial⟩
    simp only [State.onHeap, Heap.free]
    cases e : s.heap.mem a with
    | none => exact h
    | some b' => exact h.setMem ha e _ (by intro k hk; cases hk)

theorem Fine.string (a : Nat) : Z.Fine (State.onHeap (Heap.string a)) fun _ => True where
  frames := .onHeap (.string _)
  keeps s h := by
    refine ⟨?_, fun _ _ => trivial⟩
    simp only [State.onHeap, Heap.string]
    split <;> exact h

theorem Fine.vector (a : Nat) : Z.Fine (State.onHeap (Heap.vector a)) fun cs => ¬ Z.Sh a → ∀ d ∈ cs, Z.Free d where
  frames := .onHeap (.vector _)
  keeps s h := by
    simp only [State.onHeap, Heap.vector]
    cases e : s.heap.mem a with
    | none => exact ⟨h, fun b hb => by cases hb⟩
    | some k =>
      cases k with
      | arr cs => exact ⟨h, fun b hb ha => by cases hb; exact h.inside a _ ha e⟩
      | _ => exact ⟨h, fun b hb => by cases hb⟩

theorem Fine.map (a : Nat) : Z.Fine (State.onHeap (Heap.map a)) fun ms => ¬ Z.Sh a → ∀ d ∈ ms.map Prod.snd, Z.Free d where
  frames := .onHeap (.map _)
  keeps s h := by
    simp only [State.onHeap, Heap.map]
    cases e : s.heap.mem a with
    | none => exact ⟨h, fun b hb => by cases hb⟩
    | some k =>
      cases k with
      | obj cs => exact ⟨h, fun b hb ha => by cases hb; exact h.inside a _ ha e⟩
      | _ => exact ⟨h, fun b hb => by cases hb⟩

theorem Fine.read (l : Loc) : Z.Fine (State.read l) fun c => Z.Place l → Z.Free c where
  frames := .read _
  keeps s h := by
    cases l with
    | var x =>
      simp only [State.read]
      cases e : s.vars x with
      | none => exact ⟨h, fun b hb => by cases hb⟩
      | some c => exact ⟨h, fun b hb hx => by cases hb; exact h.free x _ hx e⟩
    | slot a i =>
      simp only [State.read]
      cases e : s.heap.mem a with
      | none => exact ⟨h, fun b hb => by cases hb⟩
      | some k =>
        simp only
        cases e' : k.cells[i]? with
        | none => exact ⟨h, fun b hb => by cases hb⟩
        | some c => exact ⟨h, fun b hb ha => by cases hb; exact h.inside a k ha e _ (List.mem_of_getElem? e')⟩

theorem Fine.write {l : Loc} {c : Cell F} (hl : Z.Place l) (hc : Z.Free c) : Z.Fine (State.write l c) fun _ => True where
  frames := .write _ _
  keeps s h := by
    refine ⟨?_, fun _ _ => trivial⟩
    cases l with
    | var x =>
      simp only [State.write]
      cases e : s.vars x with
      | none => exact h
      | some d => exact h.setVar hl _ (by intro k hk; cases hk; exact hc)
    | slot a i =>
      simp only [State.write]
      cases e : s.heap.mem a with
      | none => exact h
      | some k =>
        simp only
        split
        · refine h.setMem hl e _ ?_
          intro k' hk' d hd
          cases hk'
          rw [Block.cells_withCells _ _ (by simp)] at hd
          rcases List.mem_or_eq_of_mem_set hd with hd | rfl
          · exact h.inside a k hl e d hd
          · exact hc
        · exact h

theorem Fine.declare {x : Var} {c : Cell F} (hx : Z.Own x) (hc : Z.Free c) : Z.Fine (State.declare x c) fun _ => True where
  frames := .declare hx _
  keeps s h := ⟨h.setVar hx _ (by intro k hk; cases hk; exact hc), fun _ _ => trivial⟩

theorem Fine.forget {x : Var} (hx : Z.Own x) : Z.Fine (State.forget (F := F) x) fun _ => True where
  frames := .forget hx
  keeps s h := ⟨h.setVar hx _ (by intro k hk; cases hk), fun _ _ => trivial⟩

theorem Fine.depth : Z.Fine (M.gets State.depth) fun _ => True where
  frames := .depth
  keeps _ h := ⟨h, fun _ _ => trivial⟩

/-! ## Operations -/

theorem free_none {c : Cell F} (h : blockOf c = none) : Z.Free c := by
  intro a ha; rw [h] at ha; cases ha

theorem free_at {c : Cell F} {a : Nat} (h : blockOf c = some a) (ha : ¬ Z.Sh a) : Z.Free c := by
  intro b hb; rw [h] at hb; cases hb; exact ha

theorem allocate : Z.Tame (fun a => ¬ Z.Sh a) Steps.allocate := .bind (.act .attempt) fun _ _ => .act .extend

theorem attemptIf (b : Bool) : Z.Tame (fun _ => True) (Steps.attemptIf b) := by
  cases b
  · exact trivial
  · exact .act .attempt

theorem each {d : Cell F → Prog (State F) Unit} (hd : ∀ c, Z.Free c → Z.Tame (fun _ => True) (d c)) :
    ∀ cs, (∀ c ∈ cs, Z.Free c) → Z.Tame (fun _ => True) (Steps.each d cs)
  | [], _ => trivial
  | c :: cs, h => .bind (hd c (h c List.mem_cons_self)) fun _ _ => each hd cs fun d hd => h d (List.mem_cons_of_mem _ hd)

theorem destroy : ∀ (n : Nat) (c : Cell F), Z.Free c → Z.Tame (fun _ => True) (Steps.destroy n c) := by
  intro n
  induction n with
  | zero =>
    intro c h
    cases c <;> unfold Steps.destroy <;> first | exact trivial | exact .bind (.act (.string _)) fun _ _ => .act (.free (h _ rfl))
  | succ n ih =>
    intro c h
    cases c <;> unfold Steps.destroy
    · exact trivial
    · exact trivial
    · exact trivial
    · exact trivial
    · exact .bind (.act (.string _)) fun _ _ => .act (.free (h _ rfl))
    · exact .bind (.act (.vector _)) fun _ hcs => .bind (each ih _ (hcs (h _ rfl))) fun _ _ => .act (.free (h _ rfl))
    · exact .bind (.act (.map _)) fun _ hcs => .bind (each ih _ (hcs (h _ rfl))) fun _ _ => .act (.free (h _ rfl))

theorem copyAll {f : Cell F → Prog (State F) (Cell F)} {d : Cell F → Prog (State F) Unit} (hf : ∀ c, Z.Tame Z.Free (f c)) :
    ∀ cs, Z.Tame (fun ds => ∀ c ∈ ds, Z.Free c) (Steps.copyAll f d cs)
  | [] => fun c hc => by cases hc
  | c :: cs => .bind (.act .attempt) fun _ _ => .bind (hf c) fun c' hc' => .bind (.unwinding (copyAll hf cs)) fun cs' hcs' =>
      .pure (by
        intro x hx
        rcases List.mem_cons.1 hx with rfl | hx
        · exact hc'
        · exact hcs' x hx)

theorem copy : ∀ (n : Nat) (c : Cell F), Z.Tame Z.Free (Steps.copy n c) := by
  have str : ∀ a, Z.Tame Z.Free (do
      let s ← Steps.heap (Heap.string a)
      let p ← Steps.allocate
      Steps.heap Heap.attempt
      Steps.heap (Heap.put p (.str s))
      pure (.str p)) := fun a =>
    .bind (.act (.string _)) fun _ _ => .bind allocate fun p hp => .bind (.act .attempt) fun _ _ =>
      .bind (.act (.put hp (by intro d hd; cases hd))) fun _ _ => .pure (free_at rfl hp)
  intro n
  induction n with
  | zero =>
    intro c
    cases c <;> unfold Steps.copy <;> first | exact free_none rfl | exact trivial | exact str _
  | succ n ih =>
    intro c
    cases c <;> unfold Steps.copy
    · exact free_none rfl
    · exact free_none rfl
    · exact free_none rfl
    · exact free_none rfl
    · exact str _
    · exact .bind (.act (.vector _)) fun _ _ => .bind allocate fun p hp => .bind (.act .attempt) fun _ _ => .bind (copyAll ih _) fun cs hcs =>
        .bind (.act (.put hp hcs)) fun _ _ => .pure (free_at rfl hp)
    · exact .bind (.act (.map _)) fun ms _ => .bind allocate fun p hp => .bind (.act .attempt) fun _ _ => .bind (copyAll ih _) fun cs hcs =>
        .bind (.act (.put hp (by
          intro d hd
          obtain ⟨m, hm, rfl⟩ := List.mem_map.1 hd
          exact hcs _ (List.of_mem_zip hm).2))) fun _ _ => .pure (free_at rfl hp)

theorem create {b : Block F} (hb : b.cells = []) : Z.Tame (fun a => ¬ Z.Sh a) (Steps.create b) :=
  .bind allocate fun p hp => .bind (.act .attempt) fun _ _ => .bind (.act (.put hp (by rw [hb]; intro d hd; cases hd))) fun _ _ => .pure hp

theorem destruct {x : Var} (hx : Z.Own x) : Z.Tame (fun _ => True) (Steps.destruct x) :=
  .bind (.act (.read _)) fun _ hc => .bind (.act .depth) fun _ _ => .bind (destroy _ _ (hc hx)) fun _ _ => .act (.forget hx)

theorem construct {x : Var} (hx : Z.Own x) (v : Value F) : Z.Tame (fun _ => True) (Steps.construct x v) := by
  cases v <;> unfold Steps.construct
  · exact .act (.declare hx (free_none rfl))
  · exact .act (.declare hx (free_none rfl))
  · exact .act (.declare hx (free_none rfl))
  · exact .act (.declare hx (free_none rfl))
  · exact .bind (create rfl) fun _ h => .act (.declare hx (free_at rfl h))
  · exact .bind (create rfl) fun _ h => .act (.declare hx (free_at rfl h))
  · exact .bind (create rfl) fun _ h => .act (.declare hx (free_at rfl h))

theorem copyConstruct {x : Var} (hx : Z.Own x) (l : Loc) : Z.Tame (fun _ => True) (Steps.copyConstruct x l) :=
  .bind (.act (.read _)) fun _ _ => .bind (.act .depth) fun _ _ => .bind (copy _ _) fun _ h => .act (.declare hx h)

theorem moveConstruct {x : Var} (hx : Z.Own x) {l : Loc} (hl : Z.Place l) : Z.Tame (fun _ => True) (Steps.moveConstruct x l) :=
  .bind (.act (.read _)) fun _ h => .bind (.act (.declare hx (h hl))) fun _ _ => .act (.write hl (free_none rfl))

theorem swap {l r : Loc} (hl : Z.Place l) (hr : Z.Place r) : Z.Tame (fun _ => True) (Steps.swap l r) :=
  .bind (.act (.read _)) fun _ h1 => .bind (.act (.read _)) fun _ h2 => .bind (.act (.write hl (h2 hr))) fun _ _ => .act (.write hr (h1 hl))

theorem copyAssign {l : Loc} (hl : Z.Place l) (r : Loc) : Z.Tame (fun _ => True) (Steps.copyAssign l r) := by
  unfold Steps.copyAssign
  split
  · exact trivial
  · exact .bind (copyConstruct (x := .tmp) trivial _) fun _ _ => .bind (swap hl (r := .var .tmp) trivial) fun _ _ => destruct (x := .tmp) trivial

theorem moveAssign {l r : Loc} (hl : Z.Place l) (hr : Z.Place r) : Z.Tame (fun _ => True) (Steps.moveAssign l r) := by
  unfold Steps.moveAssign
  split
  · exact trivial
  · exact .bind (moveConstruct (x := .tmp) trivial hl) fun _ _ => .bind (swap hl hr) fun _ _ => destruct (x := .tmp) trivial

theorem become {l : Loc} (hl : Z.Place l) (v : Value F) : Z.Tame (fun _ => True) (Steps.become l v) :=
  .bind (construct (x := .arg) trivial v) fun _ _ => .bind (moveAssign hl (r := .var .arg) trivial) fun _ _ => destruct (x := .arg) trivial

theorem fill {l : Loc} (hl : Z.Place l) (v : Value F) : Z.Tame (fun _ => True) (Steps.fill l v) := by
  refine .bind (.act (.read _)) fun c _ => ?_
  cases c <;> first | exact become hl _ | exact trivial

theorem asArray (e : Err) {l : Loc} (hl : Z.Place l) : Z.Tame (fun a => ¬ Z.Sh a) (Steps.asArray e l) := by
  refine .bind (fill hl _) fun _ _ => .bind (.act (.read _)) fun c hc => ?_
  cases c <;> first | exact hc hl _ rfl | exact trivial

theorem asObject (e : Err) {l : Loc} (hl : Z.Place l) : Z.Tame (fun a => ¬ Z.Sh a) (Steps.asObject e l) := by
  refine .bind (fill hl _) fun _ _ => .bind (.act (.read _)) fun c hc => ?_
  cases c <;> first | exact hc hl _ rfl | exact trivial

theorem free_append {cs ds : List (Cell F)} (h1 : ∀ c ∈ cs, Z.Free c) (h2 : ∀ c ∈ ds, Z.Free c) : ∀ c ∈ cs ++ ds, Z.Free c := by
  intro c hc
  rcases List.mem_append.1 hc with h | h
  · exact h1 c h
  · exact h2 c h

theorem pushBack {l : Loc} (hl : Z.Place l) (r : Loc) : Z.Tame (fun _ => True) (Steps.pushBack l r) :=
  .bind (asArray _ hl) fun _ ha => .bind (.act .attempt) fun _ _ => .bind (.act (.read _)) fun _ _ => .bind (.act .depth) fun _ _ =>
    .bind (copy _ _) fun _ hc => .bind (.act (.vector _)) fun _ hcs => .act (.put ha (free_append (hcs ha) (by simpa using hc)))

theorem pushMove {l r : Loc} (hl : Z.Place l) (hr : Z.Place r) : Z.Tame (fun _ => True) (Steps.pushMove l r) :=
  .bind (asArray _ hl) fun _ ha => .bind (.act .attempt) fun _ _ => .bind (.act (.read _)) fun _ hc =>
    .bind (.act (.write hr (free_none rfl))) fun _ _ => .bind (.act (.vector _)) fun _ hcs =>
    .act (.put ha (free_append (hcs ha) (by simpa using hc hr)))

theorem mem_emplace {V : Type} {k : List Nat} {v : V} {ms : Map.T V} {m : List Nat × V} (h : m ∈ Map.emplace k v ms) : m = (k, v) ∨ m ∈ ms := by
  induction ms with
  | nil => simpa [Map.emplace] using h
  | cons n ms ih =>
    obtain ⟨k', v'⟩ := n
    simp only [Map.emplace] at h
    split at h
    · simpa using h
    · split at h
      · rcases List.mem_cons.1 h with h | h
        · exact .inr (h ▸ List.mem_cons_self)
        · rcases ih h with h | h
          · exact .inl h
          · exact .inr (List.mem_cons_of_mem _ h)
      · exact .inr h

theorem touchKey {l : Loc} (hl : Z.Place l) (k : List Nat) : Z.Tame (fun _ => True) (Steps.touchKey l k) :=
  .bind (asObject _ hl) fun _ ha => .bind (.act (.map _)) fun _ hms => .bind (attemptIf _) fun _ _ => .act (.put ha (by
    intro d hd
    obtain ⟨m, hm, rfl⟩ := List.mem_map.1 hd
    rcases mem_emplace hm with rfl | hm
    · exact free_none rfl
    · exact hms ha _ (List.mem_map.2 ⟨m, hm, rfl⟩)))

theorem touchIndex {l : Loc} (hl : Z.Place l) (i : Nat) : Z.Tame (fun _ => True) (Steps.touchIndex l i) :=
  .bind (asArray _ hl) fun _ ha => .bind (.act (.vector _)) fun _ hcs => .bind (attemptIf _) fun _ _ =>
    .act (.put ha (free_append (hcs ha) (by
      intro c hc
      rw [List.eq_of_mem_replicate hc]
      exact free_none rfl)))

theorem clear (zero : F) {l : Loc} (hl : Z.Place l) : Z.Tame (fun _ => True) (Steps.clear zero l) := by
  refine .bind (.act .depth) fun n _ => .bind (.act (.read _)) fun c hc => ?_
  cases c
  · exact trivial
  · exact .act (.write hl (free_none rfl))
  · exact .act (.write hl (free_none rfl))
  · exact .act (.write hl (free_none rfl))
  · exact .bind (.act (.string _)) fun _ _ => .act (.put (hc hl _ rfl) (by intro d hd; cases hd))
  · exact .bind (.act (.vector _)) fun _ hcs => .bind (each (destroy n) _ (hcs (hc hl _ rfl))) fun _ _ =>
      .act (.put (hc hl _ rfl) (by intro d hd; cases hd))
  · exact .bind (.act (.map _)) fun _ hcs => .bind (each (destroy n) _ (hcs (hc hl _ rfl))) fun _ _ =>
      .act (.put (hc hl _ rfl) (by intro d hd; cases hd))

theorem eraseAt {l : Loc} (hl : Z.Place l) (i : Nat) : Z.Tame (fun _ => True) (Steps.eraseAt l i) := by
  refine .bind (.act .depth) fun n _ => .bind (.act (.read _)) fun c hc => ?_
  cases c
  case arr a =>
    refine .bind (.act (.vector _)) fun cs hcs => ?_
    cases e : cs[i]? with
    | none => exact trivial
    | some c =>
      exact .bind (destroy _ _ (hcs (hc hl _ rfl) _ (List.mem_of_getElem? e))) fun _ _ =>
        .act (.put (hc hl _ rfl) fun d hd => hcs (hc hl _ rfl) d (List.mem_of_mem_eraseIdx hd))
  case obj a =>
    refine .bind (.act (.map _)) fun cs hcs => ?_
    cases e : cs[i]? with
    | none => exact trivial
    | some c =>
      exact .bind (destroy _ _ (hcs (hc hl _ rfl) _ (List.mem_map.2 ⟨c, List.mem_of_getElem? e, rfl⟩))) fun _ _ =>
        .act (.put (hc hl _ rfl) fun d hd => by
          obtain ⟨m, hm, rfl⟩ := List.mem_map.1 hd
          exact hcs (hc hl _ rfl) _ (List.mem_map.2 ⟨m, List.mem_of_mem_eraseIdx hm, rfl⟩))
  all_goals exact trivial

theorem locate : ∀ (p : List Nat) (l : Loc) (c : Cell F), Z.Tame (fun l' => Z.Place l → Z.Free c → Z.Place l') (Steps.locate l c p)
  | [], _, _ => fun h _ => h
  | i :: p, l, c => by
    unfold Steps.locate
    have go : ∀ a, blockOf c = some a → Z.Tame (fun l' => Z.Place l → Z.Free c → Z.Place l')
        (do let c' ← Steps.read (.slot a i); Steps.locate (.slot a i) c' p) := fun a ha =>
      .bind (.act (.read _)) fun c' hc' => (locate p (.slot a i) c').mono fun l' h _ hc => h (hc a ha) (hc' (hc a ha))
    cases c <;> first | exact .bind (.pure rfl) fun b hb => hb ▸ go _ rfl | exact trivial

theorem ref (x : Var) (p : List Nat) : Z.Tame (fun l => Z.Own x → Z.Place l) (Steps.ref x p) :=
  .bind (.act (.read _)) fun c hc => (locate p (.var x) c).mono fun _ h hx => h hx (hc hx)

theorem steps (fo : FloatOps F) (c : Cmd F) (h : ∀ x ∈ c.targets, Z.owner x = some Z.me) : Z.Tame (fun _ => True) (Cmd.steps fo c) := by
  have h' : ∀ x ∈ c.targets, Z.Own (.user x) := h
  cases c <;> simp only [Cmd.steps]
  · exact construct (h' _ (by simp [Cmd.targets, Cmd.vars])) _
  · exact .bind (ref _ _) fun _ _ => copyConstruct (h' _ (by simp [Cmd.targets])) _
  · exact .bind (ref _ _) fun _ hl => moveConstruct (h' _ (by simp [Cmd.targets, Cmd.vars])) (hl (h' _ (by simp [Cmd.targets, Cmd.vars])))
  · exact destruct (h' _ (by simp [Cmd.targets, Cmd.vars]))
  · exact .bind (ref _ _) fun _ hl => .bind (ref _ _) fun _ _ => copyAssign (hl (h' _ (by simp [Cmd.targets]))) _
  · exact .bind (ref _ _) fun _ hl => .bind (ref _ _) fun _ hr =>
      moveAssign (hl (h' _ (by simp [Cmd.targets, Cmd.vars]))) (hr (h' _ (by simp [Cmd.targets, Cmd.vars])))
  · exact .bind (ref _ _) fun _ hl => .bind (ref _ _) fun _ hr =>
      swap (hl (h' _ (by simp [Cmd.targets, Cmd.vars]))) (hr (h' _ (by simp [Cmd.targets, Cmd.vars])))
  · exact .bind (ref _ _) fun _ hl => clear _ (hl (h' _ (by simp [Cmd.targets, Cmd.vars])))
  · exact .bind (ref _ _) fun _ hl => .bind (ref _ _) fun _ _ => pushBack (hl (h' _ (by simp [Cmd.targets]))) _
  · exact .bind (ref _ _) fun _ hl => .bind (ref _ _) fun _ hr =>
      pushMove (hl (h' _ (by simp [Cmd.targets, Cmd.vars]))) (hr (h' _ (by simp [Cmd.targets, Cmd.vars])))
  · exact .bind (ref _ _) fun _ hl => touchKey (hl (h' _ (by simp [Cmd.targets, Cmd.vars]))) _
  · exact .bind (ref _ _) fun _ hl => touchIndex (hl (h' _ (by simp [Cmd.targets, Cmd.vars]))) _
  · exact .bind (ref _ _) fun _ hl => eraseAt (hl (h' _ (by simp [Cmd.targets, Cmd.vars]))) _

theorem allSteps (fo : FloatOps F) : ∀ cs : List (Cmd F), (∀ c ∈ cs, ∀ x ∈ c.targets, Z.owner x = some Z.me) → Z.Tame (fun _ => True) (Cmd.allSteps fo cs)
  | [], _ => trivial
  | c :: cs, h => .bind (steps fo c (h c List.mem_cons_self)) fun _ _ => allSteps fo cs fun d hd => h d (List.mem_cons_of_mem _ hd)

end Zone
end Configor
