import Verif.Props.StackOps
/-!
# How much memory a failed copy can lose
-/
set_option autoImplicit false
namespace Configor.Props
open Spec

variable {F : Type}

/-- `m` leaves at most `k` new blocks in which nothing has been constructed, and none if it ends normally. -/
private def LeavesRaw {α : Type} (k : Nat) (m : M (Heap F) α) : Prop := ∀ h, ∃ l : List Nat, l.length ≤ k ∧ (∀ a, (m h).1 = .ok a → l = []) ∧
  ∀ a, (m h).2.mem a = some .raw → h.mem a = some .raw ∨ a ∈ l

namespace LeavesRaw
variable {α β : Type} {k : Nat}

private theorem same {m : M (Heap F) α} (hm : ∀ h a, (m h).2.mem a = some .raw → h.mem a = some .raw) : LeavesRaw k m :=
  fun h => ⟨[], Nat.zero_le _, fun _ _ => rfl, fun a ha => .inl (hm h a ha)⟩

private theorem none {m : M (Heap F) α} (hm : LeavesRaw 0 m) (h : Heap F) (a : Nat) (ha : (m h).2.mem a = some .raw) : h.mem a = some .raw := by
  obtain ⟨l, h1, _, h3⟩ := hm h
  have : l = [] := List.length_eq_zero_iff.1 (by omega)
  subst this
  simpa using h3 a ha

private theorem bind {m : M (Heap F) α} {f : α → M (Heap F) β} (hm : LeavesRaw k m) (hf : ∀ a, LeavesRaw k (f a)) : LeavesRaw k (m >>= f) := by
  intro h
  obtain ⟨l, h1, h2, h3⟩ := hm h
  rw [M.bind_def]
  revert h2 h3
  rcases m h with ⟨e | a, h'⟩ <;> intro h2 h3
  · exact ⟨l, h1, fun _ e => by simp at e, h3⟩
  · obtain ⟨l', k1, k2, k3⟩ := hf a h'
    have := h2 a rfl
    subst this
    refine ⟨l', k1, k2, fun b hb => ?_⟩
    rcases k3 b hb with hb | hb
    · simpa using Or.inl (b := b ∈ l') (by simpa using h3 b hb)
    · exact .inr hb

private theorem pure (a : α) : LeavesRaw (F := F) k (Pure.pure a) := same fun _ _ h => h
private theorem stop (e : Stop) : LeavesRaw (F := F) (α := α) k (M.stop e) := same fun _ _ h => h

private theorem attempt : LeavesRaw (F := F) k Heap.attempt := same fun h a => by unfold Heap.attempt; split <;> exact id
private theorem string (p : Nat) : LeavesRaw (F := F) k (Heap.string p) := same fun h a => by unfold Heap.string; split <;> exact id
private theorem vector (p : Nat) : LeavesRaw (F := F) k (Heap.vector p) := same fun h a => by unfold Heap.vector; split <;> exact id
private theorem map (p : Nat) : LeavesRaw (F := F) k (Heap.map p) := same fun h a => by unfold Heap.map; split <;> exact id
private theorem free (p : Nat) : LeavesRaw (F := F) k (Heap.free p) := same fun h a => by
  unfold Heap.free
  split
  · simp only [upd]
    split
    · intro h; cases h
    · exact id
  · exact id

private theorem each {d : Cell F → M (Heap F) Unit} (hd : ∀ c, LeavesRaw k (d c)) (cs : List (Cell F)) : LeavesRaw k (Heap.each d cs) := by
  induction cs with
  | nil => exact pure _
  | cons c cs ih => exact (hd c).bind fun _ => ih

private theorem destroy (n : Nat) : ∀ c : Cell F, LeavesRaw k (Heap.destroy n c) := by
  induction n with
  | zero => intro c; cases c <;> unfold Heap.destroy <;> first | exact pure _ | exact stop _ | exact (string _).bind fun _ => free _
  | succ n ih =>
    intro c
    cases c <;> unfold Heap.destroy <;> first
      | exact pure _
      | exact (string _).bind fun _ => free _
      | exact (vector _).bind fun _ => (each ih _).bind fun _ => free _
      | exact (map _).bind fun _ => (each ih _).bind fun _ => free _

private theorem unwinding {m : M (Heap F) α} (hm : LeavesRaw k m) {c : M (Heap F) Unit} (hc : LeavesRaw 0 c) : LeavesRaw k (Heap.unwinding m c) := by
  intro h
  obtain ⟨l, h1, h2, h3⟩ := hm h
  unfold Heap.unwinding
  revert h2 h3
  rcases m h with ⟨e | a, h'⟩ <;> intro h2 h3
  · have h4 := none hc h'
    simp only
    revert h4
    rcases c h' with ⟨e' | u, h''⟩ <;> intro h4
    · exact ⟨l, h1, fun _ e => by simp at e, fun b hb => h3 b (h4 b hb)⟩
    · exact ⟨l, h1, fun _ e => by simp at e, fun b hb => h3 b (h4 b hb)⟩
  · exact ⟨l, h1, h2, h3⟩

private theorem copyAll {f : Cell F → M (Heap F) (Cell F)} (hf : ∀ c, LeavesRaw k (f c)) {d : Cell F → M (Heap F) Unit} (hd : ∀ c, LeavesRaw 0 (d c))
    (cs : List (Cell F)) : LeavesRaw k (Heap.copyAll f d cs) := by
  induction cs with
  | nil => exact pure _
  | cons c cs ih => exact attempt.bind fun _ => (hf c).bind fun c' => (unwinding ih (hd c')).bind fun _ => pure _

private theorem block {m : M (Heap F) α} (hm : LeavesRaw k m) (b : α → Block F) (hb : ∀ x, b x ≠ .raw) (r : Nat → β) :
    LeavesRaw (k + 1) (do let p ← Heap.allocate; Heap.attempt; let x ← m; Heap.put p (b x); Pure.pure (r p)) := by
  intro h
  simp only [Heap.allocate, M.bind_def]
  unfold Heap.attempt
  cases h0 : h.plan h.tick with
  | false => exact ⟨[], by simp, fun _ e => by simp at e, fun a ha => .inl ha⟩
  | true =>
    simp only [if_true, Heap.extend]
    have raws : ∀ a, upd h.mem h.next (some Block.raw) a = some .raw → h.mem a = some .raw ∨ a = h.next := by
      intro a ha
      unfold upd at ha
      split at ha
      · exact .inr ‹_›
      · exact .inl ha
    cases h1 : h.plan (h.tick + 1) with
    | false =>
      simp only [Bool.false_eq_true, if_false]
      exact ⟨[h.next], by simp, fun _ e => by simp at e, fun a ha => (raws a ha).imp id (by simp)⟩
    | true =>
      simp only [if_true]
      obtain ⟨l, k1, k2, k3⟩ := hm { mem := upd h.mem h.next (some .raw), next := h.next + 1, plan := h.plan, tick := h.tick + 1 + 1 }
      revert k2 k3
      rcases m { mem := upd h.mem h.next (some .raw), next := h.next + 1, plan := h.plan, tick := h.tick + 1 + 1 } with ⟨e | x, h'⟩ <;> intro k2 k3
      · refine ⟨h.next :: l, by simp; omega, fun _ e => by simp at e, fun a ha => ?_⟩
        rcases k3 a ha with ha | ha
        · exact (raws a ha).imp id (by rintro rfl; simp)
        · exact .inr (List.mem_cons_of_mem _ ha)
      · have := k2 x rfl
        subst this
        simp only [Heap.put]
        cases h2 : h'.mem h.next with
        | none => exact ⟨[h.next], by simp, fun _ e => by simp at e, fun a ha => by
            rcases k3 a ha with ha | ha
            · exact (raws a ha).imp id (by rintro rfl; simp)
            · simp at ha⟩
        | some b' =>
          refine ⟨[], by simp, fun _ _ => rfl, fun a ha => ?_⟩
          have ha : upd h'.mem h.next (some (b x)) a = some .raw := ha
          unfold upd at ha
          split at ha
          · exact (hb x (Option.some.inj ha)).elim
          · rcases k3 a ha with ha | ha
            · rcases raws a ha with ha | ha
              · exact .inl ha
              · exact absurd ha ‹_›
            · simp at ha

private theorem more {m : M (Heap F) α} {j : Nat} (hm : LeavesRaw k m) (h : k ≤ j) : LeavesRaw j m := fun s => by
  obtain ⟨l, h1, h2⟩ := hm s
  exact ⟨l, by omega, h2⟩

private theorem copy (n : Nat) : ∀ c : Cell F, LeavesRaw (n + 1) (Heap.copy n c) := by
  induction n with
  | zero =>
    intro c
    cases c with
    | str a =>
      unfold Heap.copy
      exact (string a).bind fun s => block (pure ()) (fun _ => .str s) (by simp) Cell.str
    | _ => unfold Heap.copy; first | exact pure _ | exact stop _
  | succ n ih =>
    intro c
    cases c with
    | str a =>
      unfold Heap.copy
      exact (string a).bind fun s => (block (k := 0) (pure ()) (fun _ => .str s) (by simp) Cell.str).more (by omega)
    | arr a =>
      unfold Heap.copy
      exact (vector a).bind fun cs => block (copyAll ih (destroy n) cs) (fun cs' => .arr cs') (by simp) Cell.arr
    | obj a =>
      unfold Heap.copy
      exact (map a).bind fun ms => block (copyAll ih (destroy n) (ms.map Prod.snd)) (fun cs' => .obj ((ms.map Prod.fst).zip cs')) (by simp) Cell.obj
    | _ => unfold Heap.copy; exact pure _

end LeavesRaw

private theorem copy_lost (fo : FloatOps F) {s : State F} (h : Reach fo s) {E : Env F} (hE : Shows s E) {r : Ref} {v : Value F}
    (hr : E.get r = some v) (t : Var) : ∃ p, State.ref (.user r.var) r.path s = (.ok p, s) ∧
    ∃ l : List Nat, l.length ≤ nest v + 1 ∧ ((State.copyConstruct t p s).1 = .ok () → l = []) ∧
      ∀ a, (State.copyConstruct t p s).2.heap.mem a = some .raw → s.heap.mem a = some .raw ∨ a ∈ l := by
  obtain ⟨E', L, hh, _, _⟩ := h.holds
  have := hE.unique hh.shows
  subst this
  obtain ⟨fp, ho, _⟩ := hh
  have hr' : vget E.all (.user r.var) r.path = some v := hr
  obtain ⟨p, c, hat⟩ := ho.vat hr'
  obtain ⟨w, u, fu, ctx, m, g1, g2, g3, g4, _⟩ := ho.update hat
  have hu : u = v := by
    simp only [vget, g1, Option.bind_some, g2] at hr'
    injection hr'
  subst hu
  have hsub : ∀ a ∈ fu, a ∈ fp (.user r.var) := fun a ha => g4.symm.subset (by simp [ha])
  have hlt : ∀ a ∈ fu, a < s.heap.next := fun a ha => (ho.alloc (hsub a ha)).2
  have hnd : fu.Nodup := (List.nodup_append.1 (g4.nodup_iff.1 (ho.nodup _))).1
  have hlen : fu.length ≤ s.heap.next := length_le_of_nodup _ _ hnd hlt
  have hn : Spec.Repr s.heap.mem s.depth c u fu := g3.depth.mono (by simp only [State.depth]; omega)
  have hd : nest u ≤ s.depth := Nat.not_lt.1 fun hlt => by
    obtain ⟨h', e⟩ := destroy_short hn hnd hlt
    rw [destroy_ok hn hnd] at e
    cases e
  refine ⟨p, hat.ref, ?_⟩
  obtain ⟨l, h1, h2, h3⟩ := LeavesRaw.copy (nest u) c s.heap
  rw [copy_same hn ho.fresh hlt (Nat.le_refl _) hd] at h2 h3
  rw [copyConstruct_copy hat.read]
  revert h2 h3
  rcases Heap.copy s.depth c s.heap with ⟨e | c', h'⟩ <;> intro h2 h3
  · exact ⟨l, h1, fun e => by simp at e, h3⟩
  · exact ⟨l, h1, fun _ => h2 c' rfl, h3⟩

/-- C65, what is left of it, for one copy: however large the value is, a copy of a variable or a part of it that fails loses at most one
block for each level of its nesting and one more. A copy that succeeds loses none. -/
theorem C65_lost_bound_partial (fo : FloatOps F) {s : State F} (h : Reach fo s) {E : Env F} (hE : Shows s E) {r : Ref} {v : Value F}
    (hr : E.get r = some v) (x : Nat) :
    ∃ l : List Nat, l.length ≤ nest v + 1 ∧ (((Cmd.copy x r).run fo s).1 = .ok () → l = []) ∧
      ∀ a, ((Cmd.copy x r).run fo s).2.heap.mem a = some .raw → s.heap.mem a = some .raw ∨ a ∈ l := by
  obtain ⟨p, e, k⟩ := copy_lost fo h hE hr (.user x)
  have er : (Cmd.copy x r).run fo s = State.copyConstruct (.user x) p s := by
    simp only [Cmd.run]
    rw [M.bind_ok e]
  rw [er]
  exact k

/-- `m` leaves no new blocks in which nothing has been constructed, however it ends. -/
private def NoRaw {α : Type} (m : M (State F) α) : Prop := ∀ s a, (m s).2.heap.mem a = some .raw → s.heap.mem a = some .raw

namespace NoRaw
variable {α β : Type}

private theorem bind {m : M (State F) α} {f : α → M (State F) β} (hm : NoRaw m) (hf : ∀ a, NoRaw (f a)) : NoRaw (m >>= f) := by
  intro s a
  have h1 := hm s a
  rw [M.bind_def]
  revert h1
  rcases m s with ⟨e | x, s'⟩ <;> intro h1
  · exact h1
  · exact fun h => h1 (hf x s' a h)

private theorem read (l : Loc) : NoRaw (F := F) (State.read l) := fun s a => by
  unfold State.read
  split <;> split <;> first | exact id | (split <;> exact id)

private theorem write (l : Loc) (c : Cell F) : NoRaw (State.write l c) := fun s a => by
  unfold State.write
  split
  · split <;> exact id
  · split
    · next b hb =>
      split
      · simp only [upd]
        split
        · next e =>
          subst e
          intro h
          rw [hb]
          cases b <;> simp [Block.withCells] at h ⊢
        · exact id
      · exact id
    · exact id

private theorem swap (l r : Loc) : NoRaw (F := F) (State.swap l r) :=
  (read l).bind fun _ => (read r).bind fun _ => (write l _).bind fun _ => write r _

private theorem destruct (x : Var) : NoRaw (F := F) (State.destruct x) :=
  (read _).bind fun c => bind (fun _ _ => id) fun n =>
    bind (fun s a h => (LeavesRaw.destroy n c).none s.heap a h) fun _ => fun _ _ => id

end NoRaw

/-- C65, what is left of it, for one copy assignment between variables or parts of them: if it fails, it loses at most one block for each
level of the nesting of the value that is copied and one more. If it succeeds it loses none. -/
theorem C65_assign_lost_bound_partial (fo : FloatOps F) {s : State F} (h : Reach fo s) {E : Env F} (hE : Shows s E) {d r : Ref} {u v : Value F}
    (hd : E.get d = some u) (hr : E.get r = some v) :
    ∃ l : List Nat, l.length ≤ nest v + 1 ∧ (((Cmd.copyAssign d r).run fo s).1 = .ok () → l = []) ∧
      ∀ a, ((Cmd.copyAssign d r).run fo s).2.heap.mem a = some .raw → s.heap.mem a = some .raw ∨ a ∈ l := by
  obtain ⟨q, e1, _⟩ := copy_lost fo h hE hd .tmp
  obtain ⟨p, e2, l, k1, k2, k3⟩ := copy_lost fo h hE hr .tmp
  have er : (Cmd.copyAssign d r).run fo s = State.copyAssign q p s := by
    simp only [Cmd.run]
    rw [M.bind_ok e1, M.bind_ok e2]
  rw [er]
  unfold State.copyAssign
  by_cases hqp : q = p
  · rw [if_pos hqp]
    exact ⟨[], by simp, fun _ => rfl, fun a ha => .inl ha⟩
  · rw [if_neg hqp, M.bind_def]
    revert k2 k3
    rcases State.copyConstruct .tmp p s with ⟨e | _, s'⟩ <;> intro k2 k3
    · exact ⟨l, k1, fun e => by simp at e, k3⟩
    · have := k2 rfl
      subst this
      exact ⟨[], by simp, fun _ => rfl, fun a ha => k3 a (((NoRaw.swap q (.var .tmp)).bind fun _ => NoRaw.destruct .tmp) s' a ha)⟩

/-- The hypotheses are met, with an assignment that fails: `v1 = v0`. -/
example (fo : FloatOps F) : ∃ s E, Reach fo s ∧ Shows s E ∧ E.get ⟨1, []⟩ = some .null ∧ E.get ⟨0, []⟩ = some (.str [97]) ∧
    ((Cmd.copyAssign ⟨1, []⟩ ⟨0, []⟩).run fo s).1 = .error (.exn .badAlloc) := by
  obtain ⟨s, h1, h2, h3, h4, h5, h6, h7⟩ := failing_sample fo
  refine ⟨s, _, h1, h7, by simp [Env.get, part], by simp [Env.get, part], ?_⟩
  obtain ⟨⟨mem, next, plan, tick⟩, vars⟩ := s
  simp only at h2 h3 h4 h5 h6
  subst h3 h4 h5 h6
  simp [Cmd.run, M.bind_def, M.pure_def, State.ref, State.read, State.locate, State.copyAssign, State.copyConstruct, M.gets, State.onHeap, Heap.copy,
    State.depth, Heap.string, Heap.allocate, Heap.attempt, Heap.extend, h2]

/-- The hypotheses of `C65_lost_bound_partial` are met, and as many are lost as the bound allows: a string, which has no nesting, and one block. -/
example (fo : FloatOps F) : ∃ s E, Reach fo s ∧ Shows s E ∧ E.get ⟨0, []⟩ = some (.str [97]) ∧ nest (.str [97] : Value F) + 1 = 1 ∧
    ((Cmd.copy 2 ⟨0, []⟩).run fo s).1 = .error (.exn .badAlloc) ∧ s.heap.mem 1 = none ∧
    ((Cmd.copy 2 ⟨0, []⟩).run fo s).2.heap.mem 1 = some .raw := by
  obtain ⟨s, h1, h2, h3, h4, h5, h6, h7⟩ := failing_sample fo
  refine ⟨s, _, h1, h7, by simp [Env.get, part], rfl, ?_⟩
  obtain ⟨⟨mem, next, plan, tick⟩, vars⟩ := s
  simp only at h2 h3 h4 h5 h6
  subst h3 h4 h5 h6
  simp [Cmd.run, M.bind_def, M.pure_def, State.ref, State.read, State.locate, State.copyConstruct, M.gets, State.onHeap, Heap.copy,
    State.depth, Heap.string, Heap.allocate, Heap.attempt, Heap.extend, h2, upd]

/-- Also for a part: `v0[0]` where `v0 = [["a"], null]`. -/
example (fo : FloatOps F) : ∃ s E v, Reach fo s ∧ Shows s E ∧ E.get ⟨0, [0]⟩ = some v ∧ nest v = 1 := by
  obtain ⟨s, h1, _, E, h2, h3, _, _⟩ := memorySample_reached fo
  exact ⟨s, E, _, h1, h2, by simp [Env.get, h3, part, kids]; rfl, rfl⟩

/-! ## The bound is met for every nesting -/

/-- A string in `n` arrays. -/
def wrapped : Nat → Value F
  | 0 => .str [97]
  | n + 1 => .arr [wrapped n]

private def wcell : Nat → Cell F
  | 0 => .str 0
  | n + 1 => .arr (n + 1)

private def wblock : Nat → Block F
  | 0 => .str [97]
  | n + 1 => .arr [wcell n]

private def wfp : Nat → List Nat
  | 0 => [0]
  | n + 1 => (n + 1) :: wfp n

private theorem wfp_mem : ∀ {n a : Nat}, a ∈ wfp n ↔ a ≤ n
  | 0, a => by simp [wfp]
  | n + 1, a => by simp only [wfp, List.mem_cons, wfp_mem]; omega

private theorem wfp_nodup : ∀ n, (wfp n).Nodup
  | 0 => by simp [wfp]
  | n + 1 => by
    simp only [wfp, List.nodup_cons, wfp_mem]
    exact ⟨by omega, wfp_nodup n⟩

private theorem wrepr {mem : Nat → Option (Block F)} : ∀ {n : Nat}, (∀ a, a ≤ n → mem a = some (wblock a)) → Spec.Repr mem n (wcell n) (wrapped n) (wfp n)
  | 0, h => ⟨h 0 (by omega), rfl⟩
  | n + 1, h => .inr ⟨n + 1, .arr [wcell n], [wfp n], h _ (by omega), rfl,
      .cons (wrepr fun a ha => h a (by omega)) .nil, by simp [wfp]⟩

private theorem wnest : ∀ n, nest (wrapped n : Value F) = n
  | 0 => rfl
  | n + 1 => by simp [wrapped, nest, nestElems, wnest n]; omega

private theorem wcopy : ∀ (k j : Nat) (h : Heap F), (∀ a, a ≤ k → h.mem a = some (wblock a)) → k < h.next →
    (∀ t, h.tick ≤ t → t < h.tick + 3 * k + 1 → h.plan t = true) → h.plan (h.tick + 3 * k + 1) = false →
    ∃ h', Heap.copy (k + j) (wcell k) h = (.error (.exn .badAlloc), h') ∧ (∀ i, i ≤ k → h'.mem (h.next + i) = some .raw) ∧
      ∀ a, a < h.next → h'.mem a = h.mem a
  | 0, j, h, hm, hk, ht, hf => by
    have h0 := hm 0 (by omega)
    have t0 := ht h.tick (by omega) (by omega)
    refine ⟨_, Prod.ext ?_ rfl, fun i hi => ?_, fun a ha => ?_⟩
    all_goals
      simp only [wblock] at h0
      simp only [Nat.mul_zero, Nat.add_zero] at hf
    · simp [wcell, Heap.copy, Heap.string, h0, M.bind_def, Heap.allocate, Heap.attempt, Heap.extend, t0, hf]
    · have : i = 0 := by omega
      subst this
      simp [wcell, Heap.copy, Heap.string, h0, M.bind_def, Heap.allocate, Heap.attempt, Heap.extend, t0, hf, upd]
    · have : a ≠ h.next := by omega
      simp [wcell, Heap.copy, Heap.string, h0, M.bind_def, Heap.allocate, Heap.attempt, Heap.extend, t0, hf, upd, this]
  | k + 1, j, h, hm, hk, ht, hf => by
    have h0 := hm (k + 1) (by omega)
    have t0 := ht h.tick (by omega) (by omega)
    have t1 := ht (h.tick + 1) (by omega) (by omega)
    have t2 := ht (h.tick + 1 + 1) (by omega) (by omega)
    simp only [wblock] at h0
    obtain ⟨h', e, r1, r2⟩ := wcopy k j { mem := upd h.mem h.next (some .raw), next := h.next + 1, plan := h.plan, tick := h.tick + 1 + 1 + 1 }
      (fun a ha => by
        have : a ≠ h.next := by omega
        simp only [upd, this, if_false]
        exact hm a (by omega))
      (by simp only; omega) (fun t a b => ht t (by simp only at a; omega) (by simp only at b; omega))
      (by simp only; rw [← hf]; congr 1; omega)
    refine ⟨h', ?_, fun i hi => ?_, fun a ha => ?_⟩
    · rw [show k + 1 + j = (k + j) + 1 by omega, show (wcell (k + 1) : Cell F) = .arr (k + 1) from rfl]
      simp [Heap.copy, Heap.vector, h0, M.bind_def, Heap.allocate, Heap.attempt, Heap.extend, t0, t1, t2, Heap.copyAll, e]
    · cases i with
      | zero =>
        rw [Nat.add_zero, r2 h.next (by simp)]
        simp [upd]
      | succ i =>
        have := r1 i (by omega)
        simp only at this
        rw [← this]; congr 1; omega
    · rw [r2 a (by simp only; omega)]
      have : a ≠ h.next := by omega
      simp [upd, this]

/-- C65: the bound of `C65_lost_bound_partial` cannot be improved. For every `n` there are a value nested `n` deep and a state in which all
blocks are owned, such that a copy of the value throws `std::bad_alloc` and loses `n + 1` blocks. -/
theorem C65_lost_bound_met (fo : FloatOps F) (n : Nat) : ∃ (s : State F) (E : Env F) (v : Value F) (l : List Nat), Holds s E nothing ∧
    E 0 = some v ∧ nest v = n ∧ ((Cmd.copy 1 ⟨0, []⟩).run fo s).1 = .error (.exn .badAlloc) ∧ l.Nodup ∧ l.length = n + 1 ∧
    ∀ a ∈ l, s.heap.mem a = none ∧ ((Cmd.copy 1 ⟨0, []⟩).run fo s).2.heap.mem a = some .raw := by
  let s : State F :=
    { heap := { mem := fun a => if a ≤ n then some (wblock a) else none, next := n + 1, plan := fun t => decide (t < 3 * n + 1), tick := 0 },
      vars := fun x => if x = .user 0 then some (wcell n) else none }
  have hm : ∀ a, a ≤ n → s.heap.mem a = some (wblock a) := fun a ha => by simp [s, ha]
  obtain ⟨h', e, r1, r2⟩ := wcopy n 2 s.heap hm (by simp [s]) (fun t _ ht => by simp [s] at ht ⊢; omega) (by simp [s])
  have er : (Cmd.copy 1 ⟨0, []⟩).run fo s = (.error (.exn .badAlloc), { s with heap := h' }) := by
    have e0 : s.vars (.user 0) = some (wcell n) := by simp [s]
    have e1 : State.read (.var (.user 0)) s = (.ok (wcell n), s) := by simp [State.read, e0]
    have e2 : (M.gets State.depth : M (State F) Nat) s = (.ok (n + 2), s) := rfl
    have e3 : (Cmd.copy 1 ⟨0, []⟩).run fo s = State.copyConstruct (.user 1) (.var (.user 0)) s := by
      simp [Cmd.run, State.ref, State.locate, M.bind_def, M.pure_def, State.read, e0]
    rw [e3]
    unfold State.copyConstruct
    rw [M.bind_ok e1, M.bind_ok e2, M.bind_def]
    simp only [State.onHeap, e]
  refine ⟨s, fun x => if x = 0 then some (wrapped n) else none, wrapped n, (List.range (n + 1)).map (n + 1 + ·), ?_, rfl, wnest n, by rw [er], ?_, by simp, ?_⟩
  · refine ⟨fun x => if x = .user 0 then wfp n else [], ⟨fun x => ?_, fun x => ?_, fun x y hxy a ha => ?_, fun a ha => ?_⟩, fun a => ?_⟩
    · by_cases hx : x = .user 0
      · subst hx
        simp only [s, if_true, Env.all]
        exact ⟨n, wrepr hm⟩
      · have : Env.all (fun x => if x = 0 then some (wrapped n) else none : Env F) x = none := by
          cases x <;> simp [Env.all] at hx ⊢
          exact hx
        rw [this]
        simp [s, hx, Stands]
    · split
      · exact wfp_nodup n
      · simp
    · by_cases hx : x = .user 0
      · have : y ≠ .user 0 := fun h => hxy (hx.trans h.symm)
        simp [this]
      · simp [hx] at ha
    · have ha : n + 1 ≤ a := ha
      have : ¬ a ≤ n := by omega
      simp [s, this]
    · refine ⟨fun h => h.elim, fun ⟨h1, h2⟩ => ?_⟩
      have h3 := h2 (.user 0)
      simp only [if_true, wfp_mem] at h3
      exact h1 (by simp [s, h3])
  · exact List.Pairwise.map _ (fun a b h => by omega) List.nodup_range
  · intro a ha
    obtain ⟨i, hi, rfl⟩ := List.mem_map.1 ha
    have hi : i ≤ n := by have := List.mem_range.1 hi; omega
    refine ⟨?_, ?_⟩
    · have : ¬ n + 1 + i ≤ n := by omega
      simp [s, this]
    · rw [er]
      exact r1 i hi

end Configor.Props
