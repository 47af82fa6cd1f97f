import Verif.Proofs.HeapStill
import Verif.Spec.ConvertMemory
set_option autoImplicit false
/-!
# Conversions in memory: steps
-/
namespace Spec
open Configor

variable {F : Type}

/-! ## Blocks -/

theorem blocksAll_eq : ∀ xs : List (Value F), blocksAll xs = (xs.map blocks).sum
  | [] => by simp [blocksAll]
  | x :: xs => by simp [blocksAll, blocksAll_eq xs]

theorem blocksMembers_eq : ∀ ms : List (List Nat × Value F), blocksMembers ms = ((ms.map Prod.snd).map blocks).sum
  | [] => by simp [blocksMembers]
  | (_, x) :: ms => by simp [blocksMembers, blocksMembers_eq ms]

theorem flat_blocks {mem : Nat → Option (Block F)} {c : Cell F} {v : Value F} {fp : List Nat} (h : Flat mem c v fp) : fp.length = blocks v := by
  cases c <;> cases v <;> simp only [Flat] at h
  case str.str => rw [h.2]; simp [blocks]
  case null.null => rw [h]; simp [blocks]
  all_goals rw [h.2]; simp [blocks]

theorem all3_blocks {R : Cell F → Value F → List Nat → Prop} {cs vs fps} (h : All3 R cs vs fps)
    (hR : ∀ c v fp, R c v fp → fp.length = blocks v) : fps.flatten.length = (vs.map blocks).sum := by
  induction h with
  | nil => rfl
  | cons h _ ih => simp only [List.flatten_cons, List.length_append, List.map_cons, List.sum_cons, hR _ _ _ h, ih]

/-- A value has as many blocks of memory as there are strings, arrays and objects in it. -/
theorem repr_blocks {mem : Nat → Option (Block F)} : ∀ {n : Nat} {c : Cell F} {v : Value F} {fp : List Nat}, Repr mem n c v fp → fp.length = blocks v := by
  intro n
  induction n with
  | zero => intro c v fp h; exact flat_blocks h
  | succ n ih =>
    intro c v fp h
    rcases h with h | ⟨a, b, fps, _, h2, h3, rfl⟩
    · exact flat_blocks h
    · have := all3_blocks h3 fun c v fp => ih
      rw [List.length_cons, this]
      cases c <;> cases b <;> cases v <;> simp only [Node] at h2
      · simp [blocks, blocksAll_eq, kids]
      · simp [blocks, blocksMembers_eq, kids]

/-! ## More blocks -/

theorem MoreBy.refl (L : Nat → Prop) : MoreBy 0 L L := ⟨[], .nil, rfl, fun a => ⟨by simp, by simp⟩⟩

theorem MoreBy.trans {n m : Nat} {L L' L'' : Nat → Prop} (h : MoreBy n L L') (h' : MoreBy m L' L'') : MoreBy (n + m) L L'' := by
  obtain ⟨l, h1, h2, h3⟩ := h
  obtain ⟨k, k1, k2, k3⟩ := h'
  refine ⟨l ++ k, List.nodup_append.2 ⟨h1, k1, ?_⟩, by simp [h2, k2], fun a => ⟨?_, ?_⟩⟩
  · rintro a ha b hb rfl
    exact (k3 a).1 hb ((h3 a).2.2 (.inr ha))
  · intro ha hL
    rcases List.mem_append.1 ha with ha | ha
    · exact (h3 a).1 ha hL
    · exact (k3 a).1 ha ((h3 a).2.2 (.inl hL))
  · rw [(k3 a).2, (h3 a).2, List.mem_append, or_assoc]

theorem MoreBy.sub {n : Nat} {L L' : Nat → Prop} (h : MoreBy n L L') {a : Nat} (ha : L a) : L' a := by
  obtain ⟨l, _, _, h3⟩ := h
  exact (h3 a).2.2 (.inl ha)

/-! ## Time -/

/-- The allocations of the second state are those of the first, and more. -/
def Later (s s' : State F) : Prop := s'.heap.plan = s.heap.plan ∧ s.heap.tick ≤ s'.heap.tick

theorem Later.refl (s : State F) : Later s s := ⟨rfl, Nat.le_refl _⟩
theorem Later.trans {s s' s'' : State F} (h : Later s s') (h' : Later s' s'') : Later s s'' := ⟨h'.1.trans h.1, Nat.le_trans h.2 h'.2⟩

theorem NoFailure.refl (s : State F) : NoFailure s s := fun t h1 h2 => by omega

theorem noFailure_trans {s s' s'' : State F} (h : Later s s') (h' : Later s' s'') : NoFailure s s'' ↔ NoFailure s s' ∧ NoFailure s' s'' := by
  constructor
  · intro k
    exact ⟨fun t h1 h2 => k t h1 (Nat.lt_of_lt_of_le h2 h'.2), fun t h1 h2 => by rw [h.1]; exact k t (Nat.le_trans h.2 h1) h2⟩
  · rintro ⟨k, k'⟩ t h1 h2
    by_cases e : t < s'.heap.tick
    · exact k t h1 e
    · have := k' t (by omega) h2
      rwa [h.1] at this

/-! ## Contents -/

theorem bind_bind (E : Env F) (k : Nat) (v w : Option (Value F)) : (E.bind k v).bind k w = E.bind k w := by
  funext x
  simp only [Env.bind]
  split <;> rfl

theorem bind_same {E : Env F} {k : Nat} {v : Option (Value F)} (h : E k = v) : E.bind k v = E := by
  funext x
  simp only [Env.bind]
  split
  · next e => rw [e, h]
  · rfl

theorem bind_at (E : Env F) (k : Nat) (v : Option (Value F)) : (E.bind k v) k = v := by simp [Env.bind]
theorem bind_ne {E : Env F} {k j : Nat} (v : Option (Value F)) (h : j ≠ k) : (E.bind k v) j = E j := by simp [Env.bind, h]

theorem bind_comm {E : Env F} {k j : Nat} (h : k ≠ j) (v w : Option (Value F)) : (E.bind k v).bind j w = (E.bind j w).bind k v := by
  funext x
  simp only [Env.bind]
  by_cases h1 : x = j
  · subst h1; simp [Ne.symm h]
  · simp [h1]

/-- A value is given up without being destroyed. -/
theorem forget_holds {s : State F} {E : Env F} {L : Nat → Prop} {k : Nat} (h : Holds s E L) :
    ∃ s' L', State.forget (.user k) s = (.ok (), s') ∧ s'.heap = s.heap ∧ Holds s' (E.bind k none) L' ∧ MoreBy (((E k).map blocks).getD 0) L L' := by
  obtain ⟨fp, o, hL⟩ := h
  refine ⟨{ s with vars := upd s.vars (.user k) none }, fun a => L a ∨ a ∈ fp (.user k), rfl, rfl, ⟨upd fp (.user k) [], ?_, ?_⟩, ?_⟩
  · refine ⟨fun x => ?_, fun x => ?_, fun x y hxy a ha => ?_, o.fresh⟩
    · rw [all_bind]
      simp only [upd]
      by_cases e : x = .user k
      · simp [e, Stands]
      · simp only [e, if_false]
        exact o.stands x
    · simp only [upd]
      split
      · exact .nil
      · exact o.nodup x
    · simp only [upd] at ha ⊢
      split at ha
      · cases ha
      · split
        · simp
        · exact o.disjoint x y hxy a ha
  · intro a
    simp only [hL a, upd]
    constructor
    · rintro (⟨h1, h2⟩ | h1)
      · exact ⟨h1, fun x => by split; simp; exact h2 x⟩
      · refine ⟨?_, fun x hx => ?_⟩
        · intro e
          exact absurd e (o.alloc h1).1
        · split at hx
          · cases hx
          · next ne => exact o.disjoint x _ ne a hx h1
    · rintro ⟨h1, h2⟩
      by_cases e : a ∈ fp (.user k)
      · exact .inr e
      · refine .inl ⟨h1, fun x hx => ?_⟩
        have := h2 x
        split at this
        · next ex => subst ex; exact e hx
        · exact this hx
  · refine ⟨fp (.user k), o.nodup _, ?_, fun a => ⟨fun ha hl => ((hL a).1 hl).2 _ ha, .rfl⟩⟩
    have := o.stands (.user k)
    simp only [Env.all] at this
    rcases hv : s.vars (.user k) with _ | c
    · rw [hv] at this
      rcases hE : E k with _ | v
      · rw [hE] at this
        simp only [Stands] at this
        rw [this]; rfl
      · rw [hE] at this; exact this.elim
    · rw [hv] at this
      rcases hE : E k with _ | v
      · rw [hE] at this; exact this.elim
      · rw [hE] at this
        obtain ⟨n, hr⟩ := this
        simpa using repr_blocks hr

end Spec
