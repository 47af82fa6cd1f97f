import Verif.Proofs.StackOps
import Verif.Proofs.HeapCopy
import Verif.Proofs.HeapHist
import Verif.Proofs.Frame
/-!
# Copying and destroying with a bounded stack
-/
namespace Configor
open Spec
open Heap.Frames (Calm calm_destroy)

variable {F : Type}

theorem nestElems_kid {x : Value F} {xs : List (Value F)} (h : x ∈ xs) : nest x ≤ nestElems xs := by
  induction xs with
  | nil => cases h
  | cons y ys ih =>
    simp only [nestElems]
    rcases List.mem_cons.1 h with rfl | h
    · omega
    · have := ih h; omega

theorem nestElems_deep {xs : List (Value F)} {n : Nat} (h : n < nestElems xs) : ∃ x ∈ xs, n < nest x := by
  induction xs with
  | nil => simp [nestElems] at h
  | cons y ys ih =>
    simp only [nestElems] at h
    by_cases hy : n < nest y
    · exact ⟨y, by simp, hy⟩
    · obtain ⟨x, hx, h⟩ := ih (by omega)
      exact ⟨x, by simp [hx], h⟩

theorem nestMembers_kids : ∀ ms : List (List Nat × Value F), nestMembers ms = nestElems (ms.map Prod.snd)
  | [] => rfl
  | (_, _) :: ms => by simp only [nestMembers, List.map_cons, nestElems, nestMembers_kids ms]

theorem nest_node {a : Nat} {c : Cell F} {b : Block F} {v : Value F} (h : Node a c b v) : nest v = 1 + nestElems (kids v) := by
  cases c <;> cases b <;> cases v <;> simp only [Node] at h
  · rfl
  · simp only [nest, kids, nestMembers_kids]

theorem All3.imp2 {A B C : Type} {R S : A → B → C → Prop} {as bs cs} (h : All3 R as bs cs)
    (hi : ∀ a b c, b ∈ bs → R a b c → S a b c) : All3 S as bs cs := by
  induction h with
  | nil => exact .nil
  | cons h1 _ ih => exact .cons (hi _ _ _ (by simp) h1) (ih fun a b c hc => hi a b c (by simp [hc]))

/-- The nesting of the value bounds the depth. -/
theorem Repr.nest {mem : Nat → Option (Block F)} : ∀ {n : Nat} {c : Cell F} {v : Value F} {fp : List Nat}, Repr mem n c v fp →
    Repr mem (nest v) c v fp := by
  intro n
  induction n with
  | zero => intro c v fp h; exact Spec.Repr.mono (n := 0) h (by omega)
  | succ n ih =>
    intro c v fp h
    rcases h with h | ⟨a, b, fps, h1, h2, h3, h4⟩
    · exact Spec.Repr.mono (n := 0) (by exact h) (by omega)
    · rw [nest_node h2, Nat.add_comm]
      exact .inr ⟨a, b, fps, h1, h2, All3.imp2 h3 fun x y z hy hr => Spec.Repr.mono (ih hr) (nestElems_kid hy), h4⟩

theorem nest_flat {mem : Nat → Option (Block F)} {c : Cell F} {v : Value F} {fp : List Nat} (h : Flat mem c v fp) : nest v = 0 := by
  cases c <;> cases v <;> simp only [Flat] at h <;> rfl

/-! ## Destroying -/

theorem each_short {n N : Nat}
    (ih : ∀ {h : Heap F} {c : Cell F} {v : Value F} {fp : List Nat}, Repr h.mem N c v fp → fp.Nodup → n < nest v →
      ∃ h', Heap.destroy n c h = (.error .fuel, h')) :
    ∀ {cs : List (Cell F)} {vs : List (Value F)} {fps : List (List Nat)} {h : Heap F}, All3 (Repr h.mem N) cs vs fps →
      fps.flatten.Nodup → (∃ v ∈ vs, n < nest v) → ∃ h', Heap.each (Heap.destroy n) cs h = (.error .fuel, h') := by
  intro cs
  induction cs with
  | nil =>
    rintro vs fps h ha _ ⟨v, hv, _⟩
    cases ha
    cases hv
  | cons c cs ihl =>
    intro vs fps h ha hn hd
    cases ha with
    | @cons _ v f _ vs fs h1 h2 =>
      simp only [List.flatten_cons, List.nodup_append] at hn
      simp only [Heap.each]
      by_cases hv : n < nest v
      · obtain ⟨h', e⟩ := ih h1 hn.1 hv
        exact ⟨h', by rw [M.bind_error e]⟩
      · have hd : ∃ v ∈ vs, n < nest v := by
          obtain ⟨w, hw, hd⟩ := hd
          rcases List.mem_cons.1 hw with rfl | hw
          · exact absurd hd hv
          · exact ⟨w, hw, hd⟩
        rw [M.bind_ok (destroy_ok (Spec.Repr.mono (Repr.nest h1) (by omega)) hn.1)]
        exact ihl (h := without h f) (Spec.All3.imp h2 fun x y z hz hr => Spec.Repr.frame hr fun k hk => without_mem (by
          intro hkf
          exact hn.2.2 k hkf k (List.mem_flatten.2 ⟨z, hz, hk⟩) rfl)) hn.2.1 hd

theorem destroy_short : ∀ {n N : Nat} {h : Heap F} {c : Cell F} {v : Value F} {fp : List Nat}, Repr h.mem N c v fp → fp.Nodup → n < nest v →
    ∃ h', Heap.destroy n c h = (.error .fuel, h') := by
  intro n N
  induction N generalizing n with
  | zero => intro h c v fp hr _ hv; rw [nest_flat hr] at hv; omega
  | succ N ih =>
    intro h c v fp hr hn hv
    rcases hr with hr | ⟨a, b, fps, h1, h2, h3, h4⟩
    · rw [nest_flat hr] at hv; omega
    · subst h4
      simp only [List.nodup_cons] at hn
      rw [nest_node h2] at hv
      cases n with
      | zero => cases c <;> cases b <;> cases v <;> simp only [Node] at h2 <;> exact ⟨h, rfl⟩
      | succ n =>
        obtain ⟨h', he⟩ := each_short (n := n) (fun hr hn => ih hr hn) h3 hn.2 (nestElems_deep (by omega))
        cases c <;> cases b <;> cases v <;> simp only [Node] at h2
        · subst h2
          rename_i a cs _
          have : Heap.vector a h = (.ok cs, h) := by simp only [Heap.vector, h1]
          simp only [Heap.destroy]
          simp only [Block.cells] at he
          exact ⟨h', by rw [M.bind_ok this, M.bind_error he]⟩
        · obtain ⟨h2, _⟩ := h2
          subst h2
          rename_i a ms _ _
          have : Heap.map a h = (.ok ms, h) := by simp only [Heap.map, h1]
          simp only [Heap.destroy]
          simp only [Block.cells] at he
          exact ⟨h', by rw [M.bind_ok this, M.bind_error he]⟩

/-! ## More room changes nothing -/

/-- What ends without lack of room, and not in an undefined way, ends the same way with more. -/
def Below {σ α : Type} (m m' : M σ α) : Prop := ∀ s, Sane (m s).1 → m' s = m s

theorem Below.refl {σ α : Type} (m : M σ α) : Below m m := fun _ _ => rfl

theorem Below.fuel {σ α : Type} {m' : M σ α} : Below (M.stop .fuel) m' := fun _ h => absurd h (by simp [M.stop, Sane])

theorem Below.bind {σ α β : Type} {m m' : M σ α} {f f' : α → M σ β} (h : Below m m') (hf : ∀ a, Below (f a) (f' a)) :
    Below (m >>= f) (m' >>= f') := by
  intro s hs
  rw [M.bind_def] at hs ⊢
  rw [M.bind_def]
  have hm := h s
  generalize m s = r at hs hm
  obtain ⟨r | a, u⟩ := r
  · rw [hm (by cases r <;> first | exact hs | trivial)]
  · rw [hm trivial]
    exact hf a u hs

theorem Below.unwinding {α : Type} {m m' : M (Heap F) α} {c c' : M (Heap F) Unit} (h : Below m m') (hc : Below c c') (hk : Calm c) :
    Below (Heap.unwinding m c) (Heap.unwinding m' c') := by
  intro s hs
  unfold Heap.unwinding at hs ⊢
  have hm := h s
  generalize m s = r at hs hm
  obtain ⟨r | a, u⟩ := r
  · dsimp only at hs
    have hcu := hc u
    have hku := hk u
    generalize hq : c u = q at hs hcu hku
    obtain ⟨q | q, w⟩ := q
    · rcases hku with ⟨_, h⟩ | h
      · cases h
      · exact absurd (by cases q <;> first | exact hs | trivial) h
    · rw [hm (by cases r <;> first | exact hs | trivial)]
      dsimp only
      rw [hcu trivial, hq]
  · rw [hm trivial]

theorem Below.each {d d' : Cell F → M (Heap F) Unit} (h : ∀ c, Below (d c) (d' c)) : ∀ cs, Below (Heap.each d cs) (Heap.each d' cs)
  | [] => .refl _
  | c :: cs => .bind (h c) fun _ => Below.each h cs

theorem Below.destroy : ∀ (n : Nat) (c : Cell F), Below (Heap.destroy n c) (Heap.destroy (n + 1) c) := by
  intro n
  induction n with
  | zero =>
    intro c
    cases c with
    | arr a => exact .fuel
    | obj a => exact .fuel
    | _ => exact .refl _
  | succ n ih =>
    intro c
    cases c with
    | arr a => exact .bind (.refl _) fun _ => .bind (.each ih _) fun _ => .refl _
    | obj a => exact .bind (.refl _) fun _ => .bind (.each ih _) fun _ => .refl _
    | _ => exact .refl _

theorem Below.copyAll {f f' : Cell F → M (Heap F) (Cell F)} {d d' : Cell F → M (Heap F) Unit} (hf : ∀ c, Below (f c) (f' c))
    (hd : ∀ c, Below (d c) (d' c)) (hk : ∀ c, Calm (d c)) : ∀ cs, Below (Heap.copyAll f d cs) (Heap.copyAll f' d' cs)
  | [] => .refl _
  | c :: cs => .bind (.refl _) fun _ => .bind (hf c) fun c' => .bind (.unwinding (Below.copyAll hf hd hk cs) (hd c') (hk c')) fun _ => .refl _

theorem Below.copy : ∀ (n : Nat) (c : Cell F), Below (Heap.copy n c) (Heap.copy (n + 1) c) := by
  intro n
  induction n with
  | zero =>
    intro c
    cases c with
    | arr a => exact .fuel
    | obj a => exact .fuel
    | _ => exact .refl _
  | succ n ih =>
    intro c
    cases c with
    | arr a =>
      exact .bind (.refl _) fun _ => .bind (.refl _) fun _ => .bind (.refl _) fun _ =>
        .bind (.copyAll ih (Below.destroy n) (calm_destroy n) _) fun _ => .refl _
    | obj a =>
      exact .bind (.refl _) fun _ => .bind (.refl _) fun _ => .bind (.refl _) fun _ =>
        .bind (.copyAll ih (Below.destroy n) (calm_destroy n) _) fun _ => .refl _
    | _ => exact .refl _

/-- With room for the nesting of the value, copying is as it would be without bound. -/
theorem copy_same {n m : Nat} {h : Heap F} {c : Cell F} {v : Value F} {fp : List Nat} {N : Nat} (hr : Repr h.mem N c v fp) (hf : Fresh h)
    (hlt : ∀ a ∈ fp, a < h.next) (hn : nest v ≤ n) (hm : nest v ≤ m) : Heap.copy n c h = Heap.copy m c h := by
  have main : ∀ k, Heap.copy (nest v + k) c h = Heap.copy (nest v) c h := by
    intro k
    induction k with
    | zero => rfl
    | succ k ih =>
      rw [← Nat.add_assoc, Below.copy _ c h, ih]
      rcases copy_cases (Spec.Repr.mono (Repr.nest hr) (Nat.le_add_right _ k)) hf hlt with ⟨_, _, _, e, _⟩ | ⟨_, e, _⟩ <;>
        (rw [e]; exact trivial)
  obtain ⟨i, rfl⟩ := Nat.exists_eq_add_of_le hn
  obtain ⟨j, rfl⟩ := Nat.exists_eq_add_of_le hm
  rw [main, main]

end Configor
