import Verif.Model.StackOps
import Verif.Spec.Height
import Verif.Spec.Values
/-!
# Dumping and comparing with a bounded stack
-/
namespace Configor
open Spec

variable {F : Type}

theorem height_elem {x : Value F} {xs : List (Value F)} (h : x ∈ xs) : height x ≤ heightElems xs := by
  induction xs with
  | nil => cases h
  | cons y ys ih =>
    simp only [heightElems]
    rcases List.mem_cons.1 h with rfl | h
    · omega
    · have := ih h; omega

theorem height_member {m : List Nat × Value F} {ms : List (List Nat × Value F)} (h : m ∈ ms) : height m.2 ≤ heightMembers ms := by
  induction ms with
  | nil => cases h
  | cons y ys ih =>
    obtain ⟨k, y⟩ := y
    simp only [heightMembers]
    rcases List.mem_cons.1 h with rfl | h
    · exact Nat.le_max_left ..
    · have := ih h; omega

theorem heightElems_eq_of {xs : List (Value F)} {n : Nat} (h : n < heightElems xs) : ∃ x ∈ xs, n < height x := by
  induction xs with
  | nil => simp [heightElems] at h
  | cons y ys ih =>
    simp only [heightElems] at h
    by_cases hy : n < height y
    · exact ⟨y, by simp, hy⟩
    · obtain ⟨x, hx, h⟩ := ih (by omega)
      exact ⟨x, by simp [hx], h⟩

theorem heightMembers_eq_of {ms : List (List Nat × Value F)} {n : Nat} (h : n < heightMembers ms) : ∃ m ∈ ms, n < height m.2 := by
  induction ms with
  | nil => simp [heightMembers] at h
  | cons y ys ih =>
    obtain ⟨k, y⟩ := y
    simp only [heightMembers] at h
    by_cases hy : n < height y
    · exact ⟨(k, y), by simp, hy⟩
    · obtain ⟨x, hx, h⟩ := ih (by omega)
      exact ⟨x, by simp [hx], h⟩

/-! ## Dumping -/

namespace Serializer
variable (A : DumpArgs F)

theorem elemsBy_eq {d : Value F → M Ser Unit} : ∀ {xs : List (Value F)}, (∀ x ∈ xs, d x = doDump A x) → elemsBy A d xs = dumpElems A xs
  | [], _ => rfl
  | x :: xs, h => by
    unfold elemsBy dumpElems
    rw [h x (by simp), elemsBy_eq fun y hy => h y (by simp [hy])]

theorem membersBy_eq {d : Value F → M Ser Unit} : ∀ {ms : List (List Nat × Value F)}, (∀ m ∈ ms, d m.2 = doDump A m.2) → membersBy A d ms = dumpMembers A ms
  | [], _ => rfl
  | (k, x) :: ms, h => by
    unfold membersBy dumpMembers
    rw [h (k, x) (by simp), membersBy_eq fun y hy => h y (by simp [hy])]

theorem doDumpWithin_eq : ∀ (n : Nat) (v : Value F), height v ≤ n → doDumpWithin A n v = doDump A v := by
  intro n
  induction n with
  | zero => intro v h; cases v <;> simp only [height] at h <;> omega
  | succ n ih =>
    intro v h
    cases v with
    | arr xs =>
      simp only [height] at h
      unfold doDumpWithin doDump
      rw [elemsBy_eq A fun x hx => ih x (by have := height_elem hx; omega)]
    | obj ms =>
      simp only [height] at h
      unfold doDumpWithin doDump
      rw [membersBy_eq A fun x hx => ih x.2 (by have := height_member hx; omega)]
    | _ => simp only [doDumpWithin, doDump]

theorem bind_fst_ok {σ α β : Type} {m : M σ α} {f : α → M σ β} {s t : σ} {b : β} (h : (m >>= f) s = (.ok b, t)) :
    ∃ a u, m s = (.ok a, u) ∧ f a u = (.ok b, t) := by
  rw [M.bind_def] at h
  generalize m s = r at h
  obtain ⟨r | a, u⟩ := r
  · cases h
  · exact ⟨a, u, rfl, h⟩

/-- If the full version ends normally, the bounded one does or runs out of stack. -/
def Cut {σ α : Type} (m m' : M σ α) : Prop := ∀ s t a, m s = (.ok a, t) → m' s = (.ok a, t) ∨ ∃ t', m' s = (.error .fuel, t')

theorem Cut.refl {σ α : Type} (m : M σ α) : Cut m m := fun _ _ _ h => .inl h

theorem Cut.bind {σ α β : Type} {m m' : M σ α} {f f' : α → M σ β} (h : Cut m m') (hf : ∀ a, Cut (f a) (f' a)) : Cut (m >>= f) (m' >>= f') := by
  intro s t b e
  obtain ⟨a, u, e1, e2⟩ := bind_fst_ok e
  rcases h s u a e1 with h | ⟨t', h⟩
  · rcases hf a u t b e2 with h' | ⟨t', h'⟩
    · exact .inl (by rw [M.bind_ok h, h'])
    · exact .inr ⟨t', by rw [M.bind_ok h, h']⟩
  · exact .inr ⟨t', by rw [M.bind_error h]⟩

/-- It runs out of stack whenever the full version ends normally. -/
def Short {σ α : Type} (m m' : M σ α) : Prop := ∀ s t a, m s = (.ok a, t) → ∃ t', m' s = (.error .fuel, t')

theorem Short.left {σ α β : Type} {m m' : M σ α} {f f' : α → M σ β} (h : Short m m') : Short (m >>= f) (m' >>= f') := by
  intro s t b e
  obtain ⟨a, u, e1, e2⟩ := bind_fst_ok e
  obtain ⟨t', h⟩ := h s u a e1
  exact ⟨t', by rw [M.bind_error h]⟩

theorem Short.right {σ α β : Type} {m m' : M σ α} {f f' : α → M σ β} (h : Cut m m') (hf : ∀ a, Short (f a) (f' a)) : Short (m >>= f) (m' >>= f') := by
  intro s t b e
  obtain ⟨a, u, e1, e2⟩ := bind_fst_ok e
  rcases h s u a e1 with h | ⟨t', h⟩
  · obtain ⟨t', h'⟩ := hf a u t b e2
    exact ⟨t', by rw [M.bind_ok h, h']⟩
  · exact ⟨t', by rw [M.bind_error h]⟩

theorem Cut.ite {σ : Type} {b : Bool} {m : M σ Unit} {k k' : M σ Unit} (h : Cut k k') :
    Cut (if b = true then k else m >>= fun _ => k) (if b = true then k' else m >>= fun _ => k') := by
  cases b
  · exact .bind (.refl _) fun _ => h
  · exact h

theorem Short.ite {σ : Type} {b : Bool} {m : M σ Unit} {k k' : M σ Unit} (h : Short k k') :
    Short (if b = true then k else m >>= fun _ => k) (if b = true then k' else m >>= fun _ => k') := by
  cases b
  · exact .right (.refl _) fun _ => h
  · exact h

theorem elemsBy_cut {d : Value F → M Ser Unit} : ∀ {xs : List (Value F)}, (∀ x ∈ xs, Cut (doDump A x) (d x)) → Cut (dumpElems A xs) (elemsBy A d xs)
  | [], _ => by unfold elemsBy dumpElems; exact .refl _
  | x :: xs, h => by
    unfold elemsBy dumpElems
    exact .bind (h x (by simp)) fun _ => .ite (elemsBy_cut (xs := xs) fun y hy => h y (by simp [hy]))

theorem membersBy_cut {d : Value F → M Ser Unit} : ∀ {ms : List (List Nat × Value F)}, (∀ m ∈ ms, Cut (doDump A m.2) (d m.2)) → Cut (dumpMembers A ms) (membersBy A d ms)
  | [], _ => by unfold membersBy dumpMembers; exact .refl _
  | (k, x) :: ms, h => by
    unfold membersBy dumpMembers
    exact .bind (.refl _) fun _ => .bind (.refl _) fun _ => .bind (.refl _) fun _ => .bind (h (k, x) (by simp)) fun _ =>
      .ite (membersBy_cut (ms := ms) fun y hy => h y (by simp [hy]))

theorem doDumpWithin_cut : ∀ (n : Nat) (v : Value F), Cut (doDump A v) (doDumpWithin A n v) := by
  intro n
  induction n with
  | zero => intro v s t a _; exact .inr ⟨s, rfl⟩
  | succ n ih =>
    intro v
    cases v with
    | arr xs =>
      unfold doDumpWithin doDump
      exact .bind (.refl _) fun _ => .bind (elemsBy_cut A fun x _ => ih x) fun _ => .refl _
    | obj ms =>
      unfold doDumpWithin doDump
      exact .bind (.refl _) fun _ => .bind (membersBy_cut A fun x _ => ih x.2) fun _ => .refl _
    | _ => simp only [doDumpWithin, doDump]; exact .refl _

theorem elemsBy_short {d : Value F → M Ser Unit} : ∀ {xs : List (Value F)}, (∀ x ∈ xs, Cut (doDump A x) (d x)) →
    (∃ x ∈ xs, Short (doDump A x) (d x)) → Short (dumpElems A xs) (elemsBy A d xs)
  | [], _, ⟨_, h, _⟩ => by cases h
  | x :: xs, h, ⟨y, hy, hs⟩ => by
    unfold elemsBy dumpElems
    rcases List.mem_cons.1 hy with rfl | hy
    · exact .left hs
    · exact .right (h x (by simp)) fun _ => .ite (elemsBy_short (xs := xs) (fun y hy => h y (by simp [hy])) ⟨y, hy, hs⟩)

theorem membersBy_short {d : Value F → M Ser Unit} : ∀ {ms : List (List Nat × Value F)}, (∀ m ∈ ms, Cut (doDump A m.2) (d m.2)) →
    (∃ m ∈ ms, Short (doDump A m.2) (d m.2)) → Short (dumpMembers A ms) (membersBy A d ms)
  | [], _, ⟨_, h, _⟩ => by cases h
  | (k, x) :: ms, h, ⟨y, hy, hs⟩ => by
    unfold membersBy dumpMembers
    refine .right (.refl _) fun _ => .right (.refl _) fun _ => .right (.refl _) fun _ => ?_
    rcases List.mem_cons.1 hy with rfl | hy
    · exact .left hs
    · exact .right (h (k, x) (by simp)) fun _ => .ite (membersBy_short (ms := ms) (fun y hy => h y (by simp [hy])) ⟨y, hy, hs⟩)

theorem doDumpWithin_short : ∀ (n : Nat) (v : Value F), n < height v → Short (doDump A v) (doDumpWithin A n v) := by
  intro n
  induction n with
  | zero => intro v _ s t a _; exact ⟨s, rfl⟩
  | succ n ih =>
    intro v hn
    cases v with
    | arr xs =>
      simp only [height] at hn
      unfold doDumpWithin doDump
      refine .right (.refl _) fun _ => .left ?_
      obtain ⟨x, hx, h⟩ := heightElems_eq_of (show n < heightElems xs by omega)
      exact elemsBy_short A (fun x _ => doDumpWithin_cut A _ x) ⟨x, hx, ih x h⟩
    | obj ms =>
      simp only [height] at hn
      unfold doDumpWithin doDump
      refine .right (.refl _) fun _ => .left ?_
      obtain ⟨x, hx, h⟩ := heightMembers_eq_of (show n < heightMembers ms by omega)
      exact membersBy_short A (fun x _ => doDumpWithin_cut A _ x.2) ⟨x, hx, ih x.2 h⟩
    | _ => simp only [height] at hn; omega

end Serializer

/-! ## Comparing -/

theorem height_pos (v : Value F) : 0 < height v := by cases v <;> simp only [height] <;> omega

theorem equalBy_eq {e : Value F → Value F → Option Bool} (fo : FloatOps F) : ∀ {xs ys : List (Value F)}, xs.length = ys.length →
    (∀ x ∈ xs, ∀ y ∈ ys, e x y = some (Value.eq fo x y)) → equalBy e xs ys = some (eqElems fo xs ys)
  | [], [], _, _ => by unfold equalBy eqElems; rfl
  | x :: xs, y :: ys, hl, h => by
    unfold equalBy eqElems
    rw [h x (by simp) y (by simp), equalBy_eq fo (by simpa using hl) fun a ha b hb => h a (by simp [ha]) b (by simp [hb])]
    cases Value.eq fo x y <;> rfl

theorem eqElems_length (fo : FloatOps F) : ∀ {xs ys : List (Value F)}, xs.length ≠ ys.length → eqElems fo xs ys = false
  | [], [], h => absurd rfl h
  | x :: xs, y :: ys, h => by
    unfold eqElems
    rw [eqElems_length fo (by simpa using h), Bool.and_false]
  | [], _ :: _, _ => by unfold eqElems; rfl
  | _ :: _, [], _ => by unfold eqElems; rfl

theorem equalBy_eqMembers {e : Value F → Value F → Option Bool} (fo : FloatOps F) : ∀ {xs ys : List (List Nat × Value F)}, xs.length = ys.length →
    (∀ x ∈ xs, ∀ y ∈ ys, e x.2 y.2 = some (Value.eq fo x.2 y.2)) → equalBy (pairBy e) xs ys = some (eqMembers fo xs ys)
  | [], [], _, _ => by unfold equalBy eqMembers; rfl
  | (k, x) :: xs, (l, y) :: ys, hl, h => by
    unfold equalBy eqMembers
    rw [equalBy_eqMembers fo (xs := xs) (ys := ys) (by simpa using hl) fun a ha b hb => h a (by simp [ha]) b (by simp [hb])]
    unfold pairBy
    have := h (k, x) (by simp) (l, y) (by simp)
    dsimp only at this ⊢
    rw [this]
    cases k == l <;> cases Value.eq fo x y <;> rfl

theorem eqMembers_length (fo : FloatOps F) : ∀ {xs ys : List (List Nat × Value F)}, xs.length ≠ ys.length → eqMembers fo xs ys = false
  | [], [], h => absurd rfl h
  | x :: xs, y :: ys, h => by
    obtain ⟨k, x⟩ := x
    obtain ⟨l, y⟩ := y
    unfold eqMembers
    rw [eqMembers_length fo (by simpa using h), Bool.and_false]
  | [], _ :: _, _ => by unfold eqMembers; rfl
  | _ :: _, [], _ => by unfold eqMembers; rfl

theorem heightElems_le {xs : List (Value F)} {n : Nat} : heightElems xs ≤ n ↔ ∀ x ∈ xs, height x ≤ n := by
  refine ⟨fun h x hx => Nat.le_trans (height_elem hx) h, fun h => Nat.le_of_not_lt fun hn => ?_⟩
  obtain ⟨x, hx, hn⟩ := heightElems_eq_of hn
  exact absurd (h x hx) (by omega)

theorem heightMembers_le {ms : List (List Nat × Value F)} {n : Nat} : heightMembers ms ≤ n ↔ ∀ m ∈ ms, height m.2 ≤ n := by
  refine ⟨fun h x hx => Nat.le_trans (height_member hx) h, fun h => Nat.le_of_not_lt fun hn => ?_⟩
  obtain ⟨x, hx, hn⟩ := heightMembers_eq_of hn
  exact absurd (h x hx) (by omega)

/-- Room for the lower of the two values suffices. -/
theorem eqWithin_eq (fo : FloatOps F) : ∀ (n : Nat) (v w : Value F), height v ≤ n ∨ height w ≤ n →
    Value.eqWithin fo n v w = some (Value.eq fo v w) := by
  intro n
  induction n with
  | zero => intro v w h; have := height_pos v; have := height_pos w; omega
  | succ n ih =>
    intro v w h
    have he : ∀ xs ys : List (Value F), v = .arr xs → w = .arr ys → ∀ x ∈ xs, ∀ y ∈ ys, Value.eqWithin fo n x y = some (Value.eq fo x y) := by
      rintro xs ys rfl rfl x hx y hy
      simp only [height] at h
      have h1 := height_elem hx
      have h2 := height_elem hy
      exact ih x y (by omega)
    have hm : ∀ xs ys : List (List Nat × Value F), v = .obj xs → w = .obj ys → ∀ x ∈ xs, ∀ y ∈ ys, Value.eqWithin fo n x.2 y.2 = some (Value.eq fo x.2 y.2) := by
      rintro xs ys rfl rfl x hx y hy
      simp only [height] at h
      have h1 := height_member hx
      have h2 := height_member hy
      exact ih x.2 y.2 (by omega)
    cases v <;> cases w
    case arr.arr xs ys =>
      unfold Value.eqWithin Value.eq
      split
      · rename_i hl; exact equalBy_eq fo hl (he _ _ rfl rfl)
      · rename_i hl; rw [eqElems_length fo hl]
    case obj.obj xs ys =>
      unfold Value.eqWithin Value.eq
      split
      · rename_i hl; exact equalBy_eqMembers fo hl (hm _ _ rfl rfl)
      · rename_i hl; rw [eqMembers_length fo hl]
    all_goals (unfold Value.eqWithin Value.eq; rfl)

theorem lexBy_elems {l : Value F → Value F → Option Bool} (fo : FloatOps F) : ∀ {xs ys : List (Value F)},
    (∀ x ∈ xs, ∀ y ∈ ys, l x y = some (Value.lt fo x y) ∧ l y x = some (Value.lt fo y x)) → lexBy l xs ys = some (ltElems fo xs ys)
  | [], [], _ => by unfold lexBy ltElems; rfl
  | [], _ :: _, _ => by unfold lexBy ltElems; rfl
  | _ :: _, [], _ => by unfold lexBy ltElems; rfl
  | x :: xs, y :: ys, h => by
    unfold lexBy ltElems
    obtain ⟨h1, h2⟩ := h x (by simp) y (by simp)
    rw [h1, h2, lexBy_elems fo (xs := xs) (ys := ys) fun a ha b hb => h a (by simp [ha]) b (by simp [hb])]
    cases Value.lt fo x y <;> cases Value.lt fo y x <;> rfl

theorem lexBy_members {l : Value F → Value F → Option Bool} (fo : FloatOps F) : ∀ {xs ys : List (List Nat × Value F)},
    (∀ x ∈ xs, ∀ y ∈ ys, l x.2 y.2 = some (Value.lt fo x.2 y.2) ∧ l y.2 x.2 = some (Value.lt fo y.2 x.2)) →
    lexBy (pairLess l) xs ys = some (ltMembers fo xs ys)
  | [], [], _ => by unfold lexBy ltMembers; rfl
  | [], _ :: _, _ => by unfold lexBy ltMembers; rfl
  | _ :: _, [], _ => by unfold lexBy ltMembers; rfl
  | (k, x) :: xs, (j, y) :: ys, h => by
    unfold lexBy ltMembers
    obtain ⟨h1, h2⟩ := h (k, x) (by simp) (j, y) (by simp)
    rw [lexBy_members fo (xs := xs) (ys := ys) fun a ha b hb => h a (by simp [ha]) b (by simp [hb])]
    unfold pairLess
    dsimp only at h1 h2 ⊢
    rw [h1, h2]
    cases ltKey k j <;> cases ltKey j k <;> cases Value.lt fo x y <;> cases Value.lt fo y x <;> rfl

theorem ltWithin_eq (fo : FloatOps F) : ∀ (n : Nat) (v w : Value F), height v ≤ n ∨ height w ≤ n →
    Value.ltWithin fo n v w = some (Value.lt fo v w) := by
  intro n
  induction n with
  | zero => intro v w h; have := height_pos v; have := height_pos w; omega
  | succ n ih =>
    intro v w h
    cases v <;> cases w
    case arr.arr xs ys =>
      unfold Value.ltWithin Value.lt
      refine lexBy_elems fo fun x hx y hy => ?_
      simp only [height] at h
      have h1 := height_elem hx
      have h2 := height_elem hy
      exact ⟨ih x y (by omega), ih y x (by omega)⟩
    case obj.obj xs ys =>
      unfold Value.ltWithin Value.lt
      refine lexBy_members fo fun x hx y hy => ?_
      simp only [height] at h
      have h1 := height_member hx
      have h2 := height_member hy
      exact ⟨ih x.2 y.2 (by omega), ih y.2 x.2 (by omega)⟩
    all_goals (unfold Value.ltWithin Value.lt; rfl)

end Configor
