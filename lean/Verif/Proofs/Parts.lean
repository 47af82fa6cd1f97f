import Verif.Spec.Parts
import Verif.Proofs.Map
/-!
# Lemmas for `Props/Parts`
-/
set_option autoImplicit false
namespace Configor
open Spec

variable {F : Type}

theorem Vec.reserve_elems (g : Growth) (n : Nat) (v : Vec F) : (v.reserve g n).elems = v.elems := by
  unfold Vec.reserve; split <;> rfl

theorem Vec.reserve_cap {g : Growth} (hg : g.Enough) (n : Nat) (v : Vec F) : n ≤ (v.reserve g n).cap := by
  unfold Vec.reserve
  split
  · assumption
  · exact hg _ _

theorem Vec.reserve_mono {g : Growth} (hg : g.Enough) (n : Nat) (v : Vec F) : v.cap ≤ (v.reserve g n).cap := by
  unfold Vec.reserve
  split
  · exact Nat.le_refl _
  · have := hg v.cap n
    simp only
    omega

theorem Vec.touch_elems (g : Growth) (i : Nat) (v : Vec F) :
    (v.touch g i).elems = v.elems ++ List.replicate (i + 1 - v.elems.length) .null := by
  unfold Vec.touch
  split
  · rename_i h
    simp only
    rw [show i - v.elems.length + 1 = i + 1 - v.elems.length by omega]
  · rename_i h
    rw [show i + 1 - v.elems.length = 0 by omega]
    simp

theorem Vec.touch_length (g : Growth) (i : Nat) (v : Vec F) : (v.touch g i).elems.length = max v.elems.length (i + 1) := by
  rw [Vec.touch_elems]
  simp only [List.length_append, List.length_replicate]
  omega

theorem Vec.touch_get (g : Growth) (i j : Nat) (v : Vec F) :
    (v.touch g i).elems[j]? = (v.elems[j]?).or (if j ≤ i then some .null else none) := by
  rw [Vec.touch_elems]
  by_cases h : j < v.elems.length
  · rw [List.getElem?_append_left h, List.getElem?_eq_getElem h]
    rfl
  · rw [List.getElem?_append_right (by omega), List.getElem?_eq_none (show v.elems.length ≤ j by omega), Option.none_or,
      List.getElem?_replicate]
    by_cases hj : j ≤ i
    · rw [if_pos hj, if_pos (by omega)]
    · rw [if_neg hj, if_neg (by omega)]

theorem Vec.touch_fits {g : Growth} (hg : g.Enough) (i : Nat) (v : Vec F) (h : v.elems.length ≤ v.cap) :
    (v.touch g i).elems.length ≤ (v.touch g i).cap := by
  rw [Vec.touch_length]
  unfold Vec.touch
  split
  · have h1 := Vec.reserve_cap hg (i + 1) v
    have h2 := Vec.reserve_mono hg (i + 1) v
    simp only
    omega
  · omega

theorem Vec.touch_same {g : Growth} {i : Nat} {v : Vec F} (h : i < v.cap) : (v.touch g i).storage = v.storage := by
  unfold Vec.touch
  split
  · unfold Vec.reserve
    rw [if_pos (by omega)]
  · rfl

theorem Vec.touch_other {g : Growth} {i : Nat} {v : Vec F} (hv : v.elems.length ≤ v.cap) (h : v.cap ≤ i) :
    (v.touch g i).storage = v.storage + 1 := by
  unfold Vec.touch
  rw [if_pos (by omega)]
  unfold Vec.reserve
  rw [if_neg (by omega)]

/-- The vector that `c[i]` works on. -/
def vecOf : Held F → Vec F
  | .vec v => v
  | _ => .empty

theorem access_index (g : Growth) (i : Nat) (c : Held F) (h : Indexable c.content (.index i)) (hs : Sound c) :
    access g (.index i) c = (.ok (.elem ((vecOf c).touch g i).storage i), .vec ((vecOf c).touch g i)) := by
  cases c with
  | vec v => rfl
  | obj ms => exact h.elim
  | plain v => cases v <;> first | rfl | exact h.elim | exact hs.elim

theorem access_vec (g : Growth) (i : Nat) (v : Vec F) :
    access g (.index i) (.vec v) = (.ok (.elem (v.touch g i).storage i), .vec (v.touch g i)) := rfl

/-- The members that `c[k]` works on. -/
def objOf : Held F → Map.T (Value F)
  | .obj ms => ms
  | _ => []

theorem access_key (g : Growth) (k : List Nat) (c : Held F) (h : Indexable c.content (.key k)) (hs : Sound c) :
    access g (.key k) c = (.ok (.member k), .obj (Map.emplace k .null (objOf c))) := by
  cases c with
  | vec v => exact h.elim
  | obj ms => rfl
  | plain v => cases v <;> first | rfl | exact h.elim | exact hs.elim

theorem access_obj (g : Growth) (k : List Nat) (ms : Map.T (Value F)) :
    access g (.key k) (.obj ms) = (.ok (.member k), .obj (Map.emplace k .null ms)) := rfl

theorem vecOf_fits {c : Held F} (hs : Sound c) : (vecOf c).elems.length ≤ (vecOf c).cap := by
  cases c with
  | vec v => exact hs
  | _ => exact Nat.le_refl _

theorem objOf_sorted {c : Held F} (hs : Sound c) : Sorted (objOf c) := by
  cases c with
  | obj ms => exact hs
  | _ => exact List.Pairwise.nil

theorem piece_index {c : Held F} {i : Nat} (h : Indexable c.content (.index i)) (hs : Sound c) (j : Nat) :
    piece c.content (.index j) = (vecOf c).elems[j]? := by
  cases c with
  | vec v => rfl
  | obj ms => exact h.elim
  | plain v => cases v <;> first | (simp [Held.content, piece, vecOf, Vec.empty]; done) | exact h.elim | exact hs.elim

theorem piece_index_key {c : Held F} {i : Nat} (h : Indexable c.content (.index i)) (hs : Sound c) (k : List Nat) :
    piece c.content (.key k) = none := by
  cases c with
  | vec v => rfl
  | obj ms => exact h.elim
  | plain v => cases v <;> first | rfl | exact h.elim | exact hs.elim

theorem piece_key {c : Held F} {k : List Nat} (h : Indexable c.content (.key k)) (hs : Sound c) (j : List Nat) :
    piece c.content (.key j) = (objOf c).lookup j := by
  cases c with
  | vec v => exact h.elim
  | obj ms => rfl
  | plain v => cases v <;> first | rfl | exact h.elim | exact hs.elim

theorem piece_key_index {c : Held F} {k : List Nat} (h : Indexable c.content (.key k)) (hs : Sound c) (j : Nat) :
    piece c.content (.index j) = none := by
  cases c with
  | vec v => exact h.elim
  | obj ms => rfl
  | plain v => cases v <;> first | rfl | exact h.elim | exact hs.elim

theorem takes_swap {v : Value F} {i j : Nat} (h : Indexable v (.index i)) : Indexable v (.index j) := by
  cases v <;> first | trivial | exact h.elim

theorem takes_swap_key {v : Value F} {i j : List Nat} (h : Indexable v (.key i)) : Indexable v (.key j) := by
  cases v <;> first | trivial | exact h.elim

/-! ## Both accesses -/

theorem or_ite {α : Type} (p q : Prop) [Decidable p] [Decidable q] (a : α) :
    (none.or (if p then some a else none)).or (if q then some a else none) = none.or (if p ∨ q then some a else none) := by
  by_cases hp : p <;> by_cases hq : q <;> simp [hp, hq]

theorem or_ite_swap {α : Type} (p q : Prop) [Decidable p] [Decidable q] (a : α) :
    (none.or (if q then some a else none)).or (if p then some a else none) = none.or (if p ∨ q then some a else none) := by
  by_cases hp : p <;> by_cases hq : q <;> simp [hp, hq]

/-- The vector after the two accesses, in the order of the calls. -/
def bothVec (g : Growth) (f s : Nat) (c : Held F) : Vec F := ((vecOf c).touch g f).touch g s

theorem bothVec_get (g : Growth) (f s : Nat) (c : Held F) (j : Nat) :
    (bothVec g f s c).elems[j]? = ((vecOf c).elems[j]?).or (if j ≤ f ∨ j ≤ s then some .null else none) := by
  unfold bothVec
  rw [Vec.touch_get, Vec.touch_get]
  cases (vecOf c).elems[j]? with
  | some x => rfl
  | none =>
    by_cases h1 : j ≤ f <;> by_cases h2 : j ≤ s <;> simp [h1, h2]

theorem bothParts_index (g : Growth) (first : Side) (x y : Nat) (c : Held F) (h : Indexable c.content (.index x)) (hs : Sound c) :
    bothParts g first (.index x) (.index y) c =
      (.ok (match first with
        | .left => (.elem ((vecOf c).touch g x).storage x, .elem (bothVec g x y c).storage y)
        | .right => (.elem (bothVec g y x c).storage x, .elem ((vecOf c).touch g y).storage y)),
      .vec (bothVec g (evalOrder first x y).1 (evalOrder first x y).2 c)) := by
  cases first with
  | left =>
    unfold bothParts
    simp only
    rw [M.bind_ok (access_index g x c h hs), M.bind_ok (access_vec g y _)]
    rfl
  | right =>
    unfold bothParts
    simp only
    rw [M.bind_ok (access_index g y c (takes_swap h) hs), M.bind_ok (access_vec g x _)]
    rfl

theorem bothParts_key (g : Growth) (first : Side) (x y : List Nat) (c : Held F) (h : Indexable c.content (.key x)) (hs : Sound c) :
    ∃ ms, bothParts g first (.key x) (.key y) c = (.ok (.member x, .member y), .obj ms) ∧ Sorted ms ∧
      ∀ j, ms.lookup j = ((objOf c).lookup j).or (if j = x ∨ j = y then some .null else none) := by
  have hm := objOf_sorted hs
  cases first with
  | left =>
    refine ⟨Map.emplace y .null (Map.emplace x .null (objOf c)), ?_, emplace_sorted (emplace_sorted hm), fun j => ?_⟩
    · unfold bothParts
      simp only
      rw [M.bind_ok (access_key g x c h hs), M.bind_ok (access_obj g y _)]
      rfl
    · rw [emplace_lookup (emplace_sorted hm), emplace_lookup hm]
      cases (objOf c).lookup j with
      | some _ => rfl
      | none => exact or_ite _ _ _
  | right =>
    refine ⟨Map.emplace x .null (Map.emplace y .null (objOf c)), ?_, emplace_sorted (emplace_sorted hm), fun j => ?_⟩
    · unfold bothParts
      simp only
      rw [M.bind_ok (access_key g y c (takes_swap_key h) hs), M.bind_ok (access_obj g x _)]
      rfl
    · rw [emplace_lookup (emplace_sorted hm), emplace_lookup hm]
      cases (objOf c).lookup j with
      | some _ => rfl
      | none => exact or_ite_swap _ _ _

/-! ## Copying and moving in a vector -/

theorem copyTo_elems {v : Vec F} {x y : Nat} {u : Value F} (hx : x < v.elems.length) (hy : v.elems[y]? = some u) :
    ∃ w, copyTo (.elem v.storage x) (.elem v.storage y) (.vec v) = (.ok (), .vec w) ∧
      (∀ j, w.elems[j]? = if j = x then some u else v.elems[j]?) ∧ w.elems.length ≤ v.elems.length ∧ w.cap = v.cap := by
  by_cases h : x = y
  · subst h
    refine ⟨v, ?_, fun j => ?_, Nat.le_refl _, rfl⟩
    · unfold copyTo; rw [if_pos rfl]; rfl
    · split
      · rename_i e; rw [e, hy]
      · rfl
  · refine ⟨{ v with elems := v.elems.set x u }, ?_, fun j => ?_, ?_, rfl⟩
    · unfold copyTo
      rw [if_neg (by simp [h])]
      have e : loadPart (.elem v.storage y) (.vec v) = (.ok u, .vec v) := by
        simp only [loadPart, if_true, hy]
      rw [M.bind_ok e]
      simp only [storePart, true_and, if_pos hx]
    · simp only [List.getElem?_set]
      by_cases e : j = x
      · subst e; simp [hx]
      · rw [if_neg e, if_neg (fun h => e h.symm)]
    · simp

theorem moveTo_elems {v : Vec F} {x y : Nat} {u : Value F} (hx : x < v.elems.length) (hy : v.elems[y]? = some u) :
    ∃ w, moveTo (.elem v.storage x) (.elem v.storage y) (.vec v) = (.ok (), .vec w) ∧
      (∀ j, w.elems[j]? = if j = x then some u else if j = y then some .null else v.elems[j]?) ∧
      w.elems.length ≤ v.elems.length ∧ w.cap = v.cap := by
  have hyl : y < v.elems.length := (List.getElem?_eq_some_iff.1 hy).1
  by_cases h : x = y
  · subst h
    refine ⟨v, ?_, fun j => ?_, Nat.le_refl _, rfl⟩
    · unfold moveTo; rw [if_pos rfl]; rfl
    · split
      · rename_i e; rw [e, hy]
      · rfl
  · refine ⟨{ v with elems := (v.elems.set x u).set y .null }, ?_, fun j => ?_, ?_, rfl⟩
    · unfold moveTo
      rw [if_neg (by simp [h])]
      have e : loadPart (.elem v.storage y) (.vec v) = (.ok u, .vec v) := by
        simp only [loadPart, if_true, hy]
      have e' : storePart u (.elem v.storage x) (.vec v) = (.ok (), .vec { v with elems := v.elems.set x u }) := by
        simp only [storePart, true_and, if_pos hx]
      rw [M.bind_ok e, M.bind_ok e']
      simp only [storePart, true_and, List.length_set, if_pos hyl]
    · simp only [List.getElem?_set, List.length_set]
      by_cases e : j = x
      · subst e
        rw [if_pos rfl, if_neg (fun e => h e.symm), if_pos rfl, if_pos hx]
      · rw [if_neg e]
        by_cases e2 : j = y
        · subst e2; rw [if_pos rfl, if_pos rfl, if_pos hyl]
        · rw [if_neg e2, if_neg (fun h => e2 h.symm), if_neg (fun h => e h.symm)]
    · simp

theorem bothVec_storage {g : Growth} {f s : Nat} {c : Held F} (h : s < ((vecOf c).touch g f).cap) :
    (bothVec g f s c).storage = ((vecOf c).touch g f).storage := Vec.touch_same h

theorem bothParts_same (g : Growth) (first : Side) (x y : Nat) (c : Held F) (h : Indexable c.content (.index x)) (hs : Sound c)
    (hr : (evalOrder first x y).2 < ((vecOf c).touch g (evalOrder first x y).1).cap) :
    ∃ v : Vec F, bothParts g first (.index x) (.index y) c = (.ok (.elem v.storage x, .elem v.storage y), .vec v) ∧
      ∀ j, v.elems[j]? = ((vecOf c).elems[j]?).or (if j ≤ x ∨ j ≤ y then some .null else none) := by
  refine ⟨bothVec g (evalOrder first x y).1 (evalOrder first x y).2 c, ?_, fun j => ?_⟩
  · rw [bothParts_index g first x y c h hs]
    cases first <;> simp only [evalOrder] at hr ⊢ <;> rw [bothVec_storage hr]
  · rw [bothVec_get]
    cases first with
    | left => rfl
    | right =>
      show Option.or _ (if j ≤ y ∨ j ≤ x then _ else _) = _
      by_cases h1 : j ≤ y <;> by_cases h2 : j ≤ x <;> simp [h1, h2]

theorem bothParts_moved (g : Growth) (hg : g.Enough) (first : Side) (x y : Nat) (c : Held F)
    (h : Indexable c.content (.index x)) (hs : Sound c)
    (hr : ((vecOf c).touch g (evalOrder first x y).1).cap ≤ (evalOrder first x y).2) :
    ∃ (v : Vec F) (st : Nat), st ≠ v.storage ∧ x ≠ y ∧ x < v.elems.length ∧ (∃ u, v.elems[y]? = some u) ∧
      bothParts g first (.index x) (.index y) c = (.ok (match first with
        | .left => (.elem st x, .elem v.storage y)
        | .right => (.elem v.storage x, .elem st y)), .vec v) := by
  have hf := Vec.touch_fits hg (evalOrder first x y).1 (vecOf c) (vecOf_fits hs)
  have ho := Vec.touch_other (g := g) hf hr
  have hl := Vec.touch_length g (evalOrder first x y).1 (vecOf c)
  refine ⟨bothVec g (evalOrder first x y).1 (evalOrder first x y).2 c, ((vecOf c).touch g (evalOrder first x y).1).storage, ?_, ?_, ?_, ?_, ?_⟩
  · unfold bothVec; omega
  · rintro rfl
    cases first <;> simp only [evalOrder] at hr hl hf <;> omega
  · unfold bothVec
    rw [Vec.touch_length, Vec.touch_length]
    cases first <;> simp only [evalOrder] <;> omega
  · rw [bothVec_get]
    cases (vecOf c).elems[y]? with
    | some u => exact ⟨u, rfl⟩
    | none => exact ⟨.null, by cases first <;> simp [evalOrder]⟩
  · rw [bothParts_index g first x y c h hs]
    cases first <;> rfl

/-! ## Copying and moving in an object -/

theorem copyTo_members {ms : Map.T (Value F)} (hm : Sorted ms) {x y : List Nat} {u u' : Value F} (hx : ms.lookup x = some u')
    (hy : ms.lookup y = some u) :
    ∃ ns, copyTo (.member x) (.member y) (.obj ms) = (.ok (), .obj ns) ∧ Sorted ns ∧
      ∀ j, ns.lookup j = if j = x then some u else ms.lookup j := by
  by_cases h : x = y
  · subst h
    refine ⟨ms, ?_, hm, fun j => ?_⟩
    · unfold copyTo; rw [if_pos rfl]; rfl
    · split
      · rename_i e; rw [e, hy]
      · rfl
  · refine ⟨Map.assign x u ms, ?_, assign_sorted hm, fun j => ?_⟩
    · unfold copyTo
      rw [if_neg (by simp [h])]
      have e : loadPart (.member y) (.obj ms) = (.ok u, .obj ms) := by
        simp only [loadPart, find_lookup hm, hy]
      rw [M.bind_ok e]
      simp only [storePart, find_lookup hm, hx, Option.isSome_some, if_true]
    · rw [assign_lookup hm, hx]
      simp

theorem moveTo_members {ms : Map.T (Value F)} (hm : Sorted ms) {x y : List Nat} {u u' : Value F} (hx : ms.lookup x = some u')
    (hy : ms.lookup y = some u) :
    ∃ ns, moveTo (.member x) (.member y) (.obj ms) = (.ok (), .obj ns) ∧ Sorted ns ∧
      ∀ j, ns.lookup j = if j = x then some u else if j = y then some .null else ms.lookup j := by
  by_cases h : x = y
  · subst h
    refine ⟨ms, ?_, hm, fun j => ?_⟩
    · unfold moveTo; rw [if_pos rfl]; rfl
    · split
      · rename_i e; rw [e, hy]
      · rfl
  · have h1 : (Map.assign x u ms).lookup y = some u := by
      rw [assign_lookup hm, if_neg (fun e => h e.1.symm), hy]
    refine ⟨Map.assign y .null (Map.assign x u ms), ?_, assign_sorted (assign_sorted hm), fun j => ?_⟩
    · unfold moveTo
      rw [if_neg (by simp [h])]
      have e : loadPart (.member y) (.obj ms) = (.ok u, .obj ms) := by
        simp only [loadPart, find_lookup hm, hy]
      have e' : storePart u (.member x) (.obj ms) = (.ok (), .obj (Map.assign x u ms)) := by
        simp only [storePart, find_lookup hm, hx, Option.isSome_some, if_true]
      rw [M.bind_ok e, M.bind_ok e']
      simp only [storePart, find_lookup (assign_sorted hm), h1, Option.isSome_some, if_true]
    · rw [assign_lookup (assign_sorted hm), h1, assign_lookup hm, hx]
      by_cases e : j = x
      · subst e
        simp [h]
      · simp [e]

end Configor
