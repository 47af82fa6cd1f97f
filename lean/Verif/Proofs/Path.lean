import Verif.Proofs.ValueOps
/-! Assignment through a path. -/
namespace Configor
open Spec ValueOps

variable {F α : Type}

theorem lookup_arr (xs : List (Value F)) (i : Nat) (q : List PathStep) :
    lookup (.arr xs) (.idx i :: q) = xs[i]?.bind fun x => lookup x q := rfl

theorem lookup_obj (ms : List (List Nat × Value F)) (k : List Nat) (q : List PathStep) :
    lookup (.obj ms) (.key k :: q) = (ms.lookup k).bind fun x => lookup x q := rfl

theorem lookup_null_cons (s : PathStep) (q : List PathStep) : lookup (Value.null : Value F) (s :: q) = none := by
  cases s <;> rfl

theorem lookup_null {q : List PathStep} {u : Value F} (h : lookup .null q = some u) : q = [] ∧ u = .null := by
  cases q with
  | nil => exact ⟨rfl, by cases h; rfl⟩
  | cons s q => rw [lookup_null_cons] at h; cases h

/-- What holds of a part before and after the assignment. -/
def Kept (p : List PathStep) (v v' : Value F) (q : List PathStep) : Prop :=
  (∀ y, lookup v q = some y → lookup v' q = some y) ∧
  (lookup v q = none → lookup v' q = none ∨
    (lookup v' q = some .null ∧ ∃ r i j, r ++ [.idx i] <+: p ∧ j < i ∧ q = r ++ [.idx j]))

/-- All steps of the path can be taken. -/
def AllFit (v : Value F) (p : List PathStep) : Prop := ∀ q s u, q ++ [s] <+: p → lookup v q = some u → Fits u s

theorem diverge_cons {s : PathStep} {p q : List PathStep} (h : Diverge (s :: p) (s :: q)) : Diverge p q :=
  ⟨fun h' => h.1 (List.cons_prefix_cons.2 ⟨rfl, h'⟩), fun h' => h.2 (List.cons_prefix_cons.2 ⟨rfl, h'⟩)⟩

theorem kept_cons {s : PathStep} {p q : List PathStep} {v v' w w' : Value F} (h : Kept p v v' q)
    (e : ∀ q, lookup w (s :: q) = lookup v q) (e' : ∀ q, lookup w' (s :: q) = lookup v' q) : Kept (s :: p) w w' (s :: q) := by
  refine ⟨fun y hy => ?_, fun hn => ?_⟩
  · rw [e] at hy; rw [e']; exact h.1 y hy
  · rw [e] at hn; rw [e']
    rcases h.2 hn with h | ⟨h, r, i, j, h1, h2, rfl⟩
    · exact .inl h
    · exact .inr ⟨h, s :: r, i, j, List.cons_prefix_cons.2 ⟨rfl, h1⟩, h2, rfl⟩

theorem small_cons {s : PathStep} {p : List PathStep} (h : Small (s :: p)) : Small p := fun i hi => h i (by simp [hi])

theorem null_kept {p q : List PathStep} {v v' : Value F} (h : Kept p .null v' q) (hv : lookup v q = none) (hq : q ≠ []) : Kept p v v' q := by
  refine ⟨fun y hy => (by rw [hv] at hy; cases hy), fun _ => h.2 ?_⟩
  cases q with
  | nil => exact absurd rfl hq
  | cons s q => exact lookup_null_cons s q

/-- The step into an array. -/
theorem step_idx {p : List PathStep} {i : Nat} (xs : List (Value F)) (v : Value F)
    (hv : ∀ s q, lookup v (s :: q) = lookup (.arr xs) (s :: q)) (c' : Value F)
    (h1 : lookup c' p = some x) (h2 : ∀ q, Diverge p q → Kept p (xs[i]?.getD .null) c' q) :
    lookup (.arr (setAt xs i c')) (.idx i :: p) = some x ∧
    ∀ q, Diverge (.idx i :: p) q → Kept (.idx i :: p) v (.arr (setAt xs i c')) q := by
  have hi : ∀ q, lookup (.arr (setAt xs i c')) (.idx i :: q) = lookup c' q := by
    intro q; rw [lookup_arr, setAt_get]; simp
  refine ⟨by rw [hi]; exact h1, fun q hq => ?_⟩
  cases q with
  | nil => exact absurd List.nil_prefix hq.2
  | cons s q =>
    have vs := hv s q
    cases s with
    | key k => exact ⟨fun y hy => (by rw [vs] at hy; cases hy), fun _ => .inl rfl⟩
    | idx j =>
      by_cases hj : j = i
      · subst hj
        have hk := h2 q (diverge_cons hq)
        cases hx : xs[j]? with
        | some c =>
          rw [hx] at hk
          exact kept_cons hk (fun q => by rw [hv, lookup_arr, hx]; rfl) hi
        | none =>
          rw [hx] at hk
          have hq' : q ≠ [] := by
            rintro rfl
            exact (diverge_cons hq).2 List.nil_prefix
          refine ⟨fun y hy => ?_, fun hn => ?_⟩
          · rw [vs, lookup_arr, hx] at hy; cases hy
          · rw [hi]
            have hn' : lookup (Value.null : Value F) q = none := by
              cases q with
              | nil => exact absurd rfl hq'
              | cons s q => exact lookup_null_cons s q
            rcases hk.2 hn' with h | ⟨h, r, i', j', h1, h2, rfl⟩
            · exact .inl h
            · exact .inr ⟨h, .idx j :: r, i', j', List.cons_prefix_cons.2 ⟨rfl, h1⟩, h2, rfl⟩
      · have e : lookup (.arr (setAt xs i c')) (.idx j :: q)
            = (if j < max xs.length (i + 1) then some (xs[j]?.getD .null) else none).bind fun x => lookup x q := by
          rw [lookup_arr, setAt_get, if_neg hj]
        cases hx : xs[j]? with
        | some c =>
          have hlt := (List.getElem?_eq_some_iff.1 hx).1
          have hsame : lookup v (.idx j :: q) = lookup (.arr (setAt xs i c')) (.idx j :: q) := by
            rw [vs, e, lookup_arr, if_pos (by omega), hx]; rfl
          exact ⟨fun y hy => by rw [← hsame]; exact hy, fun hn => by left; rw [← hsame]; exact hn⟩
        | none =>
          have hge : xs.length ≤ j := by
            rcases Nat.lt_or_ge j xs.length with h | h
            · rw [List.getElem?_eq_getElem h] at hx; cases hx
            · exact h
          refine ⟨fun y hy => ?_, fun hn => ?_⟩
          · rw [vs, lookup_arr, hx] at hy; cases hy
          · rw [e, hx]
            by_cases hlt : j < max xs.length (i + 1)
            · rw [if_pos hlt]
              show lookup Value.null q = none ∨ _
              cases q with
              | nil => exact .inr ⟨rfl, [], i, j, List.cons_prefix_cons.2 ⟨rfl, List.nil_prefix⟩, by omega, rfl⟩
              | cons s q => exact .inl (lookup_null_cons s q)
            · rw [if_neg hlt]; exact .inl rfl

/-- The step into an object. -/
theorem step_key {p : List PathStep} {k : List Nat} (ms : List (List Nat × Value F)) (hm : Sorted ms) (v : Value F)
    (hv : ∀ s q, lookup v (s :: q) = lookup (.obj ms) (s :: q)) (c' : Value F)
    (h1 : lookup c' p = some x) (h2 : ∀ q, Diverge p q → Kept p ((ms.lookup k).getD .null) c' q) :
    lookup (.obj (put k c' ms)) (.key k :: p) = some x ∧
    ∀ q, Diverge (.key k :: p) q → Kept (.key k :: p) v (.obj (put k c' ms)) q := by
  have hi : ∀ q, lookup (.obj (put k c' ms)) (.key k :: q) = lookup c' q := by
    intro q; rw [lookup_obj, put_lookup hm]; simp
  refine ⟨by rw [hi]; exact h1, fun q hq => ?_⟩
  cases q with
  | nil => exact absurd List.nil_prefix hq.2
  | cons s q =>
    have vs := hv s q
    cases s with
    | idx k => exact ⟨fun y hy => (by rw [vs] at hy; cases hy), fun _ => .inl rfl⟩
    | key j =>
      by_cases hj : j = k
      · subst hj
        have hk := h2 q (diverge_cons hq)
        cases hx : ms.lookup j with
        | some c =>
          rw [hx] at hk
          exact kept_cons hk (fun q => by rw [hv, lookup_obj, hx]; rfl) hi
        | none =>
          rw [hx] at hk
          have hq' : q ≠ [] := by
            rintro rfl
            exact (diverge_cons hq).2 List.nil_prefix
          refine ⟨fun y hy => ?_, fun hn => ?_⟩
          · rw [vs, lookup_obj, hx] at hy; cases hy
          · rw [hi]
            have hn' : lookup (Value.null : Value F) q = none := by
              cases q with
              | nil => exact absurd rfl hq'
              | cons s q => exact lookup_null_cons s q
            rcases hk.2 hn' with h | ⟨h, r, i', j', h1, h2, rfl⟩
            · exact .inl h
            · exact .inr ⟨h, .key j :: r, i', j', List.cons_prefix_cons.2 ⟨rfl, h1⟩, h2, rfl⟩
      · have hsame : lookup v (.key j :: q) = lookup (.obj (put k c' ms)) (.key j :: q) := by
          rw [vs, lookup_obj, lookup_obj, put_lookup hm, if_neg hj]
        exact ⟨fun y hy => by rw [← hsame]; exact hy, fun hn => by left; rw [← hsame]; exact hn⟩

theorem allFit_child {s : PathStep} {p : List PathStep} {v : Value F} (h : AllFit v (s :: p)) (o : Option (Value F))
    (hv : ∀ q, lookup v (s :: q) = o.bind fun c => lookup c q) : AllFit (o.getD .null) p := by
  intro q t u hq hu
  cases o with
  | some c =>
    refine h (s :: q) t u (List.cons_prefix_cons.2 ⟨rfl, hq⟩) ?_
    rw [hv]; exact hu
  | none =>
    obtain ⟨_, rfl⟩ := lookup_null hu
    trivial

theorem withPath_assign (x : Value F) (p : List PathStep) : ∀ v, KeysSorted v → Small p → AllFit v p →
    ∃ v', withPath (ValueOps.assign x) p v = (.ok (), v') ∧ lookup v' p = some x ∧ ∀ q, Diverge p q → Kept p v v' q := by
  induction p with
  | nil => intro v _ _ _; exact ⟨x, rfl, rfl, fun q hq => absurd List.nil_prefix hq.1⟩
  | cons s p ih =>
    intro v hv hs hf
    have fit := hf [] s v (List.cons_prefix_cons.2 ⟨rfl, List.nil_prefix⟩) rfl
    have arr : ∀ xs i, s = .idx i → (∀ s q, lookup v (s :: q) = lookup (.arr xs) (s :: q)) → KeysSorted (.arr xs) →
        withIndex i (withPath (ValueOps.assign x) p) v = growTo i (withPath (ValueOps.assign x) p) xs →
        ∃ v', withPath (ValueOps.assign x) (s :: p) v = (.ok (), v') ∧ lookup v' (s :: p) = some x ∧
          ∀ q, Diverge (s :: p) q → Kept (s :: p) v v' q := by
      rintro xs i rfl hl hx he
      have hc : KeysSorted (xs[i]?.getD .null) := by
        cases hxi : xs[i]? with
        | none => exact null_sorted
        | some c => exact sorted_arr.1 hx c (List.mem_of_getElem? hxi)
      obtain ⟨c', h1, h2, h3⟩ := ih _ hc (small_cons hs) (allFit_child hf xs[i]? (fun q => by rw [hl, lookup_arr]))
      have h4 := step_idx xs v hl c' h2 h3
      refine ⟨_, ?_, h4.1, h4.2⟩
      show withIndex i _ v = _
      rw [he, growTo_eq (hs i (by simp)), h1, setAt_eq]
    have obj : ∀ ms k, s = .key k → (∀ s q, lookup v (s :: q) = lookup (.obj ms) (s :: q)) → KeysSorted (.obj ms) →
        withKey k (withPath (ValueOps.assign x) p) v = withKey k (withPath (ValueOps.assign x) p) (.obj ms) →
        ∃ v', withPath (ValueOps.assign x) (s :: p) v = (.ok (), v') ∧ lookup v' (s :: p) = some x ∧
          ∀ q, Diverge (s :: p) q → Kept (s :: p) v v' q := by
      rintro ms k rfl hl hx he
      have hx := sorted_obj.1 hx
      have hc : KeysSorted ((ms.lookup k).getD .null) := by
        cases hxi : ms.lookup k with
        | none => exact null_sorted
        | some c => exact hx.2 _ (lookup_mem hxi)
      obtain ⟨c', h1, h2, h3⟩ := ih _ hc (small_cons hs) (allFit_child hf (ms.lookup k) (fun q => by rw [hl, lookup_obj]))
      have h4 := step_key ms hx.1 v hl c' h2 h3
      refine ⟨_, ?_, h4.1, h4.2⟩
      show withKey k _ v = _
      rw [he, withKey_obj hx.1, h1]
    have hnull : ∀ (s : PathStep) (q : List PathStep), lookup (Value.arr ([] : List (Value F))) (s :: q) = none := by
      intro s q; cases s <;> rfl
    have hnull' : ∀ (s : PathStep) (q : List PathStep), lookup (Value.obj ([] : List (List Nat × Value F))) (s :: q) = none := by
      intro s q; cases s <;> rfl
    cases s with
    | idx i =>
      cases v with
      | null => exact arr [] i rfl (fun s q => by rw [hnull, lookup_null_cons]) (sorted_arr.2 (by simp)) rfl
      | arr xs => exact arr xs i rfl (fun _ _ => rfl) hv rfl
      | _ => cases fit
    | key k =>
      cases v with
      | null => exact obj [] k rfl (fun s q => by rw [hnull', lookup_null_cons]) (sorted_obj.2 ⟨by simp [Sorted], by simp⟩) rfl
      | obj ms => exact obj ms k rfl (fun _ _ => rfl) hv rfl
      | _ => cases fit

theorem setAt_same {xs : List (Value F)} {i : Nat} {c : Value F} (h : xs[i]? = some c) : setAt xs i c = xs := by
  have hi := (List.getElem?_eq_some_iff.1 h).1
  apply List.ext_getElem?
  intro j
  rw [setAt_get]
  split
  · rename_i hj; rw [hj, h]
  · split
    · rename_i hlt
      rw [List.getElem?_eq_getElem (by omega)]; rfl
    · rw [List.getElem?_eq_none (by omega)]

theorem put_same {ms : Map.T (Value F)} (hm : Sorted ms) {k : List Nat} {c : Value F} (h : ms.lookup k = some c) : put k c ms = ms := by
  apply sorted_ext (put_sorted hm) hm
  intro j
  rw [put_lookup hm]
  split
  · rename_i hj; rw [hj, h]
  · rfl

/-- A step that cannot be taken: nothing changes. -/
theorem withPath_unfit (f : V F α) (p q : List PathStep) (s : PathStep) : ∀ v u, KeysSorted v → Small p → q ++ [s] <+: p →
    lookup v q = some u → ¬ Fits u s → withPath f p v = (.error (.exn .invalidKey), v) := by
  induction q generalizing p with
  | nil =>
    rintro v u hv hs hq hu hn
    cases p with
    | nil => simp at hq
    | cons s' p =>
      have := (List.cons_prefix_cons.1 hq).1
      subst this
      cases hu
      cases s with
      | idx i => cases v <;> first | exact absurd trivial hn | rfl
      | key k => cases v <;> first | exact absurd trivial hn | rfl
  | cons t q ih =>
    rintro v u hv hs hq hu hn
    cases p with
    | nil => simp at hq
    | cons s' p =>
      obtain ⟨rfl, hq'⟩ := List.cons_prefix_cons.1 hq
      clear hq
      have hq := hq'
      cases t with
      | idx i =>
        cases v with
        | arr xs =>
          rw [lookup_arr] at hu
          cases hx : xs[i]? with
          | none => rw [hx] at hu; cases hu
          | some c =>
            rw [hx] at hu
            have := ih p c u (sorted_arr.1 hv c (List.mem_of_getElem? hx)) (small_cons hs) hq hu hn
            show withIndex i _ _ = _
            rw [withIndex_arr (hs i (by simp)), hx]
            show ((withPath f p c).1, Value.arr (setAt xs i (withPath f p c).2)) = _
            rw [this, setAt_same hx]
        | _ => cases hu
      | key k =>
        cases v with
        | obj ms =>
          have hv := sorted_obj.1 hv
          rw [lookup_obj] at hu
          cases hx : ms.lookup k with
          | none => rw [hx] at hu; cases hu
          | some c =>
            rw [hx] at hu
            have := ih p c u (hv.2 _ (lookup_mem hx)) (small_cons hs) hq hu hn
            show withKey k _ _ = _
            rw [withKey_obj hv.1, hx]
            show ((withPath f p c).1, Value.obj (put k (withPath f p c).2 ms)) = _
            rw [this, put_same hv.1 hx]
        | _ => cases hu

end Configor
