import Verif.Proofs.HeapStill
import Verif.Proofs.ParseSorted
/-!
# Keys stay sorted in memory
-/
namespace Spec
open Configor

variable {F : Type}

theorem kids_sorted {v : Value F} (h : KeysSorted v) : ∀ x ∈ kids v, KeysSorted x := by
  cases v with
  | arr xs => exact sorted_arr.1 h
  | obj ms =>
    intro x hx
    simp only [kids, List.mem_map] at hx
    obtain ⟨m, hm, rfl⟩ := hx
    exact (sorted_obj.1 h).2 m hm
  | _ => intro x hx; simp [kids] at hx

theorem part_sorted : ∀ {p : List Nat} {v u : Value F}, KeysSorted v → part v p = some u → KeysSorted u := by
  intro p
  induction p with
  | nil => intro v u h e; simp only [part] at e; injection e with e; exact e ▸ h
  | cons i p ih =>
    intro v u h e
    simp only [part, Option.bind_eq_some_iff] at e
    obtain ⟨x, h1, h2⟩ := e
    exact ih (kids_sorted h x (List.mem_of_getElem? h1)) h2

theorem withKids_sorted {v : Value F} (h : KeysSorted v) {xs : List (Value F)} (hl : xs.length = (kids v).length) (hx : ∀ x ∈ xs, KeysSorted x) :
    KeysSorted (withKids v xs) := by
  cases v with
  | arr ys => exact sorted_arr.2 hx
  | obj ms =>
    simp only [kids, List.length_map] at hl
    refine sorted_obj.2 ⟨?_, ?_⟩
    · have hs := (sorted_obj.1 h).1
      have e : ((ms.map Prod.fst).zip xs).map Prod.fst = ms.map Prod.fst := List.map_fst_zip (by simp [hl])
      have h1 : (ms.map Prod.fst).Pairwise (· < ·) := List.pairwise_map.2 hs
      rw [← e] at h1
      exact List.pairwise_map.1 h1
    · intro m hm
      exact hx m.2 (List.of_mem_zip hm).2
  | _ => exact h

theorem replace_sorted : ∀ {p : List Nat} {v w : Value F}, KeysSorted v → KeysSorted w → KeysSorted (replace v p w) := by
  intro p
  induction p with
  | nil => intro v w _ h; exact h
  | cons i p ih =>
    intro v w h hw
    simp only [replace]
    split
    · next x hx =>
      refine withKids_sorted h (by simp) ?_
      intro y hy
      rcases List.mem_or_eq_of_mem_set hy with hy | rfl
      · exact kids_sorted h y hy
      · exact ih (kids_sorted h x (List.mem_of_getElem? hx)) hw
    · exact h

/-- All contents have sorted keys. -/
def EnvSorted (E : Env F) : Prop := ∀ x v, E x = some v → KeysSorted v

theorem EnvSorted.get {E : Env F} (h : EnvSorted E) {r : Ref} {u : Value F} (e : E.get r = some u) : KeysSorted u := by
  simp only [Env.get, Option.bind_eq_some_iff] at e
  obtain ⟨v, h1, h2⟩ := e
  exact part_sorted (h _ _ h1) h2

theorem EnvSorted.set {E : Env F} (h : EnvSorted E) {r : Ref} {w : Value F} (hw : KeysSorted w) : EnvSorted (E.set r w) := by
  intro x v e
  simp only [Env.set] at e
  split at e
  · simp only [Option.map_eq_some_iff] at e
    obtain ⟨u, h1, rfl⟩ := e
    exact replace_sorted (h _ _ h1) hw
  · exact h x v e

theorem EnvSorted.bind {E : Env F} (h : EnvSorted E) {x : Nat} {o : Option (Value F)} (ho : ∀ w, o = some w → KeysSorted w) : EnvSorted (E.bind x o) := by
  intro y v e
  simp only [Env.bind] at e
  split at e
  · exact ho v e
  · exact h y v e

theorem EnvSorted.put {E : Env F} (h : EnvSorted E) {r : Ref} {o : Option (Value F)} (ho : ∀ w, o = some w → KeysSorted w) : EnvSorted (E.put r o) := by
  cases o with
  | none => exact h
  | some w => exact h.set (ho w rfl)

theorem arr_nil_sorted : KeysSorted (.arr [] : Value F) := sorted_arr.2 (by simp)
theorem obj_nil_sorted : KeysSorted (.obj [] : Value F) := sorted_obj.2 ⟨by simp [Sorted], by simp⟩

theorem childless_sorted {v : Value F} (h : Childless v) : KeysSorted v := by
  cases v with
  | arr xs => simp only [Childless, kids] at h; subst h; exact arr_nil_sorted
  | obj ms => simp only [Childless, kids, List.map_eq_nil_iff] at h; subst h; exact obj_nil_sorted
  | _ => exact atom_sorted

theorem fillWith_sorted {v u : Value F} (hv : KeysSorted v) (hu : KeysSorted u) : KeysSorted (fillWith v u) := by
  cases u <;> simp only [fillWith] <;> assumption

theorem emptied_sorted (z : F) (v : Value F) : KeysSorted (emptied z v) := childless_sorted (by cases v <;> rfl)

theorem erased_sorted (i : Nat) {v : Value F} (h : KeysSorted v) : KeysSorted (erased i v) := by
  cases v with
  | arr xs => exact sorted_arr.2 fun x hx => sorted_arr.1 h x (List.eraseIdx_subset hx)
  | obj ms =>
    obtain ⟨h1, h2⟩ := sorted_obj.1 h
    exact sorted_obj.2 ⟨h1.sublist (List.eraseIdx_sublist _ _), fun x hx => h2 x (List.eraseIdx_subset hx)⟩
  | _ => exact h

theorem appended_sorted {a b : Option (Value F)} (ha : ∀ w, a = some w → KeysSorted w) (hb : ∀ w, b = some w → KeysSorted w) :
    ∀ w, appended a b = some w → KeysSorted w := by
  intro w e
  simp only [appended] at e
  split at e
  · injection e with e
    subst e
    refine sorted_arr.2 fun x hx => ?_
    rcases List.mem_append.1 hx with hx | hx
    · exact sorted_arr.1 (ha _ rfl) x hx
    · simp only [List.mem_singleton] at hx; subst hx; exact hb _ rfl
  · cases e

theorem keyed_sorted (k : List Nat) {a : Option (Value F)} (ha : ∀ w, a = some w → KeysSorted w) : ∀ w, keyed k a = some w → KeysSorted w := by
  intro w e
  simp only [keyed] at e
  split at e
  · injection e with e
    subst e
    obtain ⟨h1, h2⟩ := sorted_obj.1 (ha _ rfl)
    refine sorted_obj.2 ⟨emplace_sorted h1, fun x hx => ?_⟩
    rcases emplace_mem hx with rfl | hx
    · exact atom_sorted
    · exact h2 x hx
  · cases e

theorem indexed_sorted (i : Nat) {a : Option (Value F)} (ha : ∀ w, a = some w → KeysSorted w) : ∀ w, indexed i a = some w → KeysSorted w := by
  intro w e
  simp only [indexed] at e
  split at e
  · injection e with e
    subst e
    refine sorted_arr.2 fun x hx => ?_
    rcases List.mem_append.1 hx with hx | hx
    · exact sorted_arr.1 (ha _ rfl) x hx
    · rw [(List.mem_replicate.1 hx).2]; exact atom_sorted
  · cases e

theorem Cmd.begun_sorted (c : Cmd F) {E : Env F} (h : EnvSorted E) : EnvSorted (c.begun E) := by
  have key : ∀ (v : Value F) (d : Ref), KeysSorted v → EnvSorted (E.put d ((E.get d).map (fillWith v))) := by
    intro v d hv
    refine h.put fun w e => ?_
    simp only [Option.map_eq_some_iff] at e
    obtain ⟨u, h1, rfl⟩ := e
    exact fillWith_sorted hv (h.get h1)
  cases c <;> simp only [Cmd.begun] <;> first | exact h | exact key _ _ arr_nil_sorted | exact key _ _ obj_nil_sorted

theorem Cmd.meaning_sorted (fo : FloatOps F) (c : Cmd F) {E : Env F} (h : EnvSorted E) (hc : c.Allowed E) : EnvSorted (c.meaning fo E) := by
  have hg : ∀ {E : Env F}, EnvSorted E → ∀ r, ∀ w, E.get r = some w → KeysSorted w := fun h r w e => h.get e
  cases c with
  | new x v => exact h.bind fun w e => by injection e with e; subst e; exact childless_sorted hc.2
  | copy x r => exact h.bind (hg h r)
  | move x r => exact (h.set atom_sorted).bind (hg h r)
  | delete x => exact h.bind (by simp)
  | copyAssign d r => exact h.put (hg h r)
  | moveAssign d r =>
    simp only [Cmd.meaning]
    split
    · exact h
    · exact (h.set atom_sorted).put (hg h r)
  | swap a b => exact (h.put (hg h b)).put (hg h a)
  | clear d =>
    refine h.put fun w e => ?_
    simp only [Option.map_eq_some_iff] at e
    obtain ⟨u, _, rfl⟩ := e
    exact emptied_sorted _ _
  | push d r =>
    have h1 := Cmd.begun_sorted (.push d r) h
    exact h1.put (appended_sorted (hg h1 d) (hg h1 r))
  | pushMove d r =>
    have h1 := Cmd.begun_sorted (.pushMove d r) h
    have h2 : EnvSorted (Env.set (Cmd.begun (.pushMove d r) E) r .null) := h1.set atom_sorted
    exact h2.put (appended_sorted (hg h2 d) (hg h1 r))
  | key d k =>
    have h1 := Cmd.begun_sorted (.key d k) h
    exact h1.put (keyed_sorted k (hg h1 d))
  | index d i =>
    have h1 := Cmd.begun_sorted (.index d i) h
    exact h1.put (indexed_sorted i (hg h1 d))
  | erase d i =>
    refine h.put fun w e => ?_
    simp only [Option.map_eq_some_iff] at e
    obtain ⟨u, h1, rfl⟩ := e
    exact erased_sorted i (h.get h1)

theorem Reach.sorted {fo : FloatOps F} {s : State F} (h : Reach fo s) : ∀ {E : Env F}, Shows s E → EnvSorted E := by
  induction h with
  | start plan =>
    intro E hE
    rw [hE.unique (start_holds plan).shows]
    intro x v e
    cases e
  | @step s s' E0 c r hs hE0 hc hr ih =>
    intro E hE
    rcases hs.run hE0 hc with ⟨s1, e, k, _⟩ | ⟨s1, E1, e, k, k2, _⟩
    · obtain ⟨rfl, rfl⟩ := run_unique hr e
      rw [hE.unique k]
      exact Cmd.meaning_sorted fo c (ih hE0) hc
    · obtain ⟨rfl, rfl⟩ := run_unique hr e
      rw [hE.unique k]
      rcases k2 with rfl | rfl
      · exact ih hE0
      · exact Cmd.begun_sorted c (ih hE0)

end Spec
