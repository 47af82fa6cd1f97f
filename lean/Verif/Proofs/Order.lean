import Verif.Spec.Order
import Verif.Proofs.ObjDump
import Verif.Proofs.ValueOps
import Verif.Proofs.Convert
/-!
# Values that say the same
-/
set_option autoImplicit false
namespace Configor
open Spec ValueOps

variable {F : Type}

/-- What `std::map` makes of the members of a text. -/
abbrev mapped (ms : MemberList F) : MemberList F := ms.foldl (fun o m => Map.emplace m.1 m.2 o) []

theorem mapped_sorted (ms : MemberList F) : Sorted (mapped ms) := (addAll_spec ms (m := []) (by simp [Sorted])).1

theorem mapped_lookup (ms : MemberList F) (k : List Nat) : (mapped ms).lookup k = ms.lookup k := by
  have := (addAll_spec ms (m := []) (by simp [Sorted])).2 k
  rw [List.lookup_nil, Option.none_or] at this
  exact this

theorem mapped_eq {ms ns : MemberList F} : mapped ms = mapped ns ↔ ∀ k, ms.lookup k = ns.lookup k :=
  ⟨fun h k => by rw [← mapped_lookup ms, h, mapped_lookup], fun h => sorted_ext (mapped_sorted ms) (mapped_sorted ns)
    fun k => by rw [mapped_lookup, mapped_lookup, h]⟩

theorem arrangedMembers_lookup (keep : MemberList F → MemberList F) (k : List Nat) : ∀ ms : MemberList F,
    (arrangedMembers keep ms).lookup k = (ms.lookup k).map (arranged keep)
  | [] => rfl
  | (j, v) :: ms => by
    simp only [arrangedMembers, lookup_if, arrangedMembers_lookup keep k ms]
    split <;> rfl

mutual
theorem saySame_arranged {v w : Value F} (h : SaySame v w) : arranged mapped v = arranged mapped w := by
  match h with
  | .null => rfl
  | .bool => rfl
  | .int => rfl
  | .flt => rfl
  | .str => rfl
  | .arr h => simp only [arranged, saySameElems_arranged h]
  | .obj h =>
    simp only [arranged]
    congr 1
    rw [mapped_eq]
    intro k
    rw [arrangedMembers_lookup, arrangedMembers_lookup]
    exact saySameUnder_arranged (h k)

theorem saySameElems_arranged {xs ys : List (Value F)} (h : SaySameElems xs ys) : arrangedElems mapped xs = arrangedElems mapped ys := by
  match h with
  | .nil => rfl
  | .cons h t => simp only [arrangedElems, saySame_arranged h, saySameElems_arranged t]

theorem saySameUnder_arranged {o p : Option (Value F)} (h : SaySameUnder o p) : o.map (arranged mapped) = p.map (arranged mapped) := by
  match h with
  | .none => rfl
  | .some h => simp only [Option.map_some, saySame_arranged h]
end

theorem lookup_size {ms : MemberList F} {k : List Nat} {v : Value F} (h : ms.lookup k = some v) : sizeOf v < sizeOf ms := by
  induction ms with
  | nil => cases h
  | cons m ms ih =>
    obtain ⟨j, x⟩ := m
    rw [lookup_if] at h
    split at h
    · cases h; simp only [List.cons.sizeOf_spec, Prod.mk.sizeOf_spec]; omega
    · have := ih h
      simp only [List.cons.sizeOf_spec]; omega

mutual
theorem arranged_saySame : ∀ (v w : Value F), arranged mapped v = arranged mapped w → SaySame v w
  | .null, w, h => by cases w <;> simp [arranged] at h; exact .null
  | .bool _, w, h => by cases w <;> simp [arranged] at h; subst h; exact .bool
  | .int _, w, h => by cases w <;> simp [arranged] at h; subst h; exact .int
  | .flt _, w, h => by cases w <;> simp [arranged] at h; subst h; exact .flt
  | .str _, w, h => by cases w <;> simp [arranged] at h; subst h; exact .str
  | .arr xs, w, h => by
    cases w <;> simp only [arranged, reduceCtorEq, Value.arr.injEq] at h
    exact .arr (arrangedElems_saySame xs _ h)
  | .obj ms, w, h => by
    cases w <;> simp only [arranged, reduceCtorEq, Value.obj.injEq] at h
    rename_i ns
    refine .obj fun k => ?_
    have hk := mapped_eq.1 h k
    rw [arrangedMembers_lookup, arrangedMembers_lookup] at hk
    cases h1 : ms.lookup k with
    | none =>
      rw [h1] at hk
      cases h2 : ns.lookup k with
      | none => exact .none
      | some y => rw [h2] at hk; cases hk
    | some x =>
      rw [h1] at hk
      cases h2 : ns.lookup k with
      | none => rw [h2] at hk; cases hk
      | some y =>
        rw [h2] at hk
        have := lookup_size h1
        exact .some (arranged_saySame x y (by simpa using hk))
termination_by v => sizeOf v

theorem arrangedElems_saySame : ∀ (xs ys : List (Value F)), arrangedElems mapped xs = arrangedElems mapped ys → SaySameElems xs ys
  | [], ys, h => by cases ys <;> simp [arrangedElems] at h; exact .nil
  | x :: xs, ys, h => by
    cases ys <;> simp [arrangedElems] at h
    exact .cons (arranged_saySame x _ h.1) (arrangedElems_saySame xs _ h.2)
termination_by xs => sizeOf xs
end

theorem saySame_iff {v w : Value F} : SaySame v w ↔ arranged mapped v = arranged mapped w := ⟨saySame_arranged, arranged_saySame v w⟩

theorem sorted_arranged {v : Value F} (h : KeysSorted v) : arranged mapped v = v :=
  arranged_self v fun ms hm => foldl_emplace ms [] (h ms hm)

theorem lookup_perm {V : Type} {ms ns : List (List Nat × V)} (h : ms.Perm ns) (hn : (ms.map Prod.fst).Nodup) (k : List Nat) : ms.lookup k = ns.lookup k := by
  induction h with
  | nil => rfl
  | cons x _ ih => rw [lookup_if, lookup_if, ih (List.nodup_cons.1 hn).2]
  | swap x y l =>
    simp only [lookup_if]
    have : y.1 ≠ x.1 := fun e => (List.nodup_cons.1 hn).1 (by simp [e])
    by_cases h1 : k = y.1
    · by_cases h2 : k = x.1
      · exact absurd (h1.symm.trans h2) this
      · simp only [if_pos h1, if_neg h2]
    · simp only [if_neg h1]
  | trans h1 _ ih1 ih2 => exact (ih1 hn).trans (ih2 ((h1.map _).nodup_iff.1 hn))

mutual
theorem same_say {v w : Value F} (h : SameMembers v w) (hn : ∀ ms : MemberList F, Within v (.obj ms) → (ms.map Prod.fst).Nodup) : SaySame v w := by
  match h with
  | .null => exact .null
  | .bool => exact .bool
  | .int => exact .int
  | .flt => exact .flt
  | .str => exact .str
  | .arr h => exact .arr (same_sayElems h fun x hx ms hm => hn ms (.elem hx hm))
  | .obj (ms := ms) (ns := ns) h hp =>
    have hk : ms.map Prod.fst = ns.map Prod.fst := same_keys h
    have hns : (ns.map Prod.fst).Nodup := hk ▸ hn ms .refl
    refine .obj fun k => ?_
    rw [← lookup_perm hp hns]
    exact same_sayUnder h (fun m hm ls hl => hn ls (.member (k := m.1) hm hl)) k
  termination_by structural h

theorem same_sayElems {xs ys : List (Value F)} (h : SameElems xs ys)
    (hn : ∀ x ∈ xs, ∀ ms : MemberList F, Within x (.obj ms) → (ms.map Prod.fst).Nodup) : SaySameElems xs ys := by
  match h with
  | .nil => exact .nil
  | .cons h t => exact .cons (same_say h (hn _ (by simp))) (same_sayElems t fun x hx => hn x (by simp [hx]))
  termination_by structural h

theorem same_sayUnder {ms ns : MemberList F} (h : SamePairs ms ns)
    (hn : ∀ m ∈ ms, ∀ ls : MemberList F, Within m.2 (.obj ls) → (ls.map Prod.fst).Nodup) (k : List Nat) : SaySameUnder (ms.lookup k) (ns.lookup k) := by
  match h with
  | .nil => exact .none
  | .cons h t =>
    rw [lookup_if, lookup_if]
    split
    · exact .some (same_say h (hn _ (by simp)))
    · exact same_sayUnder t (fun m hm => hn m (by simp [hm])) k
  termination_by structural h

theorem same_keys {ms ns : MemberList F} (h : SamePairs ms ns) : ms.map Prod.fst = ns.map Prod.fst := by
  match h with
  | .nil => rfl
  | .cons _ t => simp only [List.map_cons, same_keys t]
  termination_by structural h
end

/-! ## Assignments -/

theorem assignEach_obj (ps : MemberList F) {ms : MemberList F} (hm : Sorted ms) :
    ∃ ns, assignEach ps (.obj ms) = .obj ns ∧ Sorted ns ∧ ∀ k, ns.lookup k = (ps.reverse.lookup k).or (ms.lookup k) := by
  induction ps generalizing ms with
  | nil => exact ⟨ms, rfl, hm, fun k => by simp⟩
  | cons p ps ih =>
    have e : assignEach (p :: ps) (.obj ms) = assignEach ps (.obj (put p.1 p.2 ms)) := by
      simp only [assignEach, List.foldl_cons, withKey_obj hm]; rfl
    obtain ⟨ns, h1, h2, h3⟩ := ih (put_sorted hm (k := p.1) (y := p.2))
    refine ⟨ns, e.trans h1, h2, fun k => ?_⟩
    rw [h3, put_lookup hm, List.reverse_cons, List.lookup_append, Option.or_assoc]
    congr 1
    rw [lookup_if]
    by_cases hk : k = p.1 <;> simp [hk]

end Configor
