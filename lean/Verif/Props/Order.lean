import Verif.Proofs.Order
import Verif.Props.ObjectType
/-!
# The order of members does not matter: C136

`TreeDocument` (`Spec/ObjectType.lean`) is a text as a tree with all members in the order of the text. `SaySame` and `assignEach` are in
`Spec/Order.lean`.
-/
set_option autoImplicit false
namespace Configor.Props
open Spec

variable {F : Type}

/-- C136. Two documents are parsed to the same value if, and only if, they say the same: the same scalars in the same places, places being
named by indices and keys. Both calls end normally. -/
theorem C136_texts (A : ParseArgs F) (hA : A.Usual) (c c' : Value F) (str str' : List Nat) (l l' : List (Option Nat)) (hl : Sees A str l)
    (hl' : Sees A str' l') (t t' : Value F) (ht : TreeDocument A.dialect l t) (ht' : TreeDocument A.dialect l' t') :
    ∃ v v', jsonParse A none c str = (.ok (), v) ∧ jsonParse A none c' str' = (.ok (), v') ∧ (v = v' ↔ SaySame t t') := by
  have h1 := (C123_members_in_text_order A hA Map.emplace c _ str l hl).2 ⟨t, ht, rfl⟩
  have h2 := (C123_members_in_text_order A hA Map.emplace c' _ str' l' hl').2 ⟨t', ht', rfl⟩
  rw [C123_std_map] at h1 h2
  exact ⟨_, _, h1, h2, saySame_iff.symm⟩

/-- C136. In particular the members of objects, at any depth, can be written in any order, if no object has a key twice. -/
theorem C136_text_order (A : ParseArgs F) (hA : A.Usual) (c c' : Value F) (str str' : List Nat) (l l' : List (Option Nat)) (hl : Sees A str l)
    (hl' : Sees A str' l') (t t' : Value F) (ht : TreeDocument A.dialect l t) (ht' : TreeDocument A.dialect l' t')
    (hk : ∀ ms : MemberList F, Within t (.obj ms) → (ms.map Prod.fst).Nodup) (hs : SameMembers t t') :
    ∃ v, jsonParse A none c str = (.ok (), v) ∧ jsonParse A none c' str' = (.ok (), v) := by
  obtain ⟨v, v', h1, h2, h3⟩ := C136_texts A hA c c' str str' l l' hl hl' t t' ht ht'
  exact ⟨v, h1, h3.2 (same_say hs hk) ▸ h2⟩

example : jsonParse (utf8Args true) none .null (ascii "{\"b\":1,\"a\":[{\"z\":2,\"y\":{}}]}") =
    jsonParse (utf8Args true) none .null (ascii "{\"a\":[{\"y\":{},\"z\":2}],\"b\":1}") := by decide +kernel
/-- With a key twice it matters: the first counts. -/
example : jsonParse (utf8Args true) none .null (ascii "{\"b\":1,\"b\":2}") ≠ jsonParse (utf8Args true) none .null (ascii "{\"b\":2,\"b\":1}") := by
  decide +kernel
/-- The trees of the two texts. -/
example : SameMembers (.obj [([98], .int 1), ([97], .arr [.obj [([122], .int 2), ([121], .obj [])]])] : Value F)
      (.obj [([97], .arr [.obj [([121], .obj []), ([122], .int 2)]]), ([98], .int 1)]) ∧
    ∀ ms : MemberList F, Within (.obj [([98], .int 1), ([97], .arr [.obj [([122], .int 2), ([121], .obj [])]])] : Value F) (.obj ms) →
      (ms.map Prod.fst).Nodup := by
  refine ⟨.obj (.cons .int (.cons (.arr (.cons (.obj (.cons .int (.cons (.obj .nil .nil) .nil)) (.swap _ _ _)) .nil)) .nil)) (.swap _ _ _), ?_⟩
  intro ms h
  rcases h with _ | _ | ⟨hm, h⟩
  · simp
  · simp only [List.mem_cons, Prod.mk.injEq, List.not_mem_nil, or_false] at hm
    rcases hm with ⟨rfl, rfl⟩ | ⟨rfl, rfl⟩
    · cases h
    · rcases h with _ | ⟨hm, h⟩
      simp only [List.mem_cons, List.not_mem_nil, or_false] at hm
      subst hm
      rcases h with _ | _ | ⟨hm, h⟩
      · simp
      · simp only [List.mem_cons, Prod.mk.injEq, List.not_mem_nil, or_false] at hm
        rcases hm with ⟨rfl, rfl⟩ | ⟨rfl, rfl⟩
        · cases h
        · rcases h with _ | _ | ⟨hm, h⟩
          · simp
          · cases hm

/-- C136. A value keeps nothing of its history but what it says: two values that say the same are the same, and `dump` writes the same text
for them. -/
theorem C136_values (v w : Value F) (hv : KeysSorted v) (hw : KeysSorted w) :
    (v = w ↔ SaySame v w) ∧ (SaySame v w → ∀ (A : DumpArgs F) (h : Option Handler) (str : List Nat), jsonDump A h str v = jsonDump A h str w) := by
  have e : v = w ↔ SaySame v w := by rw [saySame_iff, sorted_arranged hv, sorted_arranged hw]
  exact ⟨e, fun h A g str => by rw [e.2 h]⟩

/-- C136. `v[k1] = x1; v[k2] = x2; …` on an object: under each key there is what was assigned last, and what was there before under the
other keys. -/
theorem C136_last_assignment (ps ms : MemberList F) (hm : KeysSorted (.obj ms : Value F)) :
    ∃ ns : MemberList F, assignEach ps (.obj ms) = .obj ns ∧ ns.Pairwise (fun a b => a.1 < b.1) ∧
      ∀ k, ns.lookup k = (ps.reverse.lookup k).or (ms.lookup k) :=
  assignEach_obj ps (sorted_obj.1 hm).1

/-- C136. For different keys the assignments can be made in any order. -/
theorem C136_assignments (ps qs : MemberList F) (h : ps.Perm qs) (hk : (ps.map Prod.fst).Nodup) (v : Value F) (hv : KeysSorted v) :
    assignEach ps v = assignEach qs v := by
  have one : ∀ ms : MemberList F, Sorted ms → assignEach ps (.obj ms) = assignEach qs (.obj ms) := by
    intro ms hm
    obtain ⟨ns, h1, h2, h3⟩ := assignEach_obj ps hm
    obtain ⟨ns', h1', h2', h3'⟩ := assignEach_obj qs hm
    rw [h1, h1', sorted_ext h2 h2' fun k => ?_]
    rw [h3, h3', lookup_perm ((List.reverse_perm ps).trans (h.trans (List.reverse_perm qs).symm))
      (by rw [List.map_reverse]; exact (List.reverse_perm _).nodup_iff.2 hk)]
  have other : ∀ (rs : MemberList F) (w : Value F), w.type ≠ .null → w.type ≠ .obj → assignEach rs w = w := by
    intro rs w h1 h2
    induction rs with
    | nil => rfl
    | cons r rs ih =>
      have : (ValueOps.withKey r.1 (ValueOps.assign r.2) w).2 = w := by
        cases w <;> first | rfl | exact absurd rfl h1 | exact absurd rfl h2
      simp only [assignEach, List.foldl_cons, this]
      exact ih
  match v, hv with
  | .obj ms, hv => exact one ms (sorted_obj.1 hv).1
  | .null, _ =>
    have null : ∀ r (rs : MemberList F), assignEach (r :: rs) .null = assignEach (r :: rs) (.obj []) := fun r rs => by
      simp only [assignEach, List.foldl_cons]; rfl
    match ps, qs, h with
    | [], [], _ => rfl
    | [], q :: qs, h => exact absurd h.length_eq (by simp)
    | p :: ps, [], h => exact absurd h.length_eq (by simp)
    | p :: ps, q :: qs, h => rw [null, null]; exact one [] (by simp [Sorted])
  | .bool _, _ => rw [other _ _ (by simp [Value.type]) (by simp [Value.type]), other _ _ (by simp [Value.type]) (by simp [Value.type])]
  | .int _, _ => rw [other _ _ (by simp [Value.type]) (by simp [Value.type]), other _ _ (by simp [Value.type]) (by simp [Value.type])]
  | .flt _, _ => rw [other _ _ (by simp [Value.type]) (by simp [Value.type]), other _ _ (by simp [Value.type]) (by simp [Value.type])]
  | .str _, _ => rw [other _ _ (by simp [Value.type]) (by simp [Value.type]), other _ _ (by simp [Value.type]) (by simp [Value.type])]
  | .arr _, _ => rw [other _ _ (by simp [Value.type]) (by simp [Value.type]), other _ _ (by simp [Value.type]) (by simp [Value.type])]

/-- Two members for a null value, in both orders. -/
example : assignEach [([98], .int 1), ([97], .bool true)] (.null : Value F) = .obj [([97], .bool true), ([98], .int 1)] ∧
    assignEach [([97], .bool true), ([98], .int 1)] (.null : Value F) = .obj [([97], .bool true), ([98], .int 1)] ∧
    KeysSorted (.null : Value F) := ⟨rfl, rfl, sorted_scalar (by simp [Value.type]) (by simp [Value.type])⟩

/-- C136. The members in a call of `make_object` can be written in any order, if the keys are different. -/
theorem C136_make_object (ps qs : MemberList F) (h : ps.Perm qs) (hk : (ps.map Prod.fst).Nodup) : makeObject ps = makeObject qs := by
  show Value.obj (mapped ps) = .obj (mapped qs)
  rw [mapped_eq.2 (lookup_perm h hk)]

end Configor.Props
