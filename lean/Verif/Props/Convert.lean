import Verif.Proofs.RoundTrip
/-!
# Conversions: C66-C75, C87-C95

`E.toValue x` is `value(x)`, `E.get v` is `v.get<T>()` and `E.getInto v t` is `v.get(t)`, for the type `T`
of the converter `E`. Converters of containers take the converter of the elements, so that the
theorems below apply to all types built from those covered.
-/
set_option autoImplicit false
namespace Configor.Props
open Spec Configor.ValueOps Conv

variable {F T S : Type}

/-! ## C66, C67, C90: integers -/

/-- C66. Numbers of all integral types of up to 64 bits survive. -/
theorem C66_int_round_trip (signed : Bool) (w : Nat) (hw : 1 ≤ w) (h64 : w ≤ 64) (x : Int) (hx : InRange signed w x) :
    RoundTrip (int signed w : Conv F Int) x := by
  refine ⟨_, rfl, ?_⟩
  show Except.ok (castTo signed w (castTo true 64 x)) = _
  rw [castTo_castTo hw h64 hx]

example : RoundTrip (int false 64 : Conv Unit Int) 18446744073709551615 :=
  C66_int_round_trip false 64 (by decide) (by decide) _ ⟨by decide, by decide⟩
example : RoundTrip (int true 8 : Conv Unit Int) (-128) :=
  C66_int_round_trip true 8 (by decide) (by decide) _ ⟨by decide, by decide⟩

/-- C66. So do booleans, strings, and values, arrays and objects of values. -/
theorem C66_scalar_round_trip (b : Bool) (s : List Nat) (v : Value F) (xs : List (Value F)) (ms : Map.T (Value F)) :
    RoundTrip (Conv.bool : Conv F Bool) b ∧ RoundTrip (Conv.str : Conv F (List Nat)) s ∧ RoundTrip (Conv.val : Conv F (Value F)) v ∧
      RoundTrip (Conv.arrayType : Conv F (List (Value F))) xs ∧ RoundTrip (Conv.objectType : Conv F (Map.T (Value F))) ms :=
  ⟨⟨_, rfl, rfl⟩, ⟨_, rfl, rfl⟩, ⟨_, rfl, rfl⟩, ⟨_, rfl, rfl⟩, ⟨_, rfl, rfl⟩⟩

/-- C66. A number of a floating point type survives if it survives the cast to `float_type` and
back. -/
theorem C66_float_round_trip {G : Type} (widen : G → F) (narrow : F → G) (zero x : G) (hx : narrow (widen x) = x) :
    RoundTrip (flt widen narrow zero) x :=
  ⟨_, rfl, by show Except.ok (narrow (widen x)) = _; rw [hx]⟩

/-- C67 does not hold: 300 read as a signed byte is 44. -/
theorem C67_violated : ∃ (i x : Int), (int true 8 : Conv F Int).get (.int i) = .ok x ∧ x ≠ i := ⟨300, 44, rfl, by decide⟩

/-- C67, partial: what is read is the number stored exactly when it is in the range of the type.
Otherwise it is another number, which is in the range; it is not reported. -/
theorem C67_get_int_partial (signed : Bool) (w : Nat) (hw : 1 ≤ w) (i : Int) :
    ((int signed w : Conv F Int).get (.int i) = .ok i ↔ InRange signed w i) ∧
      ∃ x, (int signed w : Conv F Int).get (.int i) = .ok x ∧ InRange signed w x ∧ ∃ n, x = i + n * 2 ^ w := by
  have e : (int signed w : Conv F Int).get (.int i) = .ok (castTo signed w i) := rfl
  refine ⟨?_, _, e, castTo_range signed hw i, ?_⟩
  · rw [e, ← castTo_id_iff hw]
    exact ⟨fun h => by injection h, fun h => by rw [h]⟩
  · cases signed with
    | true =>
      refine ⟨-((i + 2 ^ (w - 1)) / 2 ^ w), ?_⟩
      have := Int.emod_add_mul_ediv (i + 2 ^ (w - 1)) (2 ^ w)
      simp only [castTo, wrapS, if_true, Int.neg_mul]
      rw [Int.mul_comm] at this
      omega
    | false =>
      refine ⟨-(i / 2 ^ w), ?_⟩
      have := Int.emod_add_mul_ediv i (2 ^ w)
      simp [castTo, wrapU, Int.neg_mul]
      rw [Int.mul_comm] at this
      omega

example : (int false 16 : Conv Unit Int).get (.int 65535) = .ok 65535 :=
  (C67_get_int_partial false 16 (by decide) 65535).1.2 ⟨by decide, by decide⟩

/-- C90 does not hold: the unsigned number 2^63 is stored as -2^63. -/
theorem C90_violated : ∃ x i : Int, InRange false 64 x ∧ (int false 64 : Conv F Int).toValue x = .ok (.int i) ∧ i < 0 :=
  ⟨9223372036854775808, -9223372036854775808, ⟨by decide, by decide⟩, rfl, by decide⟩

/-- C90, partial: a number is stored as it is exactly when it is in the range of signed 64-bit
numbers. Numbers of all integral types other than unsigned 64-bit ones are. -/
theorem C90_stored_partial (signed : Bool) (w : Nat) (hw : 1 ≤ w) (x : Int) :
    ((int signed w : Conv F Int).toValue x = .ok (.int x) ↔ InRange true 64 x) ∧
      (InRange signed w x → (if signed then w ≤ 64 else w ≤ 63) → InRange true 64 x) := by
  refine ⟨?_, fun h hle => ?_⟩
  · rw [← castTo_id_iff (by decide)]
    show Except.ok (Value.int (castTo true 64 x)) = _ ↔ _
    exact ⟨fun h => by injection h with h; injection h, fun h => by rw [h]⟩
  · have h63 : (2 : Int) ^ (64 - 1) = 9223372036854775808 := by decide
    cases signed with
    | true =>
      have := two_pow_le (show w - 1 ≤ 64 - 1 by simp at hle; omega)
      simp only [InRange, if_true] at *
      omega
    | false =>
      have := two_pow_le (show w ≤ 64 - 1 by simp at hle; omega)
      simp [InRange] at *
      omega

example : (int true 64 : Conv Unit Int).toValue (-9223372036854775808) = .ok (.int (-9223372036854775808)) :=
  (C90_stored_partial true 64 (by decide) _).1.2 ⟨by decide, by decide⟩

/-! ## C68: types -/

/-- C68. `get<T>()` for a scalar type gives what is stored if the type of the value is the one of
`T`, and throws a type error otherwise: there are no implicit conversions, not even from
integers to floating point numbers or from anything to booleans. -/
theorem C68_get_scalar (v : Value F) :
    (v.type ≠ .bool → (Conv.bool : Conv F Bool).get v = .error (.exn .typeError)) ∧ (∀ b, (Conv.bool : Conv F Bool).get v = .ok b ↔ v = .bool b) ∧
    (v.type ≠ .str → (Conv.str : Conv F (List Nat)).get v = .error (.exn .typeError)) ∧
      (∀ s, (Conv.str : Conv F (List Nat)).get v = .ok s ↔ v = .str s) ∧
    (v.type ≠ .int → ∀ sg w, (int sg w : Conv F Int).get v = .error (.exn .typeError)) ∧
      (v.type = .int ↔ ∀ sg w, ∃ i, (int sg w : Conv F Int).get v = .ok i) ∧
    (v.type ≠ .flt → ∀ (G : Type) (wi : G → F) (na : F → G) (z : G), (flt wi na z).get v = .error (.exn .typeError)) ∧
      (∀ f, (flt id id f : Conv F F).get v = .ok f ↔ v = .flt f) := by
  cases v <;> simp [Value.type, Conv.get, Conv.bool, Conv.str, Conv.int, Conv.flt, M.throw, M.stop]

/-- C68. Arrays and objects are given for values of these types, and empty ones for null. -/
theorem C68_get_container (v : Value F) :
    (∀ xs, (arrayType : Conv F (List (Value F))).get v = .ok xs ↔ v = .arr xs ∨ v = .null ∧ xs = []) ∧
    (v.type ≠ .arr → v ≠ .null → (arrayType : Conv F (List (Value F))).get v = .error (.exn .typeError)) ∧
    (∀ ms, (objectType : Conv F (Map.T (Value F))).get v = .ok ms ↔ v = .obj ms ∨ v = .null ∧ ms = []) ∧
    (v.type ≠ .obj → v ≠ .null → (objectType : Conv F (Map.T (Value F))).get v = .error (.exn .typeError)) := by
  cases v <;> simp [Value.type, Conv.get, Conv.arrayType, Conv.objectType, M.throw, M.stop, eq_comm]

/-- C68. References and pointers are given exactly for the type of the value. -/
theorem C68_get_ref (t : VType) (ht : t ≠ .null) (v w : Value F) :
    (v.hasPtr t = true ↔ v.type = t) ∧ (v.getRef t = .ok w ↔ v.type = t ∧ w = v) ∧ (v.type ≠ t → v.getRef t = .error (.exn .typeError)) := by
  have h : v.hasPtr t = true ↔ v.type = t := by
    unfold Value.hasPtr
    simp [ht]
  refine ⟨h, ?_, fun hn => ?_⟩
  · unfold Value.getRef
    by_cases e : v.hasPtr t = true
    · rw [if_pos e]; simp [h.1 e, eq_comm]
    · rw [if_neg e]
      simp
      exact fun h' => absurd (h.2 h') e
  · unfold Value.getRef
    rw [if_neg (fun e => hn (h.1 e))]

example : (Conv.str : Conv Unit (List Nat)).get (.int 1) = .error (.exn .typeError) := (C68_get_scalar (.int 1)).2.2.1 (by decide)

/-! ## C69: sequences -/

/-- C69. `std::vector` and `std::deque`. -/
theorem C69_vector_round_trip (E : Conv F T) (xs : List T) (hl : xs.length ≤ vectorMax) (h : ∀ x ∈ xs, RoundTrip E x) :
    RoundTrip (vector E) xs := by
  obtain ⟨vs, h1, h2⟩ := roundTrip_all h
  refine ⟨.arr vs, toSeq h1 hl, get_ok.2 ?_⟩
  have e := getAll_length h2
  show fill E (.arr vs) (List.range vs.length) (resize E.zero vs.length []) = _
  rw [e]
  exact fill_all h2 (resize_length _ _ _)

/-- C69. `std::list`. -/
theorem C69_list_round_trip (E : Conv F T) (xs : List T) (hl : xs.length ≤ vectorMax) (h : ∀ x ∈ xs, RoundTrip E x) :
    RoundTrip (list E) xs := by
  obtain ⟨vs, h1, h2⟩ := roundTrip_all h
  refine ⟨.arr vs, toSeq h1 hl, get_ok.2 ?_⟩
  obtain ⟨g, h3, h4⟩ := getAll_fun h2
  show push E (.arr vs) (List.range vs.length) [] = _
  rw [push_run g _ _ fun i hi => h3 i (List.mem_range.1 hi), h4, List.nil_append]

/-- C69. `std::forward_list`. -/
theorem C69_forward_list_round_trip (E : Conv F T) (xs : List T) (hl : xs.length ≤ vectorMax) (h : ∀ x ∈ xs, RoundTrip E x) :
    RoundTrip (forwardList E) xs := by
  obtain ⟨vs, h1, h2⟩ := roundTrip_all h
  refine ⟨.arr vs, toSeq h1 hl, get_ok.2 ?_⟩
  obtain ⟨g, h3, h4⟩ := getAll_fun h2
  show pushFront E (.arr vs) ((List.range vs.length).map fun i => vs.length - i - 1) [] = _
  rw [range_backwards, pushFront_run g _ _ fun i hi => h3 i (by simpa using hi), List.map_reverse, h4]
  simp

/-- C69. `std::array` and C arrays. -/
theorem C69_array_round_trip (n : Nat) (E : Conv F T) (xs : List T) (hn : xs.length = n) (hl : n ≤ vectorMax) (h : ∀ x ∈ xs, RoundTrip E x) :
    RoundTrip (array n E) xs := by
  obtain ⟨vs, h1, h2⟩ := roundTrip_all h
  refine ⟨.arr vs, toSeq h1 (by omega), get_ok.2 ?_⟩
  have e := getAll_length h2
  show fill E (.arr vs) (List.range (min vs.length n)) (List.replicate n E.zero) = _
  rw [show min vs.length n = xs.length by omega]
  exact fill_all h2 (by simp [hn])

/-- C69. `std::set`: with its elements in increasing order. -/
theorem C69_set_round_trip (E : Conv F T) (lt : T → T → Bool) (hlt : Total lt) (xs : List T) (hx : xs.Pairwise fun a b => lt a b = true)
    (hl : xs.length ≤ vectorMax) (h : ∀ x ∈ xs, RoundTrip E x) : RoundTrip (Conv.set E (setInsert lt)) xs := by
  obtain ⟨vs, h1, h2⟩ := roundTrip_all h
  refine ⟨.arr vs, toSeq h1 hl, get_ok.2 ?_⟩
  obtain ⟨g, h3, h4⟩ := getAll_fun h2
  show insertAll E (setInsert lt) (.arr vs) (List.range vs.length) [] = _
  rw [insertAll_run _ g _ _ fun i hi => h3 i (List.mem_range.1 hi), h4, foldl_setInsert lt hlt _ _ (by simpa using hx)]
  rfl

/-- C69. `std::unordered_set`: the same elements, wherever the implementation places them. -/
theorem C69_unordered_set_round_trip [BEq T] [LawfulBEq T] (E : Conv F T) (place : List T → T → Nat) (xs : List T) (hx : xs.Nodup)
    (hl : xs.length ≤ vectorMax) (h : ∀ x ∈ xs, RoundTrip E x) :
    ∃ v ys, (Conv.set E (hashInsert place)).toValue xs = .ok v ∧ (Conv.set E (hashInsert place)).get v = .ok ys ∧ ys.Perm xs := by
  obtain ⟨vs, h1, h2⟩ := roundTrip_all h
  obtain ⟨g, h3, h4⟩ := getAll_fun h2
  refine ⟨.arr vs, xs.foldl (fun t x => hashInsert place x t) [], toSeq h1 hl, get_ok.2 ?_, ?_⟩
  · show insertAll E (hashInsert place) (.arr vs) (List.range vs.length) [] = _
    rw [insertAll_run _ g _ _ fun i hi => h3 i (List.mem_range.1 hi), h4]
  · exact foldl_hashInsert place xs [] (by simpa using hx)

/-- C69. A `std::set` read from an array, also one with repeated elements, has exactly what the elements of the array are read
as, each once, in increasing order. -/
theorem C69_set_of_array (E : Conv F T) (lt : T → T → Bool) (hlt : Total lt) (vs : List (Value F)) (xs : List T)
    (h : vs.map E.get = xs.map .ok) :
    ∃ ys, (Conv.set E (setInsert lt)).get (.arr vs) = .ok ys ∧ ys.Pairwise (fun a b => lt a b = true) ∧ ∀ y, y ∈ ys ↔ y ∈ xs := by
  obtain ⟨g, h3, h4⟩ := getAll_fun (getAll_map h)
  obtain ⟨h5, h6⟩ := foldl_setInsert_sorted lt hlt xs [] .nil
  refine ⟨_, get_ok.2 ?_, h5, fun y => by rw [h6]; simp⟩
  show insertAll E (setInsert lt) (.arr vs) (List.range vs.length) [] = _
  rw [insertAll_run _ g _ _ fun i hi => h3 i (List.mem_range.1 hi), h4]

/-- C69. The same for `std::unordered_set`, in some order. -/
theorem C69_unordered_set_of_array [BEq T] [LawfulBEq T] (E : Conv F T) (place : List T → T → Nat) (vs : List (Value F)) (xs : List T)
    (h : vs.map E.get = xs.map .ok) :
    ∃ ys, (Conv.set E (hashInsert place)).get (.arr vs) = .ok ys ∧ ys.Nodup ∧ ∀ y, y ∈ ys ↔ y ∈ xs := by
  obtain ⟨g, h3, h4⟩ := getAll_fun (getAll_map h)
  obtain ⟨h5, h6⟩ := foldl_hashInsert_nodup place xs [] .nil
  refine ⟨_, get_ok.2 ?_, h5, fun y => by rw [h6]; simp⟩
  show insertAll E (hashInsert place) (.arr vs) (List.range vs.length) [] = _
  rw [insertAll_run _ g _ _ fun i hi => h3 i (List.mem_range.1 hi), h4]

example : ([.int 7, .int 3, .int 7] : List (Value Unit)).map (int true 32 : Conv Unit Int).get = [7, 3, 7].map .ok := rfl

/-- Lists of lists of bytes, and the set of them, for the examples. -/
def byteLists : List (List Int) := [[1, 2], [], [255]]

theorem byteLists_ok : ∀ x ∈ byteLists, RoundTrip (vector (int false 8 : Conv Unit Int)) x := by
  intro x hx
  apply C69_vector_round_trip
  · simp [byteLists] at hx
    rcases hx with rfl | rfl | rfl <;> decide
  · intro i hi
    apply C66_int_round_trip false 8 (by decide) (by decide)
    simp [byteLists] at hx
    rcases hx with rfl | rfl | rfl <;> simp at hi
    · rcases hi with rfl | rfl <;> exact ⟨by decide, by decide⟩
    · subst hi; exact ⟨by decide, by decide⟩

example : RoundTrip (forwardList (vector (int false 8 : Conv Unit Int))) byteLists :=
  C69_forward_list_round_trip _ _ (by decide) byteLists_ok
example : RoundTrip (array 3 (vector (int false 8 : Conv Unit Int))) byteLists :=
  C69_array_round_trip 3 _ _ rfl (by decide) byteLists_ok

theorem intTotal : Total (fun a b : Int => decide (a < b)) where
  irrefl := by simp
  trans := by simp; omega
  total := by simp; omega

example : RoundTrip (Conv.set (int true 32 : Conv Unit Int) (setInsert fun a b => decide (a < b))) [-3, 0, 7] :=
  C69_set_round_trip _ _ intTotal _ (by simp) (by decide) fun x hx =>
    C66_int_round_trip true 32 (by decide) (by decide) x (by
      simp at hx
      rcases hx with rfl | rfl | rfl <;> exact ⟨by decide, by decide⟩)

/-! ## C70: maps -/

/-- C70. `std::map` with strings as keys: with its elements in order of the keys. -/
theorem C70_map_round_trip (E : Conv F T) (xs : List (List Nat × T)) (hx : (xs.map Prod.fst).Pairwise (· < ·)) (h : ∀ x ∈ xs, RoundTrip E x.2) :
    RoundTrip (Conv.map E Map.emplace) xs := by
  have hx : Sorted xs := sorted_keys.2 hx
  obtain ⟨vs, h1, h2⟩ := map_roundTrip h
  have hv : Sorted vs := by
    rw [sorted_keys, ← all2_keys (fun _ _ h => h.1) h1]
    exact sorted_keys.1 hx
  refine ⟨.obj vs, ?_, get_ok.2 ?_⟩
  · show toMembers E xs (.obj []) = _
    rw [toMembers_eq xs vs h1 [] (by simp [Sorted]), put_all_sorted vs hv]
  · show (Conv.map E Map.emplace).fromValue (.obj vs) [] = _
    rw [fromMap _ h2, foldl_emplace xs [] (by simpa using hx)]
    rfl

/-- C70. `std::unordered_map`: the same elements, wherever the implementation places them. -/
theorem C70_unordered_map_round_trip (E : Conv F T) (place : List (List Nat × T) → List Nat → Nat) (xs : List (List Nat × T))
    (hx : (xs.map Prod.fst).Nodup) (h : ∀ x ∈ xs, RoundTrip E x.2) :
    ∃ v ys, (Conv.map E (hashEmplace place)).toValue xs = .ok v ∧ (Conv.map E (hashEmplace place)).get v = .ok ys ∧ ys.Perm xs := by
  obtain ⟨vs, h1, h2⟩ := map_roundTrip h
  have hv : (vs.map Prod.fst).Nodup := by
    rw [← all2_keys (fun _ _ h => h.1) h1]
    exact hx
  obtain ⟨ys, h3, h4⟩ := all2_perm (put_all_perm vs hv).symm h2
  refine ⟨_, ys.foldl (fun t x => hashEmplace place x.1 x.2 t) [], toMembers_eq xs vs h1 [] (by simp [Sorted]), get_ok.2 (fromMap _ h3 []), ?_⟩
  have hy : (ys.map Prod.fst).Nodup := (h4.map Prod.fst).nodup hx
  exact (foldl_hashEmplace place ys [] (by simpa using hy)).trans h4.symm

example : RoundTrip (Conv.map (int false 8 : Conv Unit Int) Map.emplace) [([0x61], 1), ([0x62], 2)] :=
  C70_map_round_trip _ _ (by decide) fun x hx =>
    C66_int_round_trip false 8 (by decide) (by decide) _ (by
      simp at hx
      rcases hx with rfl | rfl <;> exact ⟨by decide, by decide⟩)

/-! ## C71: reading into something that has content -/

/-- C71 does not hold for maps: elements that the map had stay, and an old element wins over the
one read. -/
theorem C71_violated : ∃ (v : Value F) (t t' : List (List Nat × Int)), (Conv.map (int true 32) Map.emplace).getInto v t = (.ok true, t') ∧
    (Conv.map (int true 32) Map.emplace).get v ≠ .ok t' ∧ v = .obj [([0x61], .int 1)] ∧ t' = [([0x61], 5), ([0x62], 6)] :=
  ⟨.obj [([0x61], .int 1)], [([0x61], 5), ([0x62], 6)], [([0x61], 5), ([0x62], 6)], rfl,
    by rw [show (Conv.map (int true 32) Map.emplace).get (.obj [([0x61], .int 1)] : Value F) = .ok [([0x61], 1)] from rfl]; simp, rfl, rfl⟩

/-- C71 does not hold for arrays of a fixed length: elements beyond those read stay. -/
theorem C71_violated_array : ∃ (v : Value F) (t t' : List Int), (array 2 (int true 32)).getInto v t = (.ok true, t') ∧
    (array 2 (int true 32)).get v ≠ .ok t' ∧ v = .arr [.int 1] ∧ t' = [1, 6] :=
  ⟨.arr [.int 1], [5, 6], [1, 6], rfl, by rw [show (array 2 (int true 32)).get (.arr [.int 1] : Value F) = .ok [1, 0] from rfl]; simp, rfl, rfl⟩

/-- C71, partial: what scalars, vectors, lists, sets and pointers had before is replaced, for all
element types. Missing: maps and arrays of fixed length, for which it does not hold. -/
theorem C71_replaces_partial (E : Conv F T) (insert : T → List T → List T) (signed : Bool) (w : Nat) :
    Replaces (Conv.bool : Conv F Bool) ∧ Replaces (int signed w : Conv F Int) ∧ Replaces (Conv.str : Conv F (List Nat)) ∧
      Replaces (Conv.val : Conv F (Value F)) ∧ Replaces (arrayType : Conv F (List (Value F))) ∧ Replaces (objectType : Conv F (Map.T (Value F))) ∧
      Replaces (vector E) ∧ Replaces (list E) ∧ Replaces (forwardList E) ∧ Replaces (Conv.set E insert) ∧ Replaces (ptr E) := by
  refine ⟨?_, ?_, ?_, ?_, ?_, ?_, ?_, ?_, ?_, ?_, ?_⟩ <;> intro v t t' h <;> rw [getInto_true] at h <;> rw [get_ok]
  · cases v <;> first | exact h | (cases h)
  · cases v <;> first | exact h | (cases h)
  · cases v <;> first | exact h | (cases h)
  · exact h
  · cases v <;> first | exact h | (cases h)
  · cases v <;> first | exact h | (cases h)
  · obtain ⟨g, h1, h2⟩ := fill_ok h
    show fill E v (List.range v.size) (resize E.zero v.size []) = _
    rw [fill_run _ _ g h1, h2, foldl_set_all g (resize_length _ _ _) (resize_length _ _ _)]
  · exact h
  · exact h
  · exact h
  · cases v
    case null => exact h
    all_goals
      simp only [ptr] at h ⊢
      revert h
      cases E.get _ with
      | ok x => exact id
      | error e => intro h; cases h

/-- C71, partial, for arrays of a fixed length: if there are enough elements. -/
theorem C71_replaces_array_partial (n : Nat) (E : Conv F T) (v : Value F) (hn : n ≤ v.size) (t t' : List T) (ht : t.length = n)
    (h : (array n E).getInto v t = (.ok true, t')) : (array n E).get v = .ok t' := by
  rw [getInto_true] at h
  rw [get_ok]
  obtain ⟨g, h1, h2⟩ := fill_ok h
  show fill E v (List.range (min v.size n)) (List.replicate n E.zero) = _
  rw [fill_run _ _ g h1, h2, show min v.size n = n by omega, foldl_set_all g (by simp) ht]

/-- C71, partial, for maps: if the map was empty. -/
theorem C71_replaces_map_partial (E : Conv F T) (em : List Nat → T → List (List Nat × T) → List (List Nat × T)) (v : Value F)
    (t' : List (List Nat × T)) (h : (Conv.map E em).getInto v [] = (.ok true, t')) : (Conv.map E em).get v = .ok t' := by
  rw [getInto_true] at h
  rw [get_ok]
  exact h

example : (vector (int true 32 : Conv Unit Int)).getInto (.arr [.int 1]) [4, 5, 6] = (.ok true, [1]) := rfl

/-! ## C72: failed reads -/

/-- C72 does not hold for vectors: the vector gets the length of the array and the elements read
before the failure. -/
theorem C72_violated : ∃ (v : Value F) (t t' : List Int), (vector (int true 32)).getInto v t = (.ok false, t') ∧
    t = [7, 8, 9] ∧ v = .arr [.int 1, .null] ∧ t' = [1, 8] :=
  ⟨.arr [.int 1, .null], [7, 8, 9], [1, 8], rfl, rfl, rfl, rfl⟩

/-- C72 does not hold for lists and sets either: they lose their content. -/
theorem C72_violated_list : ¬ Keeps (list (int true 32 : Conv F Int)) ∧ ¬ Keeps (forwardList (int true 32 : Conv F Int)) ∧
    ¬ Keeps (Conv.set (int true 32 : Conv F Int) (setInsert fun a b => decide (a < b))) := by
  refine ⟨fun h => ?_, fun h => ?_, fun h => ?_⟩
  · have := h (.arr [.null]) [7] [] rfl; cases this
  · have := h (.arr [.null]) [7] [] rfl; cases this
  · have := h (.arr [.null]) [7] [] rfl; cases this

/-- C72, partial: scalars, values, arrays and objects of values, and pointers keep what they had.
Missing: containers with conversion of the elements and bound structs, for which it does not
hold. -/
theorem C72_keeps_partial (E : Conv F T) (signed : Bool) (w : Nat) :
    Keeps (Conv.bool : Conv F Bool) ∧ Keeps (int signed w : Conv F Int) ∧ Keeps (Conv.str : Conv F (List Nat)) ∧
      Keeps (Conv.val : Conv F (Value F)) ∧ Keeps (arrayType : Conv F (List (Value F))) ∧ Keeps (objectType : Conv F (Map.T (Value F))) ∧
      Keeps (ptr E) := by
  refine ⟨?_, ?_, ?_, ?_, ?_, ?_, ?_⟩ <;> intro v t t' h <;> obtain ⟨x, h⟩ := getInto_false.1 h
  · cases v <;> cases h <;> rfl
  · cases v <;> cases h <;> rfl
  · cases v <;> cases h <;> rfl
  · cases v <;> cases h
  · cases v <;> cases h <;> rfl
  · cases v <;> cases h <;> rfl
  · cases v
    case null => cases h
    all_goals
      simp only [ptr] at h
      revert h
      cases E.get _ with
      | ok x => intro h; cases h
      | error e => intro h; cases h; rfl

example : (int true 32 : Conv Unit Int).getInto .null 7 = (.ok false, 7) := rfl

/-! ## C87, C88, C89: containers of the wrong kind or length -/

/-- C87 does not hold: an empty object is read as an empty sequence. -/
theorem C87_violated : (vector (int true 32 : Conv F Int)).get (.obj []) = .ok [] ∧ (list (int true 32 : Conv F Int)).get (.obj []) = .ok [] := ⟨rfl, rfl⟩

theorem item_other (E : Conv F T) (v : Value F) (i : Nat) (hv : v.type ≠ .arr) : E.item v i = .error (.exn .invalidKey) := by
  cases v <;> first | rfl | exact absurd rfl hv

/-- C87, partial: all other values that are not arrays are refused, except null, which is read as
an empty sequence. -/
theorem C87_sequence_of_other_partial (E : Conv F T) (insert : T → List T → List T) (v : Value F) (hv : v.type ≠ .arr) :
    (v.size ≠ 0 → (vector E).get v = .error (.exn .invalidKey) ∧ (list E).get v = .error (.exn .invalidKey) ∧
      (forwardList E).get v = .error (.exn .invalidKey) ∧ (Conv.set E insert).get v = .error (.exn .invalidKey) ∧
      ∀ n, n ≠ 0 → (array n E).get v = .error (.exn .invalidKey)) ∧
    (v.size = 0 → (v = .null ∨ v = .obj []) ∧ (vector E).get v = .ok [] ∧ (list E).get v = .ok []) := by
  have hi := fun i => item_other E v i hv
  refine ⟨fun h => ?_, fun h => ⟨?_, ?_, ?_⟩⟩
  · obtain ⟨n, hn⟩ : ∃ n, v.size = n + 1 := ⟨v.size - 1, by omega⟩
    refine ⟨?_, ?_, ?_, ?_, fun k hk => ?_⟩ <;> rw [get_error]
    · show (fill E v (List.range v.size) _).1 = _
      rw [hn, List.range_succ_eq_map]; unfold fill; rw [hi]
    · show (push E v (List.range v.size) _).1 = _
      rw [hn, List.range_succ_eq_map]; unfold push; rw [hi]
    · show (pushFront E v ((List.range v.size).map fun i => v.size - i - 1) _).1 = _
      rw [hn, List.range_succ_eq_map, List.map_cons]; unfold pushFront; rw [hi]
    · show (insertAll E insert v (List.range v.size) _).1 = _
      rw [hn, List.range_succ_eq_map]; unfold insertAll; rw [hi]
    · obtain ⟨m, hm⟩ : ∃ m, min v.size k = m + 1 := ⟨min v.size k - 1, by omega⟩
      show (fill E v (List.range (min v.size k)) _).1 = _
      rw [hm, List.range_succ_eq_map]; unfold fill; rw [hi]
  · cases v with
    | null => exact .inl rfl
    | obj ms => exact .inr (by cases ms with | nil => rfl | cons _ _ => cases h)
    | arr _ => exact absurd rfl hv
    | _ => cases h
  · rw [get_ok]
    show fill E v (List.range v.size) (resize E.zero v.size []) = _
    rw [h]; rfl
  · rw [get_ok]
    show push E v (List.range v.size) [] = _
    rw [h]; rfl

example : (vector (int true 32 : Conv Unit Int)).get (.int 3) = .error (.exn .invalidKey) :=
  ((C87_sequence_of_other_partial _ (fun _ t => t) (.int 3) (by decide)).1 (by decide)).1

/-- C88 does not hold: an empty array is read as an empty map. -/
theorem C88_violated : (Conv.map (int true 32 : Conv F Int) Map.emplace).get (.arr []) = .ok [] := rfl

/-- C88, partial: all other values that are not objects are refused, except null. -/
theorem C88_map_of_other_partial (E : Conv F T) (em : List Nat → T → List (List Nat × T) → List (List Nat × T)) (v : Value F) (hv : v.type ≠ .obj) :
    (v.size ≠ 0 → (Conv.map E em).get v = .error (.exn .invalidIterator)) ∧
    (v.size = 0 → (v = .null ∨ v = .arr []) ∧ (Conv.map E em).get v = .ok []) := by
  obtain ⟨it, h1, h2⟩ := begin_at 0 v
  obtain ⟨last, h3, h4⟩ := fin_at 0 v
  have e : (Conv.map E em).fromValue v [] = emplaceAll E em v (v.size + 1) it last [] := by
    show (match v.begin 0, v.fin 0 with
      | .ok it, .ok last => emplaceAll E em v (v.size + 1) it last []
      | .error e, _ => (.error e, [])
      | _, .error e => (.error e, [])) = _
    rw [h1, h3]
  refine ⟨fun h => ?_, fun h => ⟨?_, ?_⟩⟩
  · have hk := key_other h2 (show 0 < v.size by omega) hv
    refine get_error.2 ?_
    show ((Conv.map E em).fromValue v []).1 = _
    rw [e]
    unfold emplaceAll
    rw [eq_at h2 h4, decide_eq_false (by omega)]
    dsimp only
    rw [hk]
  · cases v with
    | null => exact .inl rfl
    | arr xs => exact .inr (by cases xs with | nil => rfl | cons _ _ => cases h)
    | obj _ => exact absurd rfl hv
    | _ => cases h
  · rw [get_ok]
    show (Conv.map E em).fromValue v [] = _
    rw [e]
    unfold emplaceAll
    rw [eq_at h2 h4, decide_eq_true (by omega)]

example : (Conv.map (int true 32 : Conv Unit Int) Map.emplace).get (.arr [.int 1]) = .error (.exn .invalidIterator) :=
  (C88_map_of_other_partial _ _ (.arr [.int 1]) (by decide)).1 (by decide)

/-- C89 does not hold: elements that do not fit into an array of fixed length are dropped, and if
there are too few, the rest are zero. -/
theorem C89_violated : (array 2 (int true 32 : Conv F Int)).get (.arr [.int 1, .int 2, .int 3]) = .ok [1, 2] ∧
    (array 2 (int true 32 : Conv F Int)).get (.arr [.int 1]) = .ok [1, 0] := ⟨rfl, rfl⟩

/-- C89, partial: for arrays of the right length. -/
theorem C89_array_length_partial (n : Nat) (E : Conv F T) (vs : List (Value F)) (hn : vs.length = n) (xs : List T) :
    (array n E).get (.arr vs) = .ok xs ↔ (vector E).get (.arr vs) = .ok xs := by
  rw [get_ok, get_ok]
  show fill E (.arr vs) (List.range (min vs.length n)) (List.replicate n E.zero) = _ ↔
    fill E (.arr vs) (List.range vs.length) (resize E.zero vs.length []) = _
  rw [show min vs.length n = n by omega, hn]
  have : resize E.zero n [] = List.replicate n E.zero := by simp [resize]
  rw [this]

example : (array 2 (int true 32 : Conv Unit Int)).get (.arr [.int 1, .int 2]) = .ok [1, 2] :=
  (C89_array_length_partial 2 _ _ rfl _).2 rfl

/-! ## C91: pointers -/

/-- C91 does not hold: a pointer to something that converts to null, such as a null pointer, an
empty value or a struct of which all fields are omitted, comes back as a null pointer. -/
theorem C91_violated : ¬ RoundTrip (ptr (Conv.val : Conv F (Value F))) (some .null) ∧
    ¬ RoundTrip (ptr (ptr (int true 32 : Conv F Int))) (some none) := by
  refine ⟨?_, ?_⟩ <;> rintro ⟨v, h1, h2⟩ <;> cases h1 <;> cases h2

/-- C91, partial: pointers to what does not convert to null, and null pointers, survive. -/
theorem C91_ptr_round_trip_partial (E : Conv F T) : RoundTrip (ptr E) none ∧
    ∀ x, RoundTrip E x → E.toValue x ≠ .ok .null → RoundTrip (ptr E) (some x) := by
  refine ⟨⟨.null, rfl, rfl⟩, fun x ⟨v, h1, h2⟩ hn => ⟨v, h1, get_ok.2 ?_⟩⟩
  have : v ≠ .null := fun e => hn (e ▸ h1)
  cases v
  case null => exact absurd rfl this
  all_goals simp only [ptr, h2]

example : RoundTrip (ptr (int true 32 : Conv Unit Int)) (some 5) :=
  (C91_ptr_round_trip_partial _).2 5 (C66_int_round_trip true 32 (by decide) (by decide) 5 ⟨by decide, by decide⟩) (by
    intro h; cases h)

/-! ## C95: reads are safe -/

/-- C95. Reading never has undefined behaviour and always ends, with or without an exception:
for scalars, containers of whatever can be read safely, pointers, and bound structs, from any
value and into any content. -/
theorem C95_reads_are_safe (E : Conv F T) (hE : Safe E) (insert : T → List T → List T)
    (em : List Nat → T → List (List Nat × T) → List (List Nat × T)) (n : Nat) (signed : Bool) (w : Nat) (fs : List (Field F S)) (zero : S)
    (hfs : ∀ f ∈ fs, Safe f.conv) :
    Safe (Conv.bool : Conv F Bool) ∧ Safe (int signed w : Conv F Int) ∧ Safe (Conv.str : Conv F (List Nat)) ∧
      Safe (Conv.val : Conv F (Value F)) ∧ Safe (arrayType : Conv F (List (Value F))) ∧ Safe (objectType : Conv F (Map.T (Value F))) ∧
      Safe (array n E) ∧ Safe (vector E) ∧ Safe (list E) ∧ Safe (forwardList E) ∧ Safe (Conv.set E insert) ∧ Safe (Conv.map E em) ∧
      Safe (ptr E) ∧ Safe (Conv.bind fs zero) := by
  refine ⟨?_, ?_, ?_, ?_, ?_, ?_, ?_, ?_, ?_, ?_, ?_, ?_, ?_, ?_⟩ <;> rw [safe_iff] <;> intro v t
  · cases v <;> first | exact fine_exn _ | exact fine_ok _
  · cases v <;> first | exact fine_exn _ | exact fine_ok _
  · cases v <;> first | exact fine_exn _ | exact fine_ok _
  · exact fine_ok _
  · cases v <;> first | exact fine_exn _ | exact fine_ok _
  · cases v <;> first | exact fine_exn _ | exact fine_ok _
  · exact safe_fill hE _ _ _
  · exact safe_fill hE _ _ _
  · exact safe_push hE _ _ _
  · exact safe_pushFront hE _ _ _
  · exact safe_insertAll hE _ _ _ _
  · obtain ⟨it, h1, h2⟩ := begin_at 0 v
    obtain ⟨last, h3, h4⟩ := fin_at 0 v
    show Fine (match v.begin 0, v.fin 0 with
      | .ok it, .ok last => emplaceAll E em v (v.size + 1) it last t
      | .error e, _ => (.error e, t)
      | _, .error e => (.error e, t)).1
    rw [h1, h3]
    exact safe_emplaceAll hE em h4 v.size 0 it (v.size + 1) t h2 (by omega) (by omega)
  · have := safe_get hE v
    cases v
    case null => exact fine_ok _
    all_goals
      simp only [ptr]
      split
      · exact fine_ok _
      · rename_i e he
        obtain ⟨x, rfl⟩ := this e he
        exact fine_exn x
  · exact safe_readAll fs hfs t

/-- Floating point numbers too. -/
theorem C95_float_safe {G : Type} (widen : G → F) (narrow : F → G) (zero : G) : Safe (flt widen narrow zero) := by
  rw [safe_iff]
  intro v t
  cases v <;> first | exact fine_exn _ | exact fine_ok _

example : Safe (vector (Conv.str : Conv Unit (List Nat))) :=
  (C95_reads_are_safe Conv.str (C95_reads_are_safe (S := Unit) Conv.val (by intro v t; exact ⟨_, _, rfl⟩) (fun _ t => t) Map.emplace 0 true 8 [] () (by simp)).2.2.1
    (fun _ t => t) Map.emplace 0 true 8 ([] : List (Field Unit Unit)) () (by simp)).2.2.2.2.2.2.2.1

/-! ## C73-C75, C92-C94: `CONFIGOR_BIND` -/

/-- A struct of two numbers with the second one optional: `struct { int a; int b = d; }`. -/
def pairFields : List (Field F (Int × Int)) :=
  [{ T := Int, conv := int true 32, get := Prod.fst, set := fun x s => (x, s.2), name := [0x61], optional := false, isZero := fun x => x == 0 },
   { T := Int, conv := int true 32, get := Prod.snd, set := fun x s => (s.1, x), name := [0x62], optional := true, isZero := fun x => x == 0 }]

theorem pairFields_lenses : Lenses (pairFields : List (Field F (Int × Int))) where
  same := by simp [pairFields]
  other := by simp [pairFields]

/-- C73 does not hold if an optional field has an initializer: with `b = 7`, the struct with
`b` set to 0 comes back with 7. -/
theorem C73_violated : ∃ v : Value F, (Conv.bind pairFields (0, 7)).toValue (1, 0) = .ok v ∧ (Conv.bind pairFields (0, 7)).get v = .ok (1, 7) :=
  ⟨.obj [([0x61], .int 1)], rfl, rfl⟩

/-- C73, partial: a struct whose fields round-trip, with distinct names, comes back with all bound
fields unchanged. Missing, because it does not hold: optional fields with initializers; a
required field must either have no initializer or a type for which `get(x)` replaces the
content. -/
theorem C73_bind_round_trip_partial (fs : List (Field F S)) (zero s : S) (hl : Lenses fs) (hn : (fs.map Field.name).Nodup)
    (hz : ∀ f ∈ fs, f.isZero (f.get s) = true → f.get s = f.conv.zero)
    (hd : ∀ f ∈ fs, f.get zero = f.conv.zero ∨ f.optional = false ∧ ∀ v t x, f.conv.get v = .ok x → f.conv.getInto v t = (.ok true, x))
    (hr : ∀ f ∈ fs, RoundTrip f.conv (f.get s)) :
    ∃ v s', (Conv.bind fs zero).toValue s = .ok v ∧ (Conv.bind fs zero).get v = .ok s' ∧ Agree fs s s' := by
  obtain ⟨v, h1, h2, h3, _, _⟩ := writeAll_spec s fs hn (fun f hf => ⟨_, (hr f hf).choose_spec.1⟩) .null (.inl rfl)
  have hget : ∀ f ∈ fs, ¬ Omitted f s → ∃ y, member v f.name = some y ∧ f.conv.getInto y (f.get zero) = (.ok true, f.get s) := by
    intro f hf ho
    obtain ⟨y, hy, hm⟩ := (h3 f hf).1 ho
    refine ⟨y, hm, ?_⟩
    obtain ⟨y', hy', hg⟩ := hr f hf
    rw [hy] at hy'
    cases hy'
    rcases hd f hf with e | ⟨_, e⟩
    · rw [e, getInto_true]
      exact get_ok.1 hg
    · exact e _ _ _ hg
  have hok : ∃ s', readAll v fs zero = (.ok (), s') := by
    refine readAll_ok h2 fs hl zero fun f hf => ?_
    by_cases ho : Omitted f s
    · exact .inl ⟨by rw [(h3 f hf).2 ho]; rfl, ho.1⟩
    · obtain ⟨y, hm, hg⟩ := hget f hf ho
      exact .inr ⟨y, true, _, hm, hg⟩
  obtain ⟨s', hs⟩ := hok
  refine ⟨v, s', h1, get_ok.2 hs, fun f hf => ?_⟩
  have hf' := readAll_fields h2 fs hl zero s' hs f hf
  by_cases ho : Omitted f s
  · have hm : member v f.name = none := by rw [(h3 f hf).2 ho]; rfl
    rw [hf'.2.1 hm, hz f hf ho.2]
    rcases hd f hf with e | ⟨e, _⟩
    · exact e.symm
    · rw [ho.1] at e; cases e
  · obtain ⟨y, hm, hg⟩ := hget f hf ho
    obtain ⟨b, hb⟩ := hf'.2.2 y hm
    rw [hg] at hb
    exact congrArg Prod.snd hb

example : ∃ (v : Value Unit) (s' : Int × Int), (Conv.bind pairFields (0, 0)).toValue (5, -6) = .ok v ∧
    (Conv.bind pairFields (0, 0)).get v = .ok s' ∧ Agree (pairFields : List (Field Unit _)) (5, -6) s' := by
  refine C73_bind_round_trip_partial _ _ _ pairFields_lenses (by decide) ?_ ?_ ?_
  · intro f hf
    simp [pairFields] at hf
    rcases hf with rfl | rfl <;> simp
  · intro f hf
    simp [pairFields] at hf
    rcases hf with rfl | rfl <;> exact .inl rfl
  · intro f hf
    simp [pairFields] at hf
    rcases hf with rfl | rfl <;> exact C66_int_round_trip true 32 (by decide) (by decide) _ ⟨by decide, by decide⟩

/-- C74. Reading a bound struct from an object that lacks a required member throws
`std::out_of_range`, whatever else is in the object; an optional
field without a member keeps its default. -/
theorem C74_missing_field (fs : List (Field F S)) (zero : S) (ms : Map.T (Value F)) (hm : Sorted ms) (f : Field F S) (hf : f ∈ fs)
    (hn : ms.lookup f.name = none) :
    ((∀ g ∈ fs, Safe g.conv) → f.optional = false → (Conv.bind fs zero).get (.obj ms) = .error (.exn .outOfRange)) ∧
    (Lenses fs → ∀ s, (Conv.bind fs zero).get (.obj ms) = .ok s → f.optional = true ∧ f.get s = f.get zero) := by
  refine ⟨fun hs ho => ?_, fun hl s h => ?_⟩
  · obtain ⟨s', h⟩ := readAll_missing hm fs hs f hf ho hn zero
    rw [get_error]
    show (readAll (.obj ms) fs zero).1 = _
    rw [h]
  · have := readAll_fields (.inr ⟨ms, rfl, hm⟩) fs hl zero s (get_ok.1 h) f hf
    exact ⟨this.1 hn, this.2.1 hn⟩

/-- C74. Values that are not objects are refused as soon as there is a required field. -/
theorem C74_not_an_object (fs : List (Field F S)) (zero : S) (v : Value F) (hv : v.type ≠ .obj) (f : Field F S) (hf : f ∈ fs)
    (ho : f.optional = false) : (Conv.bind fs zero).get v = .error (.exn .invalidKey) := by
  have hc : ∀ k, v.count k = 0 := by
    intro k
    cases v <;> first | rfl | exact absurd rfl hv
  have ha : ∀ k, (atKey k read v).1 = .error (.exn .invalidKey) := by
    intro k
    cases v <;> first | rfl | exact absurd rfl hv
  have : ∀ (gs : List (Field F S)) (s : S), f ∈ gs → (readAll v gs s).1 = .error (.exn .invalidKey) := by
    intro gs
    induction gs with
    | nil => intro s h; cases h
    | cons g gs ih =>
      intro s h
      rw [readAll_cons]
      have hg : g.read v s = if g.optional = true then (.ok (), s) else (.error (.exn .invalidKey), s) := by
        unfold Field.read
        rw [hc, ha]
        cases g.optional <;> rfl
      rw [hg]
      cases e : g.optional with
      | true =>
        rcases List.mem_cons.1 h with rfl | h
        · rw [ho] at e; cases e
        · exact ih s h
      | false => rfl
  exact get_error.2 (this fs zero hf)

theorem int_safe (signed : Bool) (w : Nat) : Safe (int signed w : Conv F Int) := by
  intro v t
  cases v <;> exact ⟨_, _, rfl⟩

example : (Conv.bind (pairFields : List (Field Unit _)) (0, 0)).get (.obj [([0x62], .int 3)]) = .error (.exn .outOfRange) :=
  (C74_missing_field _ _ _ (by simp [Sorted]) _ (by simp [pairFields]; left; rfl) rfl).1 (by
    intro g hg
    simp [pairFields] at hg
    rcases hg with rfl | rfl <;> exact int_safe _ _) rfl

/-- A struct with a field that is the struct above. -/
def outerFields : List (Field F (Int × Int)) :=
  [{ T := Int × Int, conv := Conv.bind pairFields (0, 0), get := id, set := fun x _ => x, name := [0x70], optional := false, isZero := fun x => x == (0, 0) }]

/-- C92 does not hold: if the struct in a field lacks a required member, the exception does not
get out: the outer struct is read as if all were well. -/
theorem C92_violated : (Conv.bind pairFields (0, 0)).get (.obj [] : Value F) = .error (.exn .outOfRange) ∧
    (Conv.bind outerFields (0, 0)).get (.obj [([0x70], .obj [])] : Value F) = .ok (0, 0) := ⟨rfl, rfl⟩

/-- C92, partial: in containers, in contrast to fields, the exception gets out: a vector of structs
one of which cannot be read is not read. -/
theorem C92_in_vector_partial (E : Conv F T) (vs : List (Value F)) (v : Value F) (hv : v ∈ vs) (xs : List T)
    (h : (vector E).get (.arr vs) = .ok xs) : ∃ x ∈ xs, E.get v = .ok x := by
  rw [get_ok] at h
  obtain ⟨g, h1, h2⟩ := fill_ok h
  obtain ⟨i, hi, rfl⟩ := List.mem_iff_getElem.1 hv
  refine ⟨g i, ?_, ?_⟩
  · apply List.mem_of_getElem? (i := i)
    rw [h2, foldl_set_get, if_pos ⟨List.mem_range.2 hi, by rw [resize_length]; exact hi⟩]
  · rw [← item_eq E vs (List.getElem?_eq_getElem hi)]
    exact h1 i (List.mem_range.2 hi)

example : (vector (Conv.bind (pairFields : List (Field Unit _)) (0, 0))).get (.arr [.obj []]) = .error (.exn .outOfRange) := rfl

/-- C75 does not hold: a member of the wrong type is ignored. -/
theorem C75_violated : (Conv.bind pairFields (0, 0)).get (.obj [([0x61], .str [0x78])] : Value F) = .ok (0, 0) := rfl

/-- C75, partial: what can be said of the fields after a read that did not throw. A field whose
member converts has the result. A field whose member does not convert has its default if the
type is one that failed reads leave alone; it is not reported. -/
theorem C75_fields_partial (fs : List (Field F S)) (zero : S) (hl : Lenses fs) (ms : Map.T (Value F)) (hm : Sorted ms) (s : S)
    (h : (Conv.bind fs zero).get (.obj ms) = .ok s) (f : Field F S) (hf : f ∈ fs) (y : Value F) (hy : ms.lookup f.name = some y) :
    (f.get zero = f.conv.zero → ∀ x, f.conv.get y = .ok x → f.get s = x) ∧
    (f.get zero = f.conv.zero → Keeps f.conv → ∀ e, f.conv.get y = .error e → f.get s = f.get zero) := by
  obtain ⟨b, hb⟩ := (readAll_fields (.inr ⟨ms, rfl, hm⟩) fs hl zero s (get_ok.1 h) f hf).2.2 y hy
  refine ⟨fun hz x hx => ?_, fun hz hk e he => ?_⟩
  · have := getInto_true.2 (get_ok.1 hx)
    rw [hz, this] at hb
    cases hb; rfl
  · cases b with
    | false => exact hk _ _ _ hb
    | true =>
      rw [getInto_true, hz] at hb
      rw [get_ok.2 hb] at he
      cases he

example (s : Int × Int) (h : (Conv.bind pairFields (0, 0)).get (.obj [([0x61], .int 1), ([0x62], .null)] : Value Unit) = .ok s) : s.1 = 1 ∧ s.2 = 0 :=
  ⟨(C75_fields_partial _ _ pairFields_lenses _ (by simp [Sorted]; decide) _ h (pairFields[0]) (by simp) _ rfl).1 rfl (1 : Int) rfl,
    (C75_fields_partial _ _ pairFields_lenses _ (by simp [Sorted]; decide) _ h (pairFields[1]) (by simp) .null rfl).2 rfl
      (C72_keeps_partial (int true 32) true 32).2.1 _ rfl⟩

/-- C93. What is read depends only on the members with the names of the fields: further members
of the object do not matter. -/
theorem C93_only_named_members (fs : List (Field F S)) (zero : S) (ms ms' : Map.T (Value F)) (hm : Sorted ms) (hm' : Sorted ms')
    (h : ∀ f ∈ fs, ms.lookup f.name = ms'.lookup f.name) : (Conv.bind fs zero).get (.obj ms) = (Conv.bind fs zero).get (.obj ms') := by
  have : ∀ s : S, readAll (.obj ms) fs s = readAll (.obj ms') fs s := by
    induction fs with
    | nil => intro s; rfl
    | cons f fs ih =>
      intro s
      have hf : f.read (.obj ms) s = f.read (.obj ms') s := by
        have hh := h f (by simp)
        cases e : ms.lookup f.name with
        | none =>
          rw [e] at hh
          cases ho : f.optional with
          | true => rw [read_none_optional f (.inr ⟨_, rfl, hm⟩) e ho, read_none_optional f (.inr ⟨_, rfl, hm'⟩) hh.symm ho]
          | false => rw [read_none_required f hm e ho, read_none_required f hm' hh.symm ho]
        | some y =>
          rw [e] at hh
          rw [read_some f (.inr ⟨_, rfl, hm⟩) e, read_some f (.inr ⟨_, rfl, hm'⟩) hh.symm]
      rw [readAll_cons, readAll_cons, hf]
      rcases f.read (.obj ms') s with ⟨_ | _, s1⟩
      · rfl
      · exact ih (fun g hg => h g (by simp [hg])) s1
  unfold Conv.get
  rw [show (Conv.bind fs zero).fromValue (.obj ms) (Conv.bind fs zero).zero = (Conv.bind fs zero).fromValue (.obj ms') (Conv.bind fs zero).zero from
    this zero]

example : (Conv.bind pairFields (0, 0)).get (.obj [([0x61], .int 1), ([0x7a], .null)] : Value Unit) =
    (Conv.bind pairFields (0, 0)).get (.obj [([0x61], .int 1)] : Value Unit) :=
  C93_only_named_members _ _ _ _ (by simp [Sorted]; decide) (by simp [Sorted]) (by
    intro f hf
    simp [pairFields] at hf
    rcases hf with rfl | rfl <;> rfl)

/-- C94. What is written: an object whose members are exactly the fields that are not omitted,
each with the value of the field; null if all are omitted. A field is omitted if it is optional
and equal to `T{}`. -/
theorem C94_members_written (fs : List (Field F S)) (zero s : S) (hn : (fs.map Field.name).Nodup)
    (hy : ∀ f ∈ fs, ∃ y, f.conv.toValue (f.get s) = .ok y) :
    ∃ v, (Conv.bind fs zero).toValue s = .ok v ∧
      ((∃ f ∈ fs, ¬ Omitted f s) → ∃ ms, v = .obj ms ∧ Sorted ms ∧
        ∀ k y, ms.lookup k = some y ↔ ∃ f ∈ fs, f.name = k ∧ ¬ Omitted f s ∧ f.conv.toValue (f.get s) = .ok y) ∧
      ((∀ f ∈ fs, Omitted f s) → v = .null) := by
  obtain ⟨v, h1, h2, h3, h4, h5, _, h6⟩ := writeAll_spec s fs hn hy .null (.inl rfl)
  refine ⟨v, h1, fun h => ?_, h6⟩
  have ht := h5 h
  rcases h2 with rfl | ⟨ms, rfl, hm⟩
  · cases ht
  · refine ⟨ms, rfl, hm, fun k y => ⟨fun hk => ?_, ?_⟩⟩
    · by_cases hkn : k ∈ fs.map Field.name
      · obtain ⟨f, hf, rfl⟩ := List.mem_map.1 hkn
        by_cases ho : Omitted f s
        · have : ms.lookup f.name = none := (h3 f hf).2 ho
          rw [this] at hk; cases hk
        · obtain ⟨y', e1, e2⟩ := (h3 f hf).1 ho
          have e2 : ms.lookup f.name = some y' := e2
          rw [e2] at hk; cases hk
          exact ⟨f, hf, rfl, ho, e1⟩
      · have : ms.lookup k = none := h4 k hkn
        rw [this] at hk; cases hk
    · rintro ⟨f, hf, rfl, ho, e⟩
      obtain ⟨y', e1, e2⟩ := (h3 f hf).1 ho
      rw [e] at e1; cases e1
      exact e2

example : (Conv.bind pairFields (0, 0)).toValue (0, 0) = .ok (.obj [([0x61], .int 0)] : Value Unit) := rfl

end Configor.Props
