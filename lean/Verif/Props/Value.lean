import Verif.Proofs.Path
import Verif.Proofs.Iter
import Verif.Proofs.Compare
import Verif.Proofs.ParseSorted
import Verif.Props.ParserCore
/-!
# Operations of values: C41-C53, C56-C61, C84-C86

`atIndex i read` is `c.at(i)` (and `c[i]` on a constant), `withIndex i (assign x)` is
`c[i] = x`, and so on; see `Model/ValueOps.lean`. Results are pairs: how the call ended and
the value after it.
-/
set_option autoImplicit false
namespace Configor.Props
open Spec Configor.ValueOps

variable {F α : Type}

/-- `{"a": [1, null], "b": "x"}`, used in the examples. -/
def sampleTree : Value Unit := .obj [([0x61], .arr [.int 1, .null]), ([0x62], .str [0x78])]

theorem sampleTree_sorted : KeysSorted sampleTree := by
  refine sorted_obj.2 ⟨by simp [Sorted]; decide, ?_⟩
  intro m hm
  simp at hm
  rcases hm with rfl | rfl
  · refine sorted_arr.2 fun x hx => ?_
    simp at hx
    rcases hx with rfl | rfl <;> exact atom_sorted
  · exact atom_sorted

/-! ## C41 -/

/-- C41. However a value is changed, by assignments through paths, pushes, erasures of all
kinds and clears, also when some of the calls throw: the keys of all its objects stay in
increasing order, hence distinct. -/
theorem C41_changes_keep_sorted (fo : FloatOps F) (ms : List (Change F)) (hx : ∀ m ∈ ms, ∀ x ∈ m.values, KeysSorted x) (c : Value F)
    (hc : KeysSorted c) : KeysSorted (inOrder (ms.map (Change.run fo)) c).2 := by
  induction ms generalizing c with
  | nil => exact hc
  | cons m ms ih =>
    have h1 := change_sorted fo m (hx m (by simp)) c hc
    show KeysSorted (match m.run fo c with
      | (.ok _, v') => inOrder (ms.map (Change.run fo)) v'
      | (.error e, v') => (.error e, v')).2
    rcases hm : m.run fo c with ⟨_ | _, v'⟩
    · rw [hm] at h1; exact h1
    · rw [hm] at h1; exact ih (fun m' h' => hx m' (by simp [h'])) v' h1

/-- C41. Parsing gives sorted objects, whatever the text, also when it throws. -/
theorem C41_parse_sorted (A : ParseArgs F) (h : Option Handler) (c : Value F) (hc : KeysSorted c) (str : List Nat) :
    KeysSorted (jsonParse A h c str).2 :=
  parse_sorted _ _ h c _ hc

/-- C41. So does `make_object`. -/
theorem C41_makeObject_sorted (l : List (List Nat × Value F)) (hl : ∀ p ∈ l, KeysSorted p.2) : KeysSorted (makeObject l) := by
  have : ∀ ms, KeysSorted (.obj ms) → KeysSorted (.obj (l.foldl (fun ms p => Map.emplace p.1 p.2 ms) ms)) := by
    induction l with
    | nil => intro ms h; exact h
    | cons p l ih =>
      intro ms h
      exact ih (fun q hq => hl q (by simp [hq])) _ (emplace_keysSorted h (hl p (by simp)) p.1)
  exact this [] (sorted_obj.2 (by simp [Sorted]))

/-- C41. A loop from `begin()` to `end()` that collects `key()` sees increasing keys. -/
theorem C41_iteration_increasing (a : Nat) (ms : List (List Nat × Value F)) (hc : KeysSorted (.obj ms)) :
    ∃ first last ks, (Value.obj ms).begin a = .ok first ∧ (Value.obj ms).fin a = .ok last ∧
      (∀ n, ms.length < n → keyLoop (.obj ms) n first last = .ok ks) ∧ ks.Pairwise (· < ·) := by
  obtain ⟨b, hb, hb'⟩ := begin_at a (Value.obj ms)
  obtain ⟨e, he, he'⟩ := fin_at a (Value.obj ms)
  refine ⟨b, e, ms.map Prod.fst, hb, he, fun n hn => ?_, sorted_keys.1 (sorted_obj.1 hc).1⟩
  have := keyLoop_at he' ms.length 0 b n hb' (by omega) hn
  rwa [List.drop_zero] at this

example : (inOrder ([.key [0x62] (.assign (.int 1)), .key [0x61] (.index 1 (.assign .null)), .key [0x63] (.push (.int 2)),
    .eraseKey [0x62]].map (Change.run unitFloat)) .null) =
    (.ok (), .obj [([0x61], .arr [.null, .null]), ([0x63], .arr [.int 2])]) := by decide +kernel

/-! ## C42 -/

/-- C42. From the empty object, or from any object that has the members of a finite map, a
sequence of `c[k] = v`, `c.erase(k)` and `c.clear()` never throws and gives an object that has
the members of the map changed in the same way. -/
theorem C42_object_is_finite_map (fo : FloatOps F) (ops : List (MapOp F)) (v : Value F) (hv : KeysSorted v) (m : FMap F)
    (hm : Represents v m) :
    ∃ v', inOrder (ops.map (MapOp.run fo)) v = (.ok (), v') ∧ Represents v' (ops.foldl MapOp.apply m) := by
  have ho := hm.object
  cases v with
  | obj ms =>
    have hs := (sorted_obj.1 hv).1
    have e : m = fun k => ms.lookup k := by
      funext k
      cases hk : m k with
      | none =>
        have := (hm.absent k hk).1
        cases hl : ms.lookup k with
        | none => rfl
        | some y => rw [atKey_read hs hl] at this; cases this
      | some x =>
        have := (hm.present k x hk).1
        cases hl : ms.lookup k with
        | none => rw [atKey_none hs hl] at this; cases this
        | some y => rw [atKey_read hs hl] at this; cases this; rfl
    obtain ⟨ns, h1, h2, h3⟩ := mapOps_run fo ops hs
    refine ⟨.obj ns, h1, ?_⟩
    rw [e, ← h3]
    exact represents_obj h2
  | _ => cases ho

/-- C42. The empty object has the members of the empty map, and so does every cleared object. -/
theorem C42_empty : Represents (.obj [] : Value F) (fun _ => none) :=
  represents_obj (ms := []) (by simp [Sorted])

/-- C42. `erase(key)` tells how many members it removed. -/
theorem C42_erase_count (v : Value F) (hv : KeysSorted v) (m : FMap F) (hm : Represents v m) (k : List Nat) :
    ∃ v', eraseKey k v = (.ok (if (m k).isSome then 1 else 0), v') ∧ Represents v' (fun j => if j = k then none else m j) := by
  have ho := hm.object
  cases v with
  | obj ms =>
    have hs := (sorted_obj.1 hv).1
    have e : ∀ k, m k = ms.lookup k := by
      intro k
      cases hk : m k with
      | none =>
        have := (hm.absent k hk).1
        cases hl : ms.lookup k with
        | none => rfl
        | some y => rw [atKey_read hs hl] at this; cases this
      | some x =>
        have := (hm.present k x hk).1
        cases hl : ms.lookup k with
        | none => rw [atKey_none hs hl] at this; cases this
        | some y => rw [atKey_read hs hl] at this; cases this; rfl
    refine ⟨.obj (Map.erase k ms), ?_, ?_⟩
    · show (Except.ok (if (Map.find k ms).isSome then 1 else 0), _) = _
      rw [find_lookup hs, e]
    · have : (fun j => if j = k then none else m j) = fun j => (Map.erase k ms).lookup j := by
        funext j; rw [erase_lookup hs, e]
      rw [this]
      exact represents_obj (erase_sorted hs)
  | _ => cases ho

example : ∃ m : FMap Unit, Represents sampleTree m := ⟨_, represents_obj (sorted_obj.1 sampleTree_sorted).1⟩

example : inOrder ([.set [0x62] (.int 1), .set [0x61] (.int 2), .set [0x62] (.int 3), .erase [0x61]].map (MapOp.run unitFloat)) (.obj [])
    = (.ok (), .obj [([0x62], .int 3)]) := by decide +kernel

/-! ## C43 -/

/-- The elements of an array; a null value counts as an empty array. -/
def arrayOf : Value F → Option (List (Value F))
  | .null => some []
  | .arr xs => some xs
  | _ => none

/-- C43 is false for the largest index: `c[i] = x` with `i = 2^64 - 1` (for example `c[-1] = x`)
on a null value or an empty array has undefined behaviour, since the number of elements to insert
overflows to 0. -/
theorem C43_violated (x : Value F) :
    withIndex 18446744073709551615 (assign x) .null = (.error .ub, .arr []) ∧
    withIndex 18446744073709551615 (assign x) (.arr []) = (.error .ub, .arr []) := by
  have e : growTo 18446744073709551615 (assign x) [] = (.error .ub, .arr []) := by
    unfold growTo
    rw [if_pos (show 18446744073709551615 ≥ ([] : List (Value F)).length from Nat.zero_le _)]
    have : (18446744073709551615 - ([] : List (Value F)).length + 1) % sizeRange = 0 := by simp [sizeRange]
    rw [this, if_neg (by simp)]
    rfl
  exact ⟨e, e⟩

/-- C43, for the indices a vector can have: `c[i] = x` on a null value or an array ends normally,
the size becomes `max(old size, i + 1)`, element `i` is `x`, the other old elements are as before
and the elements between are null. -/
theorem C43_element_assignment_partial (v : Value F) (xs : List (Value F)) (hv : arrayOf v = some xs) (i : Nat) (hi : i < vectorMax)
    (x : Value F) :
    ∃ v', withIndex i (assign x) v = (.ok (), v') ∧ v'.type = .arr ∧ v'.size = max xs.length (i + 1) ∧
      atIndex i read v' = (.ok x, v') ∧
      (∀ j y, xs[j]? = some y → j ≠ i → atIndex j read v' = (.ok y, v')) ∧
      (∀ j, xs.length ≤ j → j < i → atIndex j read v' = (.ok .null, v')) := by
  have e : withIndex i (assign x) v = (.ok (), .arr (setAt xs i x)) := by
    cases v <;> cases hv
    · exact withIndex_null hi _
    · exact withIndex_arr hi _ _
  refine ⟨_, e, rfl, setAt_length xs i x, atIndex_read ?_, fun j y hj hne => atIndex_read ?_, fun j h1 h2 => atIndex_read ?_⟩
  · rw [setAt_get, if_pos rfl]
  · have := (List.getElem?_eq_some_iff.1 hj).1
    rw [setAt_get, if_neg hne, if_pos (by omega), hj]; rfl
  · rw [setAt_get, if_neg (by omega), if_pos (by omega), List.getElem?_eq_none h1]; rfl

/-- C43. All other indices too large for a vector are reported by `std::length_error`; an array is
unchanged, a null value has become the empty array. -/
theorem C43_too_large (v : Value F) (xs : List (Value F)) (hv : arrayOf v = some xs) (hs : xs.length ≤ vectorMax) (i : Nat)
    (hi : vectorMax ≤ i) (hj : i < 18446744073709551616) (hw : xs = [] → i ≠ 18446744073709551615) (f : V F α) :
    withIndex i f v = (.error (.exn .lengthError), .arr xs) := by
  have e : withIndex i f v = growTo i f xs := by
    cases v <;> cases hv <;> rfl
  rw [e]
  unfold growTo
  have hv' : vectorMax = 576460752303423487 := rfl
  have hl : xs = [] → i - xs.length + 1 < 18446744073709551616 := by
    intro h; have := hw h; omega
  have hl' : i - xs.length + 1 < 18446744073709551616 := by
    cases xs with
    | nil => exact hl rfl
    | cons y ys => simp; omega
  have hm : (i - xs.length + 1) % sizeRange = i - xs.length + 1 := Nat.mod_eq_of_lt hl'
  rw [if_pos (by omega), hm, if_pos (by omega)]

example : arrayOf (.arr [.int 1, .bool true] : Value Unit) = some [.int 1, .bool true] := rfl
example : withIndex 3 (assign (.int 5)) (.arr [.int 1] : Value Unit) = (.ok (), .arr [.int 1, .null, .null, .int 5]) := by
  decide +kernel

/-! ## C44 -/

/-- C44. A sequence of `push_back`, `c[i] = x`, `erase(i)` and `clear` on an array is the same
sequence of operations on the list of its elements, as long as the indices to erase exist and
those to assign are in the range of a vector. -/
theorem C44_array_is_list (fo : FloatOps F) (ops : List (SeqOp F)) (xs : List (Value F)) (h : AllAllowed xs ops) :
    inOrder (ops.map (SeqOp.run fo)) (.arr xs) = (.ok (), .arr (ops.foldl SeqOp.apply xs)) :=
  seqOps_run fo ops h

/-- C44. A null value behaves like the empty array under the first `push_back` or `c[i] = x`. -/
theorem C44_null_is_empty (fo : FloatOps F) (op : SeqOp F) (ops : List (SeqOp F)) (hop : (∃ x, op = .push x) ∨ ∃ i x, op = .set i x)
    (h : AllAllowed [] (op :: ops)) :
    inOrder ((op :: ops).map (SeqOp.run fo)) .null = (.ok (), .arr ((op :: ops).foldl SeqOp.apply [])) := by
  rw [← C44_array_is_list fo (op :: ops) [] h]
  rcases hop with ⟨x, rfl⟩ | ⟨i, x, rfl⟩ <;> rfl

/-- C44. `make_array` of elements is the empty array after a `push_back` of each of them. -/
theorem C44_makeArray (fo : FloatOps F) (l : List (Value F)) :
    inOrder (l.map fun x => SeqOp.run fo (.push x)) (makeArray []) = (.ok (), makeArray l) := by
  have h : ∀ xs : List (Value F), AllAllowed xs (l.map .push) ∧ (l.map SeqOp.push).foldl SeqOp.apply xs = xs ++ l := by
    induction l with
    | nil => intro xs; exact ⟨trivial, by simp⟩
    | cons x l ih =>
      intro xs
      refine ⟨⟨trivial, (ih _).1⟩, ?_⟩
      rw [List.map_cons, List.foldl_cons, (ih _).2]
      simp [SeqOp.apply]
  have := C44_array_is_list fo (l.map .push) [] (h []).1
  rw [(h []).2, List.map_map] at this
  exact this

example : makeArray [.int 1, .null] = (.arr [.int 1, .null] : Value Unit) := rfl

example : AllAllowed ([.int 1] : List (Value Unit)) [.push (.int 2), .set 3 (.int 4), .erase 0, .push .null] ∧
    [SeqOp.push (.int 2), .set 3 (.int 4), .erase 0, .push .null].foldl SeqOp.apply ([.int 1] : List (Value Unit)) =
      [.int 2, .null, .int 4, .null] := by
  refine ⟨⟨trivial, ?_, ?_, trivial, trivial⟩, by decide +kernel⟩
  · show 3 < vectorMax; decide
  · show 0 < (setAt _ _ _).length; rw [setAt_length]; decide

/-! ## C45 -/

/-- C45. Access with an index to something else than an array or null, and access with a key to
something else than an object or null: the documented exception, and the value is as before. -/
theorem C45_wrong_type (v : Value F) :
    (v.type ≠ .null → v.type ≠ .arr → ∀ i (f : V F α), withIndex i f v = (.error (.exn .invalidKey), v)) ∧
    (v.type ≠ .null → v.type ≠ .obj → ∀ k (f : V F α), withKey k f v = (.error (.exn .invalidKey), v)) ∧
    (v.type ≠ .arr → ∀ i (f : V F α), atIndex i f v = (.error (.exn .invalidKey), v)) ∧
    (v.type ≠ .obj → ∀ k (f : V F α), atKey k f v = (.error (.exn .invalidKey), v)) ∧
    (v.type ≠ .arr → ∀ i, eraseIndex i v = (.error (.exn .invalidKey), v)) ∧
    (v.type ≠ .obj → ∀ k, eraseKey k v = (.error (.exn .invalidKey), v)) ∧
    (v.type ≠ .null → v.type ≠ .arr → ∀ x, pushBack x v = (.error (.exn .typeError), v)) ∧
    (v.type ≠ .arr → v.type ≠ .obj → ∀ a pos, eraseIter a pos v = (.error (.exn .invalidIterator), v)) ∧
    (v.type ≠ .arr → v.type ≠ .obj → ∀ a first last, eraseRange a first last v = (.error (.exn .invalidIterator), v)) := by
  cases v <;> refine ⟨?_, ?_, ?_, ?_, ?_, ?_, ?_, ?_, ?_⟩ <;> intros <;> first | rfl | contradiction

/-- C45. Along a path: if some step of `c[k1]...[kn]` meets a value of the wrong type, the
expression throws and the whole tree is as before. -/
theorem C45_wrong_type_on_path (v : Value F) (hv : KeysSorted v) (p q : List PathStep) (s : PathStep) (u : Value F) (hp : Small p)
    (hq : q ++ [s] <+: p) (hu : lookup v q = some u) (hs : ¬ Fits u s) (f : V F α) :
    withPath f p v = (.error (.exn .invalidKey), v) :=
  withPath_unfit f p q s v u hv hp hq hu hs

example : withPath (assign .null) [.key [0x62], .idx 0] sampleTree = (.error (.exn .invalidKey), sampleTree) :=
  C45_wrong_type_on_path _ sampleTree_sorted _ [.key [0x62]] (.idx 0) (.str [0x78]) (by intro i hi; simp at hi; subst hi; decide)
    (List.prefix_refl _) rfl (fun h => h) _

/-! ## C46 -/

/-- C46. `at(i)` gives element `i` if there is one and throws `std::out_of_range` otherwise; the
array is as before. -/
theorem C46_at_index (xs : List (Value F)) (i : Nat) :
    (∀ x, xs[i]? = some x → atIndex i read (.arr xs) = (.ok x, .arr xs)) ∧
    (xs.length ≤ i → atIndex i read (.arr xs) = (.error (.exn .outOfRange), .arr xs)) :=
  ⟨fun _ h => atIndex_read h, fun h => if_pos h⟩

/-- C46. `at(k)` gives the member with key `k` if there is one and throws `std::out_of_range`
otherwise; the object is as before. -/
theorem C46_at_key (ms : List (List Nat × Value F)) (hs : KeysSorted (.obj ms)) (k : List Nat) :
    (∀ x, (k, x) ∈ ms → atKey k read (.obj ms) = (.ok x, .obj ms)) ∧
    ((∀ x, (k, x) ∉ ms) → atKey k read (.obj ms) = (.error (.exn .outOfRange), .obj ms)) := by
  have h := (sorted_obj.1 hs).1
  refine ⟨fun x hx => atKey_read h (sorted_lookup h hx), fun hx => atKey_none h ?_ _⟩
  cases e : ms.lookup k with
  | none => rfl
  | some y => exact absurd (lookup_mem e) (hx y)

/-- C46. Whatever is done with the result, and whether the call throws or not: type and size of the
container and the set of its keys are as before. -/
theorem C46_no_insertion (v : Value F) (hv : KeysSorted v) (f : V F α) :
    (∀ i, (atIndex i f v).2.type = v.type ∧ (atIndex i f v).2.size = v.size ∧ ∀ k, (atIndex i f v).2.count k = v.count k) ∧
    (∀ k, (atKey k f v).2.type = v.type ∧ (atKey k f v).2.size = v.size ∧ ∀ l, (atKey k f v).2.count l = v.count l) := by
  constructor
  · intro i
    cases v with
    | arr xs =>
      have e : atIndex i f (.arr xs) = if i ≥ xs.length then (.error (.exn .outOfRange), .arr xs) else onElem i f xs := rfl
      rw [e]
      split
      · exact ⟨rfl, rfl, fun _ => rfl⟩
      · unfold onElem
        split
        · exact ⟨rfl, rfl, fun _ => rfl⟩
        · exact ⟨rfl, by simp [Value.size], fun _ => rfl⟩
    | _ => exact ⟨rfl, rfl, fun _ => rfl⟩
  · intro k
    cases v with
    | obj ms =>
      have hs := (sorted_obj.1 hv).1
      cases hk : ms.lookup k with
      | none => rw [atKey_none hs hk]; exact ⟨rfl, rfl, fun _ => rfl⟩
      | some x =>
        rw [atKey_some hs hk]
        refine ⟨rfl, ?_, fun l => ?_⟩
        · show List.length _ = List.length _
          rw [← List.length_map (f := Prod.fst), assign_keys, List.length_map]
        · rw [count_eq (assign_sorted hs), count_eq hs, assign_lookup hs]
          split
          · rename_i h; rw [h.1, hk]; rfl
          · rfl
    | _ => exact ⟨rfl, rfl, fun _ => rfl⟩

example : atKey [0x61] (atIndex 0 read) sampleTree = (.ok (.int 1), sampleTree) := by decide +kernel

/-! ## C47 -/

/-- Every step of the path that starts at an existing part meets a null value or a container of
the right kind. -/
def PathFits (v : Value F) (p : List PathStep) : Prop := ∀ q s u, q ++ [s] <+: p → lookup v q = some u → Fits u s

/-- C47. `c[k1]...[kn] = x` ends normally, and afterwards the path leads to `x`. A path that
diverges from it leads where it led before; if it led nowhere, it still does, or it leads to a null
element before an assigned index. -/
theorem C47_path_assignment (v : Value F) (hv : KeysSorted v) (p : List PathStep) (hp : Small p) (hf : PathFits v p) (x : Value F) :
    ∃ v', withPath (assign x) p v = (.ok (), v') ∧ lookup v' p = some x ∧
      ∀ q, Diverge p q →
        (∀ y, lookup v q = some y → lookup v' q = some y) ∧
        (lookup v q = none → lookup v' q = none ∨
          (lookup v' q = some .null ∧ ∃ r i j, r ++ [.idx i] <+: p ∧ j < i ∧ q = r ++ [.idx j])) :=
  withPath_assign x p v hv hp hf

example : withPath (assign (.bool true)) [.key [0x61], .idx 3, .key [0x7A]] sampleTree =
    (.ok (), .obj [([0x61], .arr [.int 1, .null, .null, .obj [([0x7A], .bool true)]]), ([0x62], .str [0x78])]) := by decide +kernel

example : PathFits sampleTree [.key [0x61], .idx 1, .key [0x7A]] := by
  intro q s u hq hu
  obtain ⟨t, ht⟩ := hq
  match q, ht with
  | [], ht => simp at ht; cases hu; rw [ht.1]; trivial
  | [_], ht =>
    simp at ht
    obtain ⟨rfl, rfl, _⟩ := ht
    rw [show lookup sampleTree [.key [0x61]] = some (.arr [.int 1, .null]) from rfl] at hu
    cases hu; trivial
  | [_, _], ht =>
    simp at ht
    obtain ⟨rfl, rfl, rfl, _⟩ := ht
    rw [show lookup sampleTree [.key [0x61], .idx 1] = some .null from rfl] at hu
    cases hu; trivial
  | _ :: _ :: _ :: _, ht => simp at ht

/-! ## C48 -/

/-- C48 is false: `erase(index)` with the index one past the end has undefined behaviour, for
every array. -/
theorem C48_violated (xs : List (Value F)) : eraseIndex xs.length (.arr xs) = (.error .ub, .arr xs) :=
  if_neg (Nat.lt_irrefl _)

/-- C48, for an index in range: exactly that element is removed. -/
theorem C48_erase_index_partial (xs : List (Value F)) (i : Nat) (hi : i < xs.length) :
    eraseIndex i (.arr xs) = (.ok (), .arr (xs.take i ++ xs.drop (i + 1))) := by
  show (if _ then _ else _) = _
  rw [if_pos hi, List.eraseIdx_eq_take_drop_succ]

example : eraseIndex 1 (.arr [.int 1, .int 2, .int 3] : Value Unit) = (.ok (), .arr [.int 1, .int 3]) := by decide +kernel

/-! ## C49 -/

/-- C49. Without floating point numbers `==` holds exactly between equal trees. -/
theorem C49_eq_is_identity (fo : FloatOps F) (v w : Value F) (hv : FloatFree v) (hw : FloatFree w) :
    Value.eq fo v w = true ↔ v = w :=
  eq_iff fo v w hv hw

/-- C49. So it is an equivalence relation, and `!=` is its negation. -/
theorem C49_equivalence (fo : FloatOps F) (u v w : Value F) (hu : FloatFree u) (hv : FloatFree v) (hw : FloatFree w) :
    Value.eq fo u u = true ∧
    (Value.eq fo u v = true → Value.eq fo v u = true) ∧
    (Value.eq fo u v = true → Value.eq fo v w = true → Value.eq fo u w = true) ∧
    Value.ne fo u v = !Value.eq fo u v := by
  refine ⟨(eq_iff fo u u hu hu).2 rfl, fun h => ?_, fun h1 h2 => ?_, rfl⟩
  · exact (eq_iff fo v u hv hu).2 ((eq_iff fo u v hu hv).1 h).symm
  · exact (eq_iff fo u w hu hw).2 (((eq_iff fo u v hu hv).1 h1).trans ((eq_iff fo v w hv hw).1 h2))

example : FloatFree sampleTree := by
  intro f h
  cases h with
  | member hm h =>
    simp at hm
    rcases hm with ⟨_, rfl⟩ | ⟨_, rfl⟩
    · cases h with
      | elem hx h => simp at hx; rcases hx with rfl | rfl <;> cases h
    · cases h

/-! ## C50 -/

/-- C50, symmetry: `==` is symmetric if the comparison of floating point numbers is. -/
theorem C50_symmetric_partial (fo : FloatOps F) (hs : ∀ a b, fo.eq a b = fo.eq b a) (v w : Value F) :
    Value.eq fo v w = Value.eq fo w v :=
  eq_symm fo hs v w

example : ∀ a b, unitFloat.eq a b = unitFloat.eq b a := fun _ _ => rfl

/-! ## C51 -/

/-- C51. `<` never holds both ways, never between a value and itself, and the other operators are
its mirror images, if the comparison of floating point numbers never holds both ways. -/
theorem C51_asymmetric (fo : FloatOps F) (ha : ∀ a b, fo.lt a b = true → fo.lt b a = false) (v w : Value F) :
    ¬ (Value.lt fo v w = true ∧ Value.lt fo w v = true) ∧ Value.lt fo v v = false ∧
    (Value.gt fo v w = Value.lt fo w v) ∧ (Value.le fo v w = !Value.gt fo v w) ∧ (Value.ge fo v w = !Value.lt fo v w) := by
  refine ⟨fun h => ?_, ?_, rfl, rfl, rfl⟩
  · rw [lt_asymm fo ha v w h.1] at h; exact absurd h.2 (by simp)
  · cases e : Value.lt fo v v with
    | false => rfl
    | true => exact absurd (lt_asymm fo ha v v e) (by rw [e]; simp)

example : ∀ a b, unitFloat.lt a b = true → unitFloat.lt b a = false := fun _ _ h => by cases h
example : Value.lt unitFloat (.arr [.int 1, .str [0x61]]) (.arr [.int 1, .str [0x62]]) = true := by
  simp [Value.lt, ltElems, ltKey]

/-! ## C52 -/

/-- C52 is false: three arrays that are each less than the next, in a circle. -/
theorem C52_violated (fo : FloatOps F) :
    ∃ u v w : Value F, Value.lt fo u v = true ∧ Value.lt fo v w = true ∧ Value.lt fo w u = true :=
  ⟨.arr [.int 2, .int 0], .arr [.null, .int 1], .arr [.int 1, .int 2], by simp [Value.lt, ltElems], by simp [Value.lt, ltElems],
    by simp [Value.lt, ltElems]⟩

/-- C52 is false in a second way: null is incomparable to both 1 and 2. -/
theorem C52_violated_incomparable (fo : FloatOps F) :
    ∃ u v w : Value F, Value.lt fo u v = false ∧ Value.lt fo v u = false ∧ Value.lt fo v w = false ∧ Value.lt fo w v = false ∧
      Value.lt fo u w = true :=
  ⟨.int 1, .null, .int 2, by simp [Value.lt]⟩

/-- C52, for values of one kind (all null, all booleans, all strings, all integers, all floating
point numbers, arrays of one kind, objects of one kind): `<` is a strict weak order, if it is one
on the floating point numbers that occur. -/
theorem C52_strict_weak_partial (fo : FloatOps F) (Q : F → Prop) (hQ : StrictWeak Q fo.lt) (k : Kind) :
    StrictWeak (HasKind Q k) (Value.lt fo) :=
  lt_strictWeak fo hQ k

example : StrictWeak (fun _ => True) unitFloat.lt := ⟨fun _ _ => rfl, fun _ _ _ _ _ _ h => (by cases h), fun _ _ _ _ _ _ _ _ _ _ => ⟨rfl, rfl⟩⟩
example : HasKind (fun _ : Unit => True) (.arr (.obj .int)) (.arr [.obj [([0x61], .int 1)], .obj []]) :=
  .arr (by
    intro x hx
    simp at hx
    rcases hx with rfl | rfl
    · exact .obj (by intro m hm; simp at hm; subst hm; exact .int)
    · exact .obj (by simp))

/-! ## C53 -/

/-- C53. For values of one kind without floating point numbers exactly one of `<`, `==`, `>`
holds. -/
theorem C53_trichotomy (fo : FloatOps F) (k : Kind) (v w : Value F) (hv : HasKind (fun _ => False) k v) (hw : HasKind (fun _ => False) k w) :
    (Value.lt fo v w = true ∧ Value.eq fo v w = false ∧ Value.gt fo v w = false) ∨
    (Value.lt fo v w = false ∧ Value.eq fo v w = true ∧ Value.gt fo v w = false) ∨
    (Value.lt fo v w = false ∧ Value.eq fo v w = false ∧ Value.gt fo v w = true) := by
  have hQ : StrictWeak (fun _ : F => False) fo.lt := ⟨fun _ h => h.elim, fun _ _ _ h => h.elim, fun _ _ _ h => h.elim⟩
  have hk := lt_strictWeak fo hQ k
  have he := eq_iff fo v w (kind_floatFree hv) (kind_floatFree hw)
  show (_ ∧ _ ∧ Value.lt fo w v = false) ∨ (_ ∧ _ ∧ Value.lt fo w v = false) ∨ (_ ∧ _ ∧ Value.lt fo w v = true)
  cases h1 : Value.lt fo v w with
  | true =>
    refine .inl ⟨rfl, ?_, hk.asymm hv hw h1⟩
    cases h2 : Value.eq fo v w with
    | false => rfl
    | true => rw [he.1 h2, hk.irrefl w hw] at h1; cases h1
  | false =>
    cases h2 : Value.lt fo w v with
    | true =>
      refine .inr (.inr ⟨rfl, ?_, rfl⟩)
      cases h3 : Value.eq fo v w with
      | false => rfl
      | true => rw [he.1 h3, hk.irrefl w hw] at h2; cases h2
    | false =>
      exact .inr (.inl ⟨rfl, he.2 (lt_total fo k v w hv hw h1 h2), rfl⟩)

example : HasKind (fun _ : Unit => False) (.arr .str) (.arr [.str [0x61], .str []]) :=
  .arr (by intro x hx; simp at hx; rcases hx with rfl | rfl <;> exact .str)

/-! ## C56 -/

/-- C56. `clear()` never throws, keeps the type, and leaves the value that the constructor from
the type makes: an empty container or string, zero, false, null. -/
theorem C56_clear (fo : FloatOps F) (v : Value F) :
    ∃ v', clear fo v = (.ok (), v') ∧ v'.type = v.type ∧ v' = Value.ofType fo v.type ∧
      (v.type = .arr ∨ v.type = .obj → v'.empty = true ∧ v'.size = 0) := by
  cases v <;> exact ⟨_, rfl, rfl, rfl, fun h => by rcases h with h | h <;> cases h <;> exact ⟨rfl, rfl⟩⟩

example : clear unitFloat sampleTree = (.ok (), .obj []) := by decide +kernel

/-! ## C57, C58 -/

/-- C57. `empty()` holds exactly if `size()` is 0. -/
theorem C57_empty_iff (v : Value F) : v.empty = true ↔ v.size = 0 := by
  cases v with
  | arr xs => cases xs <;> simp [Value.empty, Value.size]
  | obj xs => cases xs <;> simp [Value.empty, Value.size]
  | _ => simp [Value.empty, Value.size]

/-- C57. A loop from `begin()` to `end()` makes exactly `size()` steps: it does not end before, and
it does not go on after. -/
theorem C57_size_steps (a : Nat) (v : Value F) :
    ∃ first last, v.begin a = .ok first ∧ v.fin a = .ok last ∧
      (∀ n, n ≤ v.size → loop v n first last = .error .fuel) ∧ (∀ n, v.size < n → ∃ xs, loop v n first last = .ok xs ∧ xs.length = v.size) := by
  obtain ⟨b, hb, hb'⟩ := begin_at a v
  obtain ⟨e, he, he'⟩ := fin_at a v
  refine ⟨b, e, hb, he, fun n hn => loop_short he' n 0 b hb' (by omega), fun n hn => ⟨elements v, ?_, elements_length v⟩⟩
  have := loop_at he' v.size 0 b n hb' (by omega) hn
  rwa [List.drop_zero] at this

/-- C58. A loop from `begin()` to `end()` visits the elements of an array or object once each and
in order, a scalar once, null not at all. -/
theorem C58_forward (a : Nat) (v : Value F) :
    ∃ first last, v.begin a = .ok first ∧ v.fin a = .ok last ∧
      (∀ n, v.size < n → loop v n first last = .ok (elements v)) ∧ (elements v).length = v.size := by
  obtain ⟨b, hb, hb'⟩ := begin_at a v
  obtain ⟨e, he, he'⟩ := fin_at a v
  refine ⟨b, e, hb, he, fun n hn => ?_, elements_length v⟩
  have := loop_at he' v.size 0 b n hb' (by omega) hn
  rwa [List.drop_zero] at this

/-- C58. The loop from `rbegin()` to `rend()` visits the same elements in the opposite order. -/
theorem C58_reverse (a : Nat) (v : Value F) :
    ∃ first last, RIter.rbegin a v = .ok first ∧ RIter.rend a v = .ok last ∧
      ∀ n, v.size < n → reverseLoop v n first last = .ok (elements v).reverse := by
  obtain ⟨b, hb, hb'⟩ := begin_at a v
  obtain ⟨e, he, he'⟩ := fin_at a v
  refine ⟨⟨e⟩, ⟨b⟩, ?_, ?_, fun n hn => ?_⟩
  · unfold RIter.rbegin; rw [he]; rfl
  · unfold RIter.rend; rw [hb]; rfl
  · have := reverseLoop_at (last := ⟨b⟩) hb' v.size e n he' hn
    rwa [List.take_of_length_le (by rw [elements_length]; exact Nat.le_refl _)] at this

/-- C58. The keys a loop sees are those of the members, in the same order as the values. -/
theorem C58_keys (a : Nat) (ms : List (List Nat × Value F)) :
    ∃ first last, (Value.obj ms).begin a = .ok first ∧ (Value.obj ms).fin a = .ok last ∧
      ∀ n, ms.length < n → keyLoop (.obj ms) n first last = .ok (ms.map Prod.fst) ∧ loop (.obj ms) n first last = .ok (ms.map Prod.snd) := by
  obtain ⟨b, hb, hb'⟩ := begin_at a (Value.obj ms)
  obtain ⟨e, he, he'⟩ := fin_at a (Value.obj ms)
  refine ⟨b, e, hb, he, fun n hn => ⟨?_, ?_⟩⟩
  · have := keyLoop_at he' ms.length 0 b n hb' (by omega) hn
    rwa [List.drop_zero] at this
  · have := loop_at he' ms.length 0 b n hb' (by show 0 + ms.length = ms.length; omega) hn
    rwa [List.drop_zero] at this

example : elements sampleTree = [.arr [.int 1, .null], .str [0x78]] := by decide +kernel
example : elements (.int 7 : Value Unit) = [.int 7] := rfl

/-! ## C59 -/

/-- C59. Dereferencing `end()` throws `std::out_of_range` for every value, and so does `key()`. -/
theorem C59_end (a : Nat) (v : Value F) :
    ∃ last, v.fin a = .ok last ∧ last.deref v = .error (.exn .outOfRange) ∧ last.key v = .error (.exn .outOfRange) := by
  obtain ⟨e, he, he'⟩ := fin_at a v
  exact ⟨e, he, deref_end he', key_end he'⟩

/-- C59. `key()` at an element of something else than an object throws
`configor_invalid_iterator`. -/
theorem C59_key_of_non_object (a : Nat) (v : Value F) (hv : v.type ≠ .obj) (p : Nat) (hp : p < v.size) (it : Iter) (hi : IterAt a v p it) :
    it.key v = .error (.exn .invalidIterator) :=
  key_other hi hp hv

example : ∃ it, IterAt 7 (.arr [.int 1, .int 2] : Value Unit) 1 it := ⟨⟨some 7, some 1, none, 0⟩, rfl, by decide, rfl⟩

/-! ## C60 -/

/-- C60. `++` and `--` are inverse to each other wherever both positions exist, and move by one
element. -/
theorem C60_incr_decr (a : Nat) (v : Value F) (p : Nat) (hp : p < v.size) (it : Iter) (hi : IterAt a v p it) :
    ∃ jt kt, it.incr v = .ok jt ∧ IterAt a v (p + 1) jt ∧ jt.decr v = .ok kt ∧ IterAt a v p kt ∧ kt.eq v it = .ok true := by
  obtain ⟨jt, h1, h2⟩ := incr_at hi hp
  obtain ⟨kt, h3, h4⟩ := decr_at h2
  exact ⟨jt, kt, h1, h2, h3, h4, by rw [eq_at h4 hi]; simp⟩

/-- C60. On arrays `it + n` moves by `n` elements as long as it stays between `begin()` and
`end()`, and `(it + n) - n` is `it` again. -/
theorem C60_plus_minus (a : Nat) (xs : List (Value F)) (p q : Nat) (it : Iter) (hi : IterAt a (.arr xs) p it) (off : Int)
    (hq : (q : Int) = p + off) (hl : q ≤ xs.length)
    (hr : -9223372036854775808 < off ∧ off ≤ 9223372036854775808) :
    ∃ jt kt, it.plus off (.arr xs) = .ok jt ∧ IterAt a (.arr xs) q jt ∧ jt.minus off (.arr xs) = .ok kt ∧ kt.eq (.arr xs) it = .ok true := by
  obtain ⟨jt, h1, h2⟩ := (plus_at hi).1 q hq hl
  have hp : p ≤ xs.length := hi.2.1
  obtain ⟨kt, h3, h4⟩ := (plus_at (off := -off) h2).1 p (by omega) hp
  refine ⟨jt, kt, h1, h2, ?_, by rw [eq_at h4 hi]; simp⟩
  unfold Iter.minus
  rw [if_pos (by simp only [inPtrdiff, Bool.and_eq_true, decide_eq_true_eq]; omega)]; exact h3

/-- C60. The difference of two iterators of an array is the distance of their positions, `<`
compares the positions, and `==` holds exactly at the same position. -/
theorem C60_difference (a : Nat) (xs : List (Value F)) (p q : Nat) (it jt : Iter) (hi : IterAt a (.arr xs) p it)
    (hj : IterAt a (.arr xs) q jt) :
    it.diff (.arr xs) jt = .ok ((p : Int) - q) ∧ it.lt (.arr xs) jt = .ok (decide (p < q)) ∧ it.eq (.arr xs) jt = .ok (decide (p = q)) :=
  ⟨diff_at hi hj, lt_at hi hj, eq_at hi hj⟩

/-- C60. The other comparisons follow from these two. -/
theorem C60_comparisons (a : Nat) (xs : List (Value F)) (p q : Nat) (it jt : Iter) (hi : IterAt a (.arr xs) p it)
    (hj : IterAt a (.arr xs) q jt) :
    it.ne (.arr xs) jt = .ok (decide (p ≠ q)) ∧ it.gt (.arr xs) jt = .ok (decide (p > q)) ∧
    it.ge (.arr xs) jt = .ok (decide (p ≥ q)) ∧ it.le (.arr xs) jt = .ok (decide (p ≤ q)) := by
  refine ⟨?_, lt_at hj hi, ?_, ?_⟩
  · simp only [Iter.ne, eq_at hi hj, bind, Except.bind, Except.ok.injEq]
    by_cases h : p = q <;> simp [h]
  · simp only [Iter.ge, lt_at hi hj, bind, Except.bind, Except.ok.injEq]
    by_cases h : p < q <;> simp [h] <;> omega
  · simp only [Iter.le, lt_at hj hi, bind, Except.bind, Except.ok.injEq]
    by_cases h : q < p <;> simp [h] <;> omega

/-- C60. A reverse iterator that is not at the end: `++` moves to the element before, `--` undoes it, and it refers to the
element in front of the position of its base. -/
theorem C60_reverse_step (a : Nat) (v : Value F) (p : Nat) (r : RIter) (hi : IterAt a v (p + 1) r.current) :
    ∃ s t, r.incr v = .ok s ∧ IterAt a v p s.current ∧ s.decr v = .ok t ∧ IterAt a v (p + 1) t.current ∧ t.eq v r = .ok true ∧
      ∃ x, (elements v)[p]? = some x ∧ r.deref v = .ok x := by
  obtain ⟨jt, h1, h2⟩ := decr_at hi
  have hp : p < v.size := by have := hi.2.1; rw [elements_length] at this; omega
  obtain ⟨kt, h3, h4⟩ := incr_at h2 hp
  have h5 : ∃ x, (elements v)[p]? = some x := ⟨_, List.getElem?_eq_getElem (by rw [elements_length]; exact hp)⟩
  obtain ⟨x, h5⟩ := h5
  have h6 := deref_at h2 h5
  refine ⟨⟨jt⟩, ⟨kt⟩, ?_, h2, ?_, h4, ?_, x, h5, ?_⟩
  · unfold RIter.incr; rw [h1]; rfl
  · unfold RIter.decr; rw [h3]; rfl
  · show kt.eq v r.current = _
    rw [eq_at h4 hi]; simp
  · unfold RIter.deref; rw [h1]; exact h6

/-- C60. On objects `key()` of a reverse iterator that is not at the end is the key of the member it refers to; on other values
it throws. -/
theorem C60_reverse_key (a : Nat) (p : Nat) (r : RIter) :
    (∀ ms : List (List Nat × Value F), IterAt a (.obj ms) (p + 1) r.current →
      ∃ m, ms[p]? = some m ∧ r.key (.obj ms) = .ok m.1 ∧ r.deref (.obj ms) = .ok m.2) ∧
    (∀ v : Value F, v.type ≠ .obj → IterAt a v (p + 1) r.current → r.key v = .error (.exn .invalidIterator)) := by
  refine ⟨fun ms hi => ?_, fun v hv hi => ?_⟩
  · obtain ⟨jt, h1, h2⟩ := decr_at hi
    have hp : p < ms.length := by have := hi.2.1; rw [elements_length] at this; simp only [Value.size] at this; omega
    refine ⟨ms[p], List.getElem?_eq_getElem hp, ?_, ?_⟩
    · unfold RIter.key; rw [h1]; exact key_at h2 (List.getElem?_eq_getElem hp)
    · unfold RIter.deref; rw [h1]; exact deref_at h2 (by simp [elements, List.getElem?_eq_getElem hp])
  · obtain ⟨jt, h1, h2⟩ := decr_at hi
    have hp : p < v.size := by have := hi.2.1; rw [elements_length] at this; omega
    unfold RIter.key; rw [h1]; exact key_other h2 hp hv

example : IterAt 5 (.obj [([0x61], .null), ([0x62], .int 2)] : Value Unit) 2 (RIter.mk ⟨some 5, none, some 2, 0⟩).current :=
  ⟨rfl, Nat.le_refl 2, rfl⟩

/-- C60. Random access of reverse iterators on arrays: `r + n` is `n` elements nearer to the front, `(r + n) - n` is `r` again,
and differences and `<` count from the back. -/
theorem C60_reverse_random (a : Nat) (xs : List (Value F)) (p q : Nat) (r : RIter) (hi : IterAt a (.arr xs) p r.current) (off : Int)
    (hq : (q : Int) = p - off) (hl : q ≤ xs.length)
    (hr : -9223372036854775808 < off ∧ off ≤ 9223372036854775808) :
    ∃ s t, r.plus off (.arr xs) = .ok s ∧ IterAt a (.arr xs) q s.current ∧ s.minus off (.arr xs) = .ok t ∧ t.eq (.arr xs) r = .ok true ∧
      s.diff (.arr xs) r = .ok off ∧ r.lt (.arr xs) s = .ok (decide (0 < off)) := by
  obtain ⟨jt, h1, h2⟩ := (plus_at (off := -off) hi).1 q (by omega) hl
  have hp : p ≤ xs.length := hi.2.1
  obtain ⟨kt, h3, h4⟩ := (plus_at (off := off) h2).1 p (by omega) hp
  refine ⟨⟨jt⟩, ⟨kt⟩, ?_, h2, ?_, ?_, ?_, ?_⟩
  · unfold RIter.plus Iter.minus
    rw [if_pos (by simp only [inPtrdiff, Bool.and_eq_true, decide_eq_true_eq]; omega), h1]; rfl
  · unfold RIter.minus; rw [h3]; rfl
  · show kt.eq _ r.current = _
    rw [eq_at h4 hi]; simp
  · show r.current.diff _ jt = _
    rw [diff_at hi h2]; congr 1; omega
  · show jt.lt _ r.current = _
    rw [lt_at h2 hi]
    congr 1
    by_cases h : 0 < off
    · rw [decide_eq_true h, decide_eq_true (by omega)]
    · rw [decide_eq_false h, decide_eq_false (by omega)]

example : IterAt 5 (.arr [.null, .int 2] : Value Unit) 2 (RIter.mk ⟨some 5, some 2, none, 0⟩).current := ⟨rfl, Nat.le_refl 2, rfl⟩

/-- C60. Random access on the iterators of an object is reported. -/
theorem C60_object_reported (a : Nat) (ms : List (List Nat × Value F)) (p q : Nat) (it jt : Iter) (hi : IterAt a (.obj ms) p it)
    (hj : IterAt a (.obj ms) q jt) (off : Int) :
    it.plus off (.obj ms) = .error (.exn .invalidIterator) ∧ it.diff (.obj ms) jt = .error (.exn .invalidIterator) ∧
    it.lt (.obj ms) jt = .error (.exn .invalidIterator) := by
  unfold Iter.plus Iter.diff Iter.lt
  rw [checkData_ok hi.1, checkData_ok hj.1]
  refine ⟨rfl, ?_, ?_⟩
  · show (if _ then _ else _) = _
    rw [if_neg (by rw [hi.1, hj.1]; simp)]
  · show (if _ then _ else _) = _
    rw [if_neg (by rw [hi.1, hj.1]; simp)]

/-- C60. On a boolean, number or string `begin() + n` is defined for every `n` of type `ptrdiff_t` and can be dereferenced only for
`n = 0`; adding to it is defined as long as the sum is in the range of `ptrdiff_t`. -/
theorem C60_scalar (a : Nat) (v : Value F) (hv : v.type ≠ .obj ∧ v.type ≠ .arr ∧ v.type ≠ .null) (n : Int)
    (hn : -9223372036854775808 ≤ n ∧ n < 9223372036854775808) :
    ∃ first it, v.begin a = .ok first ∧ first.plus n v = .ok it ∧ it.deref v = (if n = 0 then .ok v else .error (.exn .outOfRange)) ∧
      ∀ m, (-9223372036854775808 ≤ n + m ∧ n + m < 9223372036854775808 →
          ∃ jt, it.plus m v = .ok jt ∧ jt.diff v first = .error (.exn .invalidIterator) ∧ jt.lt v first = .ok (decide (n + m < 0))) ∧
        (¬ (-9223372036854775808 ≤ n + m ∧ n + m < 9223372036854775808) → it.plus m v = .error .ub) := by
  have hr : ∀ i : Int, inPtrdiff i = true ↔ -9223372036854775808 ≤ i ∧ i < 9223372036854775808 := by
    intro i; simp only [inPtrdiff, Bool.and_eq_true, decide_eq_true_eq]; omega
  refine ⟨⟨some a, none, none, 0⟩, ⟨some a, none, none, n⟩, ?_, ?_, ?_, ?_⟩
  · cases v <;> simp_all [Value.type] <;> rfl
  · have h : inPtrdiff n = true := (hr _).2 hn
    cases v <;> simp only [Value.type, ne_eq, not_true_eq_false, false_and, and_false] at hv <;>
      simp only [Iter.plus, Iter.checkData, Iter.primAdd, Int.zero_add, if_pos h] <;> rfl
  · by_cases h : n = 0
    · subst h
      cases v <;> simp only [Value.type, ne_eq, not_true_eq_false, false_and, and_false] at hv <;> rfl
    · rw [if_neg h]
      cases v <;> simp only [Value.type, ne_eq, not_true_eq_false, false_and, and_false] at hv <;>
        simp only [Iter.deref, Iter.checkData, Iter.checkIterator, ne_eq, h, not_false_eq_true, if_true] <;> rfl
  · intro m
    refine ⟨fun h => ⟨⟨some a, none, none, n + m⟩, ?_, ?_, ?_⟩, fun h => ?_⟩
    · have h := (hr _).2 h
      cases v <;> simp only [Value.type, ne_eq, not_true_eq_false, false_and, and_false] at hv <;>
        simp only [Iter.plus, Iter.checkData, Iter.primAdd, if_pos h] <;> rfl
    · cases v <;> simp only [Value.type, ne_eq, not_true_eq_false, false_and, and_false] at hv <;>
        simp only [Iter.diff, Iter.checkData, ne_eq, not_true_eq_false, if_false] <;> rfl
    · cases v <;> simp only [Value.type, ne_eq, not_true_eq_false, false_and, and_false] at hv <;>
        simp only [Iter.lt, Iter.checkData, ne_eq, not_true_eq_false, if_false] <;> rfl
    · have h : ¬ inPtrdiff (n + m) = true := fun h' => h ((hr _).1 h')
      cases v <;> simp only [Value.type, ne_eq, not_true_eq_false, false_and, and_false] at hv <;>
        simp only [Iter.plus, Iter.checkData, Iter.primAdd, if_neg h] <;> rfl

/-- The hypotheses are met. -/
example : (Value.int 7 : Value Unit).type ≠ .obj ∧ (Value.int 7 : Value Unit).type ≠ .arr ∧ (Value.int 7 : Value Unit).type ≠ .null := by decide

example : IterAt 7 (.arr [.int 1, .int 2] : Value Unit) 1 ⟨some 7, some 1, none, 0⟩ ∧ (0 : Nat) = (1 : Nat) + (-1 : Int) := ⟨⟨rfl, by decide, rfl⟩, by decide⟩

/-! ## C61 -/

/-- C61. `find(k)`, `count(k)` and `at(k)` agree: either there is a member, `find` gives an iterator
to it, different from `end()`, with that key and the value that `at` gives; or there is none and
`find` gives `end()`, `count` 0 and `at` throws. -/
theorem C61_find_count_at (a : Nat) (ms : List (List Nat × Value F)) (hs : KeysSorted (.obj ms)) (k : List Nat) :
    ∃ it last, (Value.obj ms).find a k = .ok it ∧ (Value.obj ms).fin a = .ok last ∧
      ((∃ x, it.eq (.obj ms) last = .ok false ∧ (Value.obj ms).count k = 1 ∧ atKey k read (.obj ms) = (.ok x, .obj ms) ∧
          it.key (.obj ms) = .ok k ∧ it.deref (.obj ms) = .ok x) ∨
       (it.eq (.obj ms) last = .ok true ∧ (Value.obj ms).count k = 0 ∧
          atKey k read (.obj ms) = (.error (.exn .outOfRange), .obj ms))) := by
  have h := (sorted_obj.1 hs).1
  obtain ⟨it, h1, h2⟩ := find_at (a := a) h k
  obtain ⟨last, h3, h4⟩ := fin_at a (Value.obj ms)
  refine ⟨it, last, h1, h3, ?_⟩
  rw [eq_at h2 h4, count_eq h]
  cases hk : ms.lookup k with
  | none =>
    right
    rw [(position_spec h k).2 hk]
    exact ⟨by simp [Value.size], rfl, atKey_none h hk _⟩
  | some x =>
    left
    have hp := (position_spec h k).1 x hk
    have hlt := (List.getElem?_eq_some_iff.1 hp).1
    refine ⟨x, ?_, rfl, atKey_read h hk, key_at h2 hp, deref_at h2 ?_⟩
    · have : ¬ Value.position k ms = (Value.obj ms).size := by show ¬ _ = ms.length; omega
      simp [this]
    · show (ms.map Prod.snd)[_]? = _
      rw [List.getElem?_map, hp]; rfl

/-- C61. On a value that is not an object `find` gives `end()` and `count` 0. -/
theorem C61_non_object (a : Nat) (v : Value F) (hv : v.type ≠ .obj) (k : List Nat) : v.find a k = v.fin a ∧ v.count k = 0 := by
  cases v with
  | obj ms => exact absurd rfl hv
  | _ => exact ⟨rfl, rfl⟩

example : ∃ it, sampleTree.find 1 [0x62] = .ok it ∧ it.deref sampleTree = .ok (.str [0x78]) := ⟨⟨some 1, none, some 1, 0⟩, by decide +kernel⟩

/-! ## C84 -/

/-- C84 is false: `at()` and the subscript operator of a constant value give a reference that is
not constant, so a constant value can be changed. -/
theorem C84_violated (fo : FloatOps F) :
    ∃ (v v' : Value F) (i : Nat), atIndex i (assign (.int 2)) v = (.ok (), v') ∧ Value.eq fo v v' = false :=
  ⟨.arr [.int 1], .arr [.int 2], 0, rfl, rfl⟩

/-- C84, what remains: at most the element asked for is changed. -/
theorem C84_only_that_element_partial (xs : List (Value F)) (i j : Nat) (f : V F α) (hj : j ≠ i) :
    ∃ ys, (atIndex i f (.arr xs)).2 = .arr ys ∧ ys.length = xs.length ∧ ys[j]? = xs[j]? := by
  have e : atIndex i f (.arr xs) = if i ≥ xs.length then (.error (.exn .outOfRange), .arr xs) else onElem i f xs := rfl
  rw [e]
  split
  · exact ⟨xs, rfl, rfl, rfl⟩
  · unfold onElem
    split
    · exact ⟨xs, rfl, rfl, rfl⟩
    · exact ⟨_, rfl, by simp, by rw [List.getElem?_set_ne (Ne.symm hj)]⟩

example : atIndex 1 (assign .null) (.arr [.int 1, .int 2] : Value Unit) = (.ok (), .arr [.int 1, .null]) := by decide +kernel

/-! ## C85 -/

/-- C85. `erase(pos)` with an iterator to an element of an array removes exactly that element and
gives an iterator to the one after it. -/
theorem C85_erase_array (a : Nat) (xs : List (Value F)) (p : Nat) (hp : p < xs.length) (it : Iter) (hi : IterAt a (.arr xs) p it) :
    ∃ jt, eraseIter a it (.arr xs) = (.ok jt, .arr (xs.take p ++ xs.drop (p + 1))) ∧
      IterAt a (.arr (xs.take p ++ xs.drop (p + 1))) p jt := by
  obtain ⟨h1, _, h2⟩ := hi
  have h2 : it.arrIt = some p := h2
  rw [← List.eraseIdx_eq_take_drop_succ]
  refine ⟨⟨some a, some p, none, 0⟩, ?_, rfl, ?_, rfl⟩
  · show (match it.arrIt with | some p => _ | none => _) = _
    rw [h2]
    show (if _ then _ else _) = _
    rw [if_pos ⟨h1, hp⟩]
    rfl
  · show p ≤ (xs.eraseIdx p).length
    rw [List.length_eraseIdx, if_pos hp]; omega

/-- C85. The same for objects: exactly the member at the position is removed. -/
theorem C85_erase_object (a : Nat) (ms : List (List Nat × Value F)) (p : Nat) (hp : p < ms.length) (it : Iter)
    (hi : IterAt a (.obj ms) p it) :
    ∃ jt, eraseIter a it (.obj ms) = (.ok jt, .obj (ms.take p ++ ms.drop (p + 1))) ∧
      IterAt a (.obj (ms.take p ++ ms.drop (p + 1))) p jt := by
  obtain ⟨h1, _, h2⟩ := hi
  have h2 : it.objIt = some p := h2
  rw [← List.eraseIdx_eq_take_drop_succ]
  refine ⟨⟨some a, none, some p, 0⟩, ?_, rfl, ?_, rfl⟩
  · show (match it.objIt with | some p => _ | none => _) = _
    rw [h2]
    show (if _ then _ else _) = _
    rw [if_pos ⟨h1, hp⟩]
    rfl
  · rw [elements_length]
    show p ≤ (ms.eraseIdx p).length
    rw [List.length_eraseIdx, if_pos hp]; omega

/-- C85. `erase(first, last)` removes exactly the elements from `first` up to `last` and gives an
iterator to the element after them. -/
theorem C85_erase_range (a : Nat) (v : Value F) (p q : Nat) (hpq : p ≤ q) (it jt : Iter) (hi : IterAt a v p it) (hj : IterAt a v q jt)
    (hv : v.type = .arr ∨ v.type = .obj) :
    ∃ kt v', eraseRange a it jt v = (.ok kt, v') ∧ v'.type = v.type ∧ elements v' = (elements v).take p ++ (elements v).drop q ∧
      IterAt a v' p kt := by
  obtain ⟨h1, hl, h2⟩ := hi
  obtain ⟨h3, hq, h4⟩ := hj
  rw [elements_length] at hq
  cases v with
  | arr xs =>
    have h2 : it.arrIt = some p := h2
    have h4 : jt.arrIt = some q := h4
    have hq : q ≤ xs.length := hq
    refine ⟨⟨some a, some p, none, 0⟩, .arr (xs.take p ++ xs.drop q), ?_, rfl, rfl, rfl, ?_, rfl⟩
    · show (match it.arrIt, jt.arrIt with | some p, some q => _ | _, _ => _) = _
      rw [h2, h4]
      show (if _ then _ else _) = _
      rw [if_pos ⟨h1, h3, hpq, hq⟩]
      rfl
    · show p ≤ (xs.take p ++ xs.drop q).length
      simp; omega
  | obj ms =>
    have h2 : it.objIt = some p := h2
    have h4 : jt.objIt = some q := h4
    have hq : q ≤ ms.length := hq
    refine ⟨⟨some a, none, some p, 0⟩, .obj (ms.take p ++ ms.drop q), ?_, rfl, ?_, rfl, ?_, rfl⟩
    · show (match it.objIt, jt.objIt with | some p, some q => _ | _, _ => _) = _
      rw [h2, h4]
      show (if _ then _ else _) = _
      rw [if_pos ⟨h1, h3, hpq, hq⟩]
      rfl
    · show (ms.take p ++ ms.drop q).map Prod.snd = _
      simp [elements, List.map_take, List.map_drop]
    · rw [elements_length]
      show p ≤ (ms.take p ++ ms.drop q).length
      simp; omega
  | _ => rcases hv with h | h <;> cases h

example : IterAt 1 sampleTree 1 ⟨some 1, none, some 1, 0⟩ := ⟨rfl, by decide, rfl⟩

/-! ## C86 -/

/-- C86. `make_object` keeps the first member of each key: `at(k)` gives the value of the first pair
with the key, and there is no other member. -/
theorem C86_makeObject (l : List (List Nat × Value F)) : Represents (makeObject l) (fun k => l.lookup k) := by
  have : ∀ ms, Sorted ms → Sorted (l.foldl (fun ms p => Map.emplace p.1 p.2 ms) ms) ∧
      ∀ k, (l.foldl (fun ms p => Map.emplace p.1 p.2 ms) ms).lookup k = (ms.lookup k).or (l.lookup k) := by
    induction l with
    | nil => intro ms h; exact ⟨h, fun k => by simp⟩
    | cons p l ih =>
      intro ms h
      obtain ⟨h1, h2⟩ := ih (Map.emplace p.1 p.2 ms) (emplace_sorted h)
      refine ⟨h1, fun k => ?_⟩
      rw [List.foldl_cons, h2, emplace_lookup h, List.lookup_cons]
      by_cases hk : k = p.1
      · subst hk
        cases hl : ms.lookup p.1 <;> simp
      · have : (k == p.1) = false := by simp [hk]
        cases hl : ms.lookup k <;> simp [this, hk]
  obtain ⟨h1, h2⟩ := this [] (by simp [Sorted])
  have e : (fun k => l.lookup k) = fun k => (l.foldl (fun ms p => Map.emplace p.1 p.2 ms) []).lookup k := by
    funext k; rw [h2]; simp
  rw [e]
  exact represents_obj h1

example : makeObject ([([0x62], .int 1), ([0x61], .int 2), ([0x62], .int 3)] : List (List Nat × Value Unit)) =
    .obj [([0x61], .int 2), ([0x62], .int 1)] := by decide +kernel

/-! ## C108 -/

/-- C108. An iterator that belongs to no value (a default-constructed one): every use of it throws `configor_invalid_iterator`,
whatever the other operand; and it is equal to no iterator, not even to itself. -/
theorem C108_no_value (it other : Iter) (h : it.target = none) (v : Value F) (n : Int) (hn : -9223372036854775808 < n ∧ n ≤ 9223372036854775808) :
    it.deref v = .error (.exn .invalidIterator) ∧ it.key v = .error (.exn .invalidIterator) ∧
    it.incr v = .error (.exn .invalidIterator) ∧ it.decr v = .error (.exn .invalidIterator) ∧
    it.plus n v = .error (.exn .invalidIterator) ∧ it.minus n v = .error (.exn .invalidIterator) ∧
    it.diff v other = .error (.exn .invalidIterator) ∧ it.lt v other = .error (.exn .invalidIterator) ∧
    (other.target ≠ none → other.diff v it = .error (.exn .invalidIterator) ∧ other.lt v it = .error (.exn .invalidIterator)) ∧
    it.eq v other = .ok false ∧ other.eq v it = .ok false := by
  have hc : it.checkData = .error (.exn .invalidIterator) := by simp [Iter.checkData, h]
  have hm : inPtrdiff (-n) = true := by simp only [inPtrdiff, Bool.and_eq_true, decide_eq_true_eq]; omega
  refine ⟨by simp only [Iter.deref, hc]; rfl, by simp only [Iter.key, hc]; rfl, by simp only [Iter.incr, Iter.step, hc]; rfl,
    by simp only [Iter.decr, Iter.step, hc]; rfl, by simp only [Iter.plus, hc]; rfl, ?_,
    by simp only [Iter.diff, hc]; rfl, by simp only [Iter.lt, hc]; rfl, fun ho => ?_, by simp [Iter.eq, h], ?_⟩
  · rw [Iter.minus, if_pos hm]
    simp only [Iter.plus, hc]; rfl
  · have ho' : other.checkData = .ok () := by simp [Iter.checkData, ho]
    exact ⟨by simp only [Iter.diff, hc, ho']; rfl, by simp only [Iter.lt, hc, ho']; rfl⟩
  · by_cases ho : other.target = none
    · simp [Iter.eq, ho]
    · simp [Iter.eq, h, ho]

/-- C108. Iterators of two different values (at the addresses `a` and `b`): they are not equal, and their difference and
`<` throw `configor_invalid_iterator`. -/
theorem C108_two_values (it jt : Iter) (a b : Nat) (ha : it.target = some a) (hb : jt.target = some b) (hab : a ≠ b) (v : Value F) :
    it.eq v jt = .ok false ∧ it.diff v jt = .error (.exn .invalidIterator) ∧ it.lt v jt = .error (.exn .invalidIterator) := by
  have h1 : it.checkData = .ok () := by simp [Iter.checkData, ha]
  have h2 : jt.checkData = .ok () := by simp [Iter.checkData, hb]
  have h3 : it.target ≠ jt.target := by rw [ha, hb]; simpa using hab
  refine ⟨by simp [Iter.eq, ha, hb, hab], ?_, ?_⟩
  · simp only [Iter.diff, h1, h2, bind, Except.bind, if_pos h3]
  · simp only [Iter.lt, h1, h2, bind, Except.bind, if_pos h3]

/-- Iterators without a value, and of two values: `iterator()`, and the `begin()` of two arrays. -/
example : (Iter.make none).target = none ∧ ∃ it jt, Value.begin 1 (.arr [.int 5] : Value Unit) = .ok it ∧ Value.begin 2 (.arr [.int 5] : Value Unit) = .ok jt ∧
    it.target = some 1 ∧ jt.target = some 2 := ⟨rfl, _, _, rfl, rfl, rfl, rfl⟩

/-! ## C109 -/

/-- C109 is false: `erase(pos)` with the iterator of another array, or with `end()`, is undefined, and so is `erase(first, last)`
with the ends exchanged. -/
theorem C109_violated : ∃ (xs : List (Value Unit)) (it jt en : Iter), Value.begin 1 (.arr xs) = .ok it ∧ Value.begin 2 (.arr xs) = .ok jt ∧
    Value.fin 1 (.arr xs) = .ok en ∧ (eraseIter 1 jt (.arr xs)).1 = .error .ub ∧ (eraseIter 1 en (.arr xs)).1 = .error .ub ∧
    (eraseRange 1 en it (.arr xs)).1 = .error .ub :=
  ⟨[.int 5], _, _, _, rfl, rfl, rfl, rfl, rfl, rfl⟩

/-- C109, what is left of it: on a value that is neither an array nor an object both throw `configor_invalid_iterator` and change
nothing, whatever the iterators. -/
theorem C109_erase_scalar_partial (a : Nat) (v : Value F) (h1 : v.type ≠ .arr) (h2 : v.type ≠ .obj) (it jt : Iter) :
    eraseIter a it v = (.error (.exn .invalidIterator), v) ∧ eraseRange a it jt v = (.error (.exn .invalidIterator), v) := by
  cases v with
  | arr xs => exact absurd rfl h1
  | obj ms => exact absurd rfl h2
  | _ => exact ⟨rfl, rfl⟩

example : (Value.str [97] : Value Unit).type ≠ .arr ∧ (Value.str [97] : Value Unit).type ≠ .obj := by decide

end Configor.Props
