import Verif.Proofs.ConvertSays
import Verif.Props.Convert
/-!
# The messages of failed conversions: C129

`R.get v` is `v.get<T>()` with the message of the exception, for the type `T` of the reader `R`. `Typed vf R w` says that the type needs
what `w` describes; `vf` is the order in which a compiler evaluates the arguments of `emplace`.
-/
set_option autoImplicit false
namespace Configor.Props
open Spec Configor.ValueOps

variable {F T S : Type}

/-- The readers do what the conversions of the other properties do; they only add the message. -/
theorem C129_follows (R : Reader F T) (E : Conv F T) (h : Narrates R E) (insert : T → List T → List T)
    (em : List Nat → T → List (List Nat × T) → List (List Nat × T)) (n : Nat) (signed : Bool) (w : Nat) (fs : List (Field F S)) (zero : S)
    {G : Type} (widen : G → F) (narrow : F → G) (z : G) :
    Narrates (Reader.bool : Reader F Bool) Conv.bool ∧ Narrates (Reader.int signed w : Reader F Int) (Conv.int signed w) ∧
      Narrates (Reader.flt narrow z) (Conv.flt widen narrow z) ∧ Narrates (Reader.str : Reader F (List Nat)) Conv.str ∧
      Narrates (Reader.val : Reader F (Value F)) Conv.val ∧ Narrates (Reader.arrayType : Reader F (List (Value F))) Conv.arrayType ∧
      Narrates (Reader.objectType : Reader F (Map.T (Value F))) Conv.objectType ∧
      Narrates (R.array n) (E.array n) ∧ Narrates R.vector E.vector ∧ Narrates R.list E.list ∧ Narrates R.forwardList E.forwardList ∧
      Narrates (R.set insert) (E.set insert) ∧ Narrates (R.map em false) (E.map em) ∧ Narrates R.ptr E.ptr ∧
      Narrates (Reader.bind fs zero) (Conv.bind fs zero) := by
  refine ⟨⟨rfl, ?_⟩, ⟨rfl, ?_⟩, ⟨rfl, ?_⟩, ⟨rfl, ?_⟩, ⟨rfl, ?_⟩, ⟨rfl, ?_⟩, ⟨rfl, ?_⟩, ⟨?_, ?_⟩, ⟨rfl, ?_⟩, ⟨rfl, ?_⟩, ⟨rfl, ?_⟩, ⟨rfl, ?_⟩, ⟨rfl, ?_⟩,
    ⟨rfl, ?_⟩, ⟨rfl, ?_⟩⟩
  · intro v t; cases v <;> rfl
  · intro v t; cases v <;> rfl
  · intro v t; cases v <;> rfl
  · intro v t; cases v <;> rfl
  · intro v t; rfl
  · intro v t; cases v <;> rfl
  · intro v t; cases v <;> rfl
  · show List.replicate n R.zero = List.replicate n E.zero
    rw [h.1]
  · exact fun v t => fill_hush h v _ t
  · intro v t
    show E.fill v (List.range v.size) (Conv.resize E.zero v.size t) = hush (R.each v _ (List.range v.size) (Conv.resize R.zero v.size t))
    rw [h.1]
    exact fill_hush h v _ _
  · exact fun v t => push_hush h v _ _
  · exact fun v t => pushFront_hush h v _ _
  · exact fun v t => insertAll_hush h insert v _ _
  · intro v t
    obtain ⟨it, e1, _⟩ := begin_at 0 v
    obtain ⟨last, e2, _⟩ := fin_at 0 v
    show (match v.begin 0, v.fin 0 with | .ok it, .ok last => _ | .error e, _ => _ | _, .error e => _) =
      hush (match v.begin 0, v.fin 0 with | .ok it, .ok last => _ | .error e, _ => _ | _, .error e => _)
    rw [e1, e2]
    exact emplaceAll_hush h em v _ it last t
  · intro v t
    have hg := get_hush h v
    cases v with
    | null => rfl
    | _ =>
      show (match E.get _ with | .ok x => _ | .error e => _) = hush (match R.get _ with | .ok x => _ | .error e => _)
      rw [hg]
      generalize R.get _ = r
      cases r <;> rfl
  · exact fun v t => readAll_hush v fs t

example : Narrates (Reader.int true 32 : Reader Unit Int).vector (Conv.int true 32).vector :=
  (C129_follows (S := Unit) _ _ (C129_follows (S := Unit) (Reader.val : Reader Unit (Value Unit)) Conv.val ⟨rfl, fun _ _ => rfl⟩
    (fun _ t => t) (fun _ _ t => t) 0 true 32 [] () id id ()).2.1 (fun _ t => t) (fun _ _ t => t) 0 true 8 [] () id id ()).2.2.2.2.2.2.2.2.1

/-- C129, partial: `get<T>()` throws exactly if the value does not suit the type, and the message is the one that is due to the first
part, in the order of reading, that does not. It is about an index, a key or an iterator, and names no type, if that part should be a
sequence, a map or a struct (see `Objection`). -/
theorem C129_message_partial (vf : Bool) (R : Reader F T) (w : Want) (h : Typed vf R w) (v : Value F) (hv : KeysSorted v) :
    ((∃ x, R.get v = .ok x) ↔ Suits w v) ∧
    (¬ Suits w v → ∃ e m, R.get v = .error (.exn e, m)) ∧
    (∀ e m, R.get v = .error (.exn e, m) ↔ Objection vf w v e m) := by
  have hs := speaks_get (typed_speaks h) v hv
  refine ⟨⟨fun ⟨x, hx⟩ => ?_, hs.1⟩, fun hn => ?_, fun e m => ⟨fun hg => ?_, hs.2 e m⟩⟩
  · rcases suits_or vf w v with h | ⟨e, m, ho⟩
    · exact h
    · rw [hs.2 e m ho] at hx; cases hx
  · rcases suits_or vf w v with h | ⟨e, m, ho⟩
    · exact absurd h hn
    · exact ⟨e, m, hs.2 e m ho⟩
  · rcases suits_or vf w v with h | ⟨e', m', ho⟩
    · obtain ⟨x, hx⟩ := hs.1 h
      rw [hx] at hg; cases hg
    · rw [hs.2 e' m' ho] at hg
      cases hg
      exact ho

/-- `get<std::map<std::string, std::vector<int>>>()` of `{"a":[1],"b":[2,"x",null]}`, for examples. -/
example : ((Reader.int true 32 : Reader Unit Int).vector.map Map.emplace true).get
      (.obj [([0x61], .arr [.int 1]), ([0x62], .arr [.int 2, .str [0x78], .null])]) =
    .error (.exn .typeError, text! "value type error: cannot convert type 'string' to type 'integer' (implicitly)") := rfl
example : Typed true ((Reader.int true 32 : Reader Unit Int).vector.map Map.emplace true) (.dict (.seq (.exact .int))) := .map (.vector .int)

theorem within_within {u v x : Value F} (h : Within v u) (h' : Within u x) : Within v x := by
  induction h with
  | refl => exact h'
  | elem hx _ ih => exact .elem hx (ih h')
  | member hx _ ih => exact .member hx (ih h')

theorem elements_within {v x : Value F} (h : x ∈ elements v) : Within v x := by
  cases v with
  | null => cases h
  | arr xs => exact .elem h .refl
  | obj ms =>
    obtain ⟨⟨k, y⟩, hm, rfl⟩ := List.mem_map.1 h
    exact .member hm .refl
  | _ => cases List.mem_singleton.1 h; exact .refl

/-- C129, partial: every `configor_type_error` names the type of a part of the value and another type that was wanted. -/
theorem C129_names_types_partial (vf : Bool) (R : Reader F T) (w : Want) (h : Typed vf R w) (v : Value F) (hv : KeysSorted v) (m : List Nat)
    (hg : R.get v = .error (.exn .typeError, m)) : ∃ x want, Within v x ∧ x.type ≠ want ∧ m = mismatch x.type want := by
  have ho := ((C129_message_partial vf R w h v hv).2.2 _ m).1 hg
  clear hg hv h
  have up : ∀ {u v : Value F}, Within v u → (∃ x want, Within u x ∧ x.type ≠ want ∧ m = mismatch x.type want) →
      ∃ x want, Within v x ∧ x.type ≠ want ∧ m = mismatch x.type want :=
    fun hu ⟨x, want, h1, h2⟩ => ⟨x, want, within_within hu h1, h2⟩
  generalize he : Err.typeError = e at ho
  induction ho with
  | exact h => exact ⟨_, _, .refl, h, rfl⟩
  | orNull h _ => exact ⟨_, _, .refl, h, rfl⟩
  | @fixed n w xs pre x post e m h1 _ _ ih =>
    have hx : x ∈ xs := List.mem_of_mem_take (i := n) (by rw [h1]; simp)
    exact up (.elem hx .refl) (ih up he)
  | seq _ _ ih => exact up (.elem (by simp) .refl) (ih up he)
  | back _ _ ih => exact up (.elem (by simp) .refl) (ih up he)
  | @dict w pre k x post e m _ _ ih => exact up (.member (k := k) (v := x) (by simp) .refl) (ih up he)
  | dictValue _ hx _ _ ih => exact up (elements_within (by rw [hx]; simp)) (ih up he)
  | ptr _ _ ih => exact ih up he
  | _ => cases he

example : (Reader.str : Reader Unit (List Nat)).ptr.get (.bool true) =
    .error (.exn .typeError, text! "value type error: cannot convert type 'boolean' to type 'string' (implicitly)") := rfl

/-- C129. `get<T&>()` gives the value itself exactly if it is of the type; otherwise the message names the type it is of. -/
theorem C129_reference (t : VType) (ht : t ≠ .null) (v : Value F) :
    (v.type = t → v.getRefSaid t = .ok v) ∧
    (v.type ≠ t → v.getRefSaid t = .error (.exn .typeError,
      text! "value type error: incompatible reference type for get, actual type is " ++ typeName v.type)) ∧
    v.getRef t = (v.getRefSaid t).mapError Prod.fst := by
  have hp : v.hasPtr t = decide (v.type = t) := by
    unfold Value.hasPtr
    cases v <;> cases t <;> first | rfl | exact absurd rfl ht
  unfold Value.getRefSaid Value.getRef
  rw [hp]
  refine ⟨fun h => by rw [decide_eq_true h]; rfl, fun h => ?_, ?_⟩
  · rw [decide_eq_false h]
    cases v <;> rfl
  · by_cases h : v.type = t
    · rw [decide_eq_true h]; rfl
    · rw [decide_eq_false h]; rfl

example : (Value.null : Value Unit).getRefSaid .int =
    .error (.exn .typeError, text! "value type error: incompatible reference type for get, actual type is null") := rfl

/-- C129. The order of evaluation decides about the message only: what is read is the same. -/
theorem C129_order (R : Reader F T) (em : List Nat → T → List (List Nat × T) → List (List Nat × T)) (v : Value F) (x : List (List Nat × T)) :
    (R.map em true).get v = .ok x ↔ (R.map em false).get v = .ok x := by
  have entry : ∀ it p, R.entry true v it = .ok p ↔ R.entry false v it = .ok p := by
    intro it p
    unfold Reader.entry
    cases it.keySaid v with
    | error e => cases it.derefSaid v with
      | error e' => simp
      | ok y => dsimp only; cases R.get y <;> simp
    | ok k => cases it.derefSaid v with
      | error e' => simp
      | ok y => dsimp only; cases R.get y <;> simp
  have loop : ∀ (n : Nat) (it last : Iter) (t t' : List (List Nat × T)),
      R.emplaceAll em true v n it last t = (.ok (), t') ↔ R.emplaceAll em false v n it last t = (.ok (), t') := by
    intro n
    induction n with
    | zero => intro it last t t'; simp [Reader.emplaceAll, MM.stop]
    | succ n ih =>
      intro it last t t'
      unfold Reader.emplaceAll
      cases it.eq v last with
      | error e => simp
      | ok b =>
        cases b with
        | true => simp
        | false =>
          dsimp only
          have h := entry it
          generalize R.entry true v it = a at h
          generalize R.entry false v it = b at h
          cases a with
          | error e =>
            cases b with
            | error e' => simp
            | ok p => exact absurd ((h p).2 rfl) (by simp)
          | ok p =>
            have hb := (h p).1 rfl
            subst hb
            obtain ⟨k, y⟩ := p
            dsimp only
            cases it.incr v with
            | error e => simp
            | ok jt => exact ih jt last _ t'
  obtain ⟨it, e1, _⟩ := begin_at 0 v
  obtain ⟨last, e2, _⟩ := fin_at 0 v
  have hr : ∀ b, (R.map em b).fromValue v [] = R.emplaceAll em b v (v.size + 1) it last [] := by
    intro b
    show (match v.begin 0, v.fin 0 with | .ok it, .ok last => _ | .error e, _ => _ | _, .error e => _) = _
    rw [e1, e2]
  have hg : ∀ b, (R.map em b).get v = .ok x ↔ R.emplaceAll em b v (v.size + 1) it last [] = (.ok (), x) := by
    intro b
    unfold Reader.get
    have hz : (R.map em b).zero = [] := rfl
    rw [hz, hr]
    generalize R.emplaceAll em b v (v.size + 1) it last [] = r
    obtain ⟨r | r, t⟩ := r
    · simp
    · simp
  rw [hg, hg, loop]

example : ((Reader.str : Reader Unit (List Nat)).map Map.emplace true).get (.arr [.int 1]) ≠
    ((Reader.str : Reader Unit (List Nat)).map Map.emplace false).get (.arr [.int 1]) := by
  intro h
  have h : (Except.error (conversionSaid .int .str) : Except Said (List (List Nat × List Nat))) = .error _ := h
  injection h with h
  exact absurd (congrArg Prod.fst h) (by decide)

/-- A struct with one required field of the name, for examples. -/
def oneField (name : List Nat) : Reader F Int :=
  .bind [{ T := Int, conv := Conv.int true 32, get := id, set := fun x _ => x, name := name, optional := false, isZero := fun x => x == 0 }] 0

/-- C129 does not hold: the message of reading a sequence, a map or a struct from a value of another type names neither type (it is
the same for all values), and that of a missing member does not name the member (it is the same for all names). -/
theorem C129_violated (R : Reader F T) (em : List Nat → T → List (List Nat × T) → List (List Nat × T)) :
    (∀ v : Value F, v.type ≠ .arr → v.size ≠ 0 →
      R.vector.get v = .error (.exn .invalidKey, text! "invalid value key error: operator[] called on a non-array type")) ∧
    (∀ v : Value F, v.type ≠ .obj → v.size ≠ 0 →
      (R.map em false).get v = .error (.exn .invalidIterator, text! "invalid value iterator error: cannot use key() with non-object type")) ∧
    (∀ (v : Value F) (name : List Nat), v.type ≠ .obj →
      (oneField name).get v = .error (.exn .invalidKey, text! "invalid value key error: operator[] called on a non-object object")) ∧
    (∀ name, (oneField name).get (.obj [] : Value F) = .error (.exn .outOfRange, text! "operator[] key out of range")) := by
  refine ⟨fun v ht hz => ?_, fun v ht hz => ?_, fun v name ht => ?_, fun name => rfl⟩
  · have := each_none R ht (fun i x t => t.set i x) (is := List.range v.size) (fun hn => hz (by simpa using hn)) (Conv.resize R.zero v.size [])
    unfold Reader.get
    generalize hr : R.vector.fromValue v R.vector.zero = r
    have this : (R.vector.fromValue v R.vector.zero).1 = _ := this
    rw [hr] at this
    obtain ⟨r, t⟩ := r
    have this : r = _ := this
    rw [this]
  · obtain ⟨it, e1, i1⟩ := begin_at 0 v
    obtain ⟨last, e2, i2⟩ := fin_at 0 v
    have hk := keySaid_other i1 (by omega) ht
    unfold Reader.get
    have hr : (R.map em false).fromValue v [] = R.emplaceAll em false v (v.size + 1) it last [] := by
      show (match v.begin 0, v.fin 0 with | .ok it, .ok last => _ | .error e, _ => _ | _, .error e => _) = _
      rw [e1, e2]
    have hz' : (R.map em false).zero = [] := rfl
    rw [hz', hr]
    unfold Reader.emplaceAll
    rw [eq_at i1 i2, decide_eq_false (by omega)]
    have : R.entry false v it = .error (.exn .invalidIterator, text! "invalid value iterator error: cannot use key() with non-object type") := by
      unfold Reader.entry
      rw [hk]
    rw [this]
  · cases v <;> first | rfl | exact absurd rfl ht

example : (Value.str [0x61] : Value Unit).type ≠ .arr ∧ (Value.str [0x61] : Value Unit).size ≠ 0 := by decide

end Configor.Props
