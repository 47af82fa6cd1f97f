import Verif.Proofs.Bind
/-! # Lemmas for the round trips of conversions -/
namespace Configor
open Spec ValueOps Conv

variable {F T S : Type}

theorem get_ok {E : Conv F T} {v : Value F} {x : T} : E.get v = .ok x ↔ E.fromValue v E.zero = (.ok (), x) := by
  unfold Conv.get
  rcases E.fromValue v E.zero with ⟨_ | _, t⟩ <;> simp

theorem get_error {E : Conv F T} {v : Value F} {e : Stop} : E.get v = .error e ↔ (E.fromValue v E.zero).1 = .error e := by
  unfold Conv.get
  rcases E.fromValue v E.zero with ⟨_ | _, t⟩ <;> simp

theorem getInto_true {E : Conv F T} {v : Value F} {t t' : T} : E.getInto v t = (.ok true, t') ↔ E.fromValue v t = (.ok (), t') := by
  unfold Conv.getInto
  rcases E.fromValue v t with ⟨e | _, u⟩
  · cases e <;> simp
  · simp

theorem getInto_false {E : Conv F T} {v : Value F} {t t' : T} :
    E.getInto v t = (.ok false, t') ↔ ∃ x, E.fromValue v t = (.error (.exn x), t') := by
  unfold Conv.getInto
  rcases E.fromValue v t with ⟨e | _, u⟩
  · cases e <;> simp
  · simp

theorem roundTrip_all {E : Conv F T} {xs : List T} (h : ∀ x ∈ xs, RoundTrip E x) : ∃ vs, ToAll E xs vs ∧ GetAll E vs xs := by
  induction xs with
  | nil => exact ⟨[], .nil, .nil⟩
  | cons x xs ih =>
    obtain ⟨v, h1, h2⟩ := h x (by simp)
    obtain ⟨vs, h3, h4⟩ := ih fun y hy => h y (by simp [hy])
    exact ⟨v :: vs, .cons h1 h3, .cons h2 h4⟩

theorem toSeq {E : Conv F T} {xs : List T} {vs : List (Value F)} (h : ToAll E xs vs) (hl : xs.length ≤ vectorMax) :
    toLoop E 0 xs (.arr []) = .ok (.arr vs) := by
  have := toLoop_eq h [] (by simpa using hl)
  simpa using this

theorem range_backwards (n : Nat) : (List.range n).map (fun i => n - i - 1) = (List.range n).reverse := by
  apply List.ext_getElem
  · simp
  · intro i h1 h2
    simp
    omega

theorem map_roundTrip {E : Conv F T} {xs : List (List Nat × T)} (h : ∀ x ∈ xs, RoundTrip E x.2) :
    ∃ vs : List (List Nat × Value F), All2 (fun x v => x.1 = v.1 ∧ E.toValue x.2 = .ok v.2) xs vs ∧
      All2 (fun v x => x.1 = v.1 ∧ E.get v.2 = .ok x.2) vs xs := by
  induction xs with
  | nil => exact ⟨[], .nil, .nil⟩
  | cons x xs ih =>
    obtain ⟨v, h1, h2⟩ := h x (by simp)
    obtain ⟨vs, h3, h4⟩ := ih fun y hy => h y (by simp [hy])
    exact ⟨(x.1, v) :: vs, .cons ⟨rfl, h1⟩ h3, .cons ⟨rfl, h2⟩ h4⟩

theorem all2_keys {U V : Type} {R : List Nat × U → List Nat × V → Prop} (hR : ∀ a b, R a b → a.1 = b.1) {as : List (List Nat × U)}
    {bs : List (List Nat × V)} (h : All2 R as bs) : as.map Prod.fst = bs.map Prod.fst := by
  induction h with
  | nil => rfl
  | cons h1 _ ih => rw [List.map_cons, List.map_cons, hR _ _ h1, ih]

theorem all2_perm {A B : Type} {R : A → B → Prop} {as as' : List A} (hp : as.Perm as') :
    ∀ {bs : List B}, All2 R as bs → ∃ bs', All2 R as' bs' ∧ bs.Perm bs' := by
  induction hp with
  | nil => intro bs h; exact ⟨bs, h, .refl _⟩
  | cons a _ ih =>
    intro bs h
    cases h with
    | cons h1 h2 =>
      obtain ⟨bs', h3, h4⟩ := ih h2
      exact ⟨_ :: bs', .cons h1 h3, h4.cons _⟩
  | swap a b l =>
    intro bs h
    cases h with
    | cons h1 h2 =>
      cases h2 with
      | cons h3 h4 => exact ⟨_, .cons h3 (.cons h1 h4), .swap _ _ _⟩
  | trans _ _ ih1 ih2 =>
    intro bs h
    obtain ⟨b1, h1, h2⟩ := ih1 h
    obtain ⟨b2, h3, h4⟩ := ih2 h1
    exact ⟨b2, h3, h2.trans h4⟩

theorem nodup_lookup {V : Type} {l : List (List Nat × V)} (h : (l.map Prod.fst).Nodup) (k : List Nat) (v : V) : (k, v) ∈ l ↔ l.lookup k = some v := by
  induction l with
  | nil => simp
  | cons p l ih =>
    obtain ⟨k', v'⟩ := p
    rw [List.map_cons, List.nodup_cons] at h
    rw [List.lookup_cons, List.mem_cons]
    by_cases hk : k = k'
    · subst hk
      have : (k, v) ∉ l := fun hm => h.1 (List.mem_map.2 ⟨_, hm, rfl⟩)
      simp [this, eq_comm]
    · have e : (k == k') = false := by simp [hk]
      rw [e, ← ih h.2]
      simp [hk]

theorem keys_nodup {V : Type} {l : List (List Nat × V)} (h : (l.map Prod.fst).Nodup) : l.Nodup := by
  induction l with
  | nil => exact .nil
  | cons p l ih =>
    rw [List.map_cons, List.nodup_cons] at h
    exact List.nodup_cons.2 ⟨fun hm => h.1 (List.mem_map_of_mem hm), ih h.2⟩

/-- The members written in any order are those, in order of the keys. -/
theorem put_all_perm (vs : List (List Nat × Value F)) (h : (vs.map Prod.fst).Nodup) :
    (vs.foldl (fun ms v => put v.1 v.2 ms) []).Perm vs := by
  have hs : Sorted ([] : List (List Nat × Value F)) := by simp [Sorted]
  have h1 := sorted_nodup (put_sorted_all vs [] hs)
  rw [List.perm_ext_iff_of_nodup (keys_nodup h1) (keys_nodup h)]
  rintro ⟨k, v⟩
  rw [nodup_lookup h1, nodup_lookup h, put_lookup_all vs h [] hs]
  simp

theorem fromMap {E : Conv F T} (em : List Nat → T → List (List Nat × T) → List (List Nat × T)) {ms : List (List Nat × Value F)}
    {xs : List (List Nat × T)} (h : All2 (fun v x => x.1 = v.1 ∧ E.get v.2 = .ok x.2) ms xs) (t : List (List Nat × T)) :
    (Conv.map E em).fromValue (.obj ms) t = (.ok (), xs.foldl (fun t x => em x.1 x.2 t) t) := by
  obtain ⟨it, h1, h2⟩ := begin_at 0 (.obj ms)
  obtain ⟨last, h3, h4⟩ := fin_at 0 (.obj ms)
  show (match (Value.obj ms).begin 0, (Value.obj ms).fin 0 with
    | .ok it, .ok last => emplaceAll E em (.obj ms) ((Value.obj ms).size + 1) it last t
    | .error e, _ => (.error e, t)
    | _, .error e => (.error e, t)) = _
  rw [h1, h3]
  dsimp only
  have := emplaceAll_run em h h4 ms.length 0 it (ms.length + 1) t h2 (by omega) (by omega)
  rw [show (Value.obj ms).size = ms.length from rfl, this]
  simp

/-! ## Safety -/

/-- It ended or threw. -/
def Fine {A : Type} (r : Except Stop A) : Prop := ∀ e, r = .error e → ∃ x, e = .exn x

theorem safe_iff {E : Conv F T} : Safe E ↔ ∀ v t, Fine (E.fromValue v t).1 := by
  constructor
  · intro h v t e he
    obtain ⟨b, t', hb⟩ := h v t
    unfold Conv.getInto at hb
    rcases hf : E.fromValue v t with ⟨e' | _, u⟩
    · rw [hf] at he hb
      cases he
      cases e <;> first | exact ⟨_, rfl⟩ | cases hb
    · rw [hf] at he; cases he
  · intro h v t
    unfold Conv.getInto
    have := h v t
    rcases hf : E.fromValue v t with ⟨e' | _, u⟩
    · rw [hf] at this
      obtain ⟨x, rfl⟩ := this e' rfl
      exact ⟨_, _, rfl⟩
    · exact ⟨_, _, rfl⟩

theorem fine_ok {A : Type} (x : A) : Fine (.ok x) := fun _ h => by cases h
theorem fine_exn {A : Type} (x : Err) : Fine (.error (.exn x) : Except Stop A) := fun _ h => by cases h; exact ⟨_, rfl⟩

theorem safe_get {E : Conv F T} (h : Safe E) (v : Value F) : Fine (E.get v) := by
  have := safe_iff.1 h v E.zero
  unfold Conv.get
  rcases hf : E.fromValue v E.zero with ⟨e' | _, u⟩
  · rw [hf] at this
    obtain ⟨x, rfl⟩ := this e' rfl
    exact fine_exn x
  · exact fine_ok u

theorem safe_item {E : Conv F T} (h : Safe E) (v : Value F) (i : Nat) : Fine (E.item v i) := by
  unfold Conv.item
  cases v with
  | arr xs =>
    by_cases hi : i < xs.length
    · rw [atIndex_read (List.getElem?_eq_getElem hi)]
      exact safe_get h _
    · have e : atIndex i read (.arr xs) = if i ≥ xs.length then (.error (.exn .outOfRange), .arr xs) else onElem i read xs := rfl
      rw [e, if_pos (by omega)]
      exact fine_exn _
  | _ => exact fine_exn _

theorem safe_fill {E : Conv F T} (h : Safe E) (c : Value F) (is : List Nat) : ∀ t, Fine (fill E c is t).1 := by
  induction is with
  | nil => intro t; exact fine_ok _
  | cons i is ih =>
    intro t
    have := safe_item h c i
    unfold fill
    cases hi : E.item c i with
    | error e => rw [hi] at this; obtain ⟨x, rfl⟩ := this e rfl; exact fine_exn x
    | ok x => exact ih _

theorem safe_push {E : Conv F T} (h : Safe E) (c : Value F) (is : List Nat) : ∀ t, Fine (push E c is t).1 := by
  induction is with
  | nil => intro t; exact fine_ok _
  | cons i is ih =>
    intro t
    have := safe_item h c i
    unfold push
    cases hi : E.item c i with
    | error e => rw [hi] at this; obtain ⟨x, rfl⟩ := this e rfl; exact fine_exn x
    | ok x => exact ih _

theorem safe_pushFront {E : Conv F T} (h : Safe E) (c : Value F) (is : List Nat) : ∀ t, Fine (pushFront E c is t).1 := by
  induction is with
  | nil => intro t; exact fine_ok _
  | cons i is ih =>
    intro t
    have := safe_item h c i
    unfold pushFront
    cases hi : E.item c i with
    | error e => rw [hi] at this; obtain ⟨x, rfl⟩ := this e rfl; exact fine_exn x
    | ok x => exact ih _

theorem safe_insertAll {E : Conv F T} (h : Safe E) (ins : T → List T → List T) (c : Value F) (is : List Nat) : ∀ t, Fine (insertAll E ins c is t).1 := by
  induction is with
  | nil => intro t; exact fine_ok _
  | cons i is ih =>
    intro t
    have := safe_item h c i
    unfold insertAll
    cases hi : E.item c i with
    | error e => rw [hi] at this; obtain ⟨x, rfl⟩ := this e rfl; exact fine_exn x
    | ok x => exact ih _

theorem safe_emplaceAll {E : Conv F T} (h : Safe E) (em : List Nat → T → List (List Nat × T) → List (List Nat × T)) {c : Value F} {last : Iter}
    (hl : IterAt 0 c c.size last) : ∀ d p it n t, IterAt 0 c p it → p + d = c.size → d < n → Fine (emplaceAll E em c n it last t).1 := by
  intro d
  induction d with
  | zero =>
    intro p it n t hi hp hn
    obtain ⟨n, rfl⟩ : ∃ k, n = k + 1 := ⟨n - 1, by omega⟩
    unfold emplaceAll
    rw [eq_at hi hl, decide_eq_true (by omega)]
    exact fine_ok _
  | succ d ih =>
    intro p it n t hi hp hn
    obtain ⟨n, rfl⟩ : ∃ k, n = k + 1 := ⟨n - 1, by omega⟩
    obtain ⟨jt, h1, h2⟩ := incr_at hi (show p < c.size by omega)
    unfold emplaceAll
    rw [eq_at hi hl, decide_eq_false (by omega)]
    dsimp only
    by_cases ho : c.type = .obj
    · cases c with
      | obj ms =>
        have hpm : p < ms.length := by have : (Value.obj ms).size = ms.length := rfl; omega
        have hg : ms[p]? = some ms[p] := List.getElem?_eq_getElem hpm
        rw [key_at hi hg, deref_at hi (x := ms[p].2) (by show (ms.map Prod.snd)[p]? = _; rw [List.getElem?_map, hg]; rfl), h1]
        dsimp only
        have := safe_get h ms[p].2
        cases hx : E.get ms[p].2 with
        | error e => rw [hx] at this; obtain ⟨x, rfl⟩ := this e rfl; exact fine_exn x
        | ok x => exact ih (p + 1) jt n _ h2 (by omega) (by omega)
      | _ => cases ho
    · rw [key_other hi (by omega) ho]
      exact fine_exn _

theorem safe_readAll {c : Value F} (fs : List (Field F S)) (h : ∀ f ∈ fs, Safe f.conv) : ∀ s, Fine (readAll c fs s).1 := by
  induction fs with
  | nil => intro s; exact fine_ok _
  | cons f fs ih =>
    intro s
    have hf : Fine (f.read c s).1 := by
      unfold Field.read
      split
      · exact fine_ok _
      · have ha : Fine (atKey f.name ValueOps.read c).1 := by
          cases c with
          | obj ms =>
            have e : atKey f.name ValueOps.read (.obj ms) =
              if (Map.find f.name ms).isNone then (.error (.exn .outOfRange), .obj ms) else onMember f.name ValueOps.read ms := rfl
            rw [e]
            unfold onMember
            cases Map.find f.name ms with
            | none => exact fine_exn _
            | some y => exact fine_ok _
          | _ => exact fine_exn _
        split
        · rename_i e he
          obtain ⟨x, rfl⟩ := ha e he
          exact fine_exn x
        · rename_i x _
          obtain ⟨b, t, hb⟩ := h f (by simp) x (f.get s)
          rw [hb]
          exact fine_ok _
    rw [readAll_cons]
    rcases hr : f.read c s with ⟨e | _, s'⟩
    · rw [hr] at hf
      obtain ⟨x, rfl⟩ := hf e rfl
      exact fine_exn x
    · exact ih (fun g hg => h g (by simp [hg])) s'

/-! ## Integers -/

theorem two_pow_pred {w : Nat} (h : 1 ≤ w) : (2 : Int) ^ w = 2 * 2 ^ (w - 1) := by
  obtain ⟨k, rfl⟩ : ∃ k, w = k + 1 := ⟨w - 1, by omega⟩
  rw [Int.pow_succ, Nat.add_sub_cancel, Int.mul_comm]

theorem two_pow_pos (w : Nat) : (0 : Int) < 2 ^ w := Int.pow_pos (by decide)

theorem two_pow_le {a b : Nat} (h : a ≤ b) : (2 : Int) ^ a ≤ 2 ^ b := by
  have : (2 : Nat) ^ a ≤ 2 ^ b := Nat.pow_le_pow_right (by decide) h
  exact_mod_cast this

theorem castTo_range (s : Bool) {w : Nat} (hw : 1 ≤ w) (i : Int) : InRange s w (castTo s w i) := by
  have h1 := two_pow_pred hw
  have h2 := two_pow_pos (w - 1)
  have h3 := two_pow_pos w
  cases s with
  | true =>
    have a := Int.emod_nonneg (i + 2 ^ (w - 1)) (b := 2 ^ w) (by omega)
    have b := Int.emod_lt_of_pos (i + 2 ^ (w - 1)) h3
    simp only [InRange, castTo, wrapS, if_true]
    omega
  | false =>
    have a := Int.emod_nonneg i (b := 2 ^ w) (by omega)
    have b := Int.emod_lt_of_pos i h3
    simp only [InRange, castTo, wrapU]
    simp
    omega

theorem castTo_id {s : Bool} {w : Nat} (hw : 1 ≤ w) {i : Int} (h : InRange s w i) : castTo s w i = i := by
  have h1 := two_pow_pred hw
  cases s with
  | true =>
    simp only [InRange, castTo, wrapS, if_true] at *
    rw [Int.emod_eq_of_lt (by omega) (by omega)]
    omega
  | false =>
    simp [InRange, castTo, wrapU] at *
    exact Int.emod_eq_of_lt h.1 h.2

theorem castTo_id_iff {s : Bool} {w : Nat} (hw : 1 ≤ w) {i : Int} : castTo s w i = i ↔ InRange s w i :=
  ⟨fun h => h ▸ castTo_range s hw i, castTo_id hw⟩

theorem castTo_castTo {s : Bool} {w : Nat} (hw : 1 ≤ w) (h64 : w ≤ 64) {i : Int} (h : InRange s w i) : castTo s w (castTo true 64 i) = i := by
  have h63 : (2 : Int) ^ (64 - 1) = 9223372036854775808 := by decide
  have e64 : (2 : Int) ^ 64 = 18446744073709551616 := by decide
  cases s with
  | true =>
    have hle := two_pow_le (show w - 1 ≤ 64 - 1 by omega)
    have : InRange true 64 i := by
      simp only [InRange, if_true] at *
      omega
    rw [castTo_id (by decide) this, castTo_id hw h]
  | false =>
    by_cases hlt : w ≤ 63
    · have hle := two_pow_le (show w ≤ 64 - 1 by omega)
      have : InRange true 64 i := by
        simp [InRange] at *
        omega
      rw [castTo_id (by decide) this, castTo_id hw h]
    · obtain rfl : w = 64 := by omega
      simp only [InRange, castTo, wrapS, wrapU, if_true] at *
      simp at *
      omega

end Configor
