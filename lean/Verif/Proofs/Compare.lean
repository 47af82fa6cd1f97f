import Verif.Proofs.Map
/-! Equality and order of values. -/
namespace Configor
open Spec

variable {F : Type} (fo : FloatOps F)

/-! ## Equality -/

theorem floatFree_elem {xs : List (Value F)} (h : FloatFree (.arr xs)) : ∀ x ∈ xs, FloatFree x :=
  fun _ hx f hf => h f (.elem hx hf)

theorem floatFree_member {ms : List (List Nat × Value F)} (h : FloatFree (.obj ms)) : ∀ m ∈ ms, FloatFree m.2 :=
  fun _ hx f hf => h f (.member hx hf)

mutual
theorem eq_iff : ∀ v w : Value F, FloatFree v → FloatFree w → (Value.eq fo v w = true ↔ v = w)
  | .null, w, _, _ => by cases w <;> simp [Value.eq]
  | .bool a, w, _, _ => by cases w <;> simp [Value.eq]
  | .int a, w, _, hw => by
    cases w with
    | flt f => exact absurd HasFloat.flt (hw f)
    | _ => simp [Value.eq]
  | .flt f, w, hv, _ => absurd HasFloat.flt (hv f)
  | .str s, w, _, _ => by cases w <;> simp [Value.eq]
  | .arr xs, w, hv, hw => by
    cases w with
    | arr ys =>
      simp only [Value.eq, Value.arr.injEq]
      exact eqElems_iff xs ys (floatFree_elem hv) (floatFree_elem hw)
    | _ => simp [Value.eq]
  | .obj xs, w, hv, hw => by
    cases w with
    | obj ys =>
      simp only [Value.eq, Value.obj.injEq]
      exact eqMembers_iff xs ys (floatFree_member hv) (floatFree_member hw)
    | _ => simp [Value.eq]

theorem eqElems_iff : ∀ xs ys : List (Value F), (∀ x ∈ xs, FloatFree x) → (∀ x ∈ ys, FloatFree x) → (eqElems fo xs ys = true ↔ xs = ys)
  | [], [], _, _ => by simp [eqElems]
  | [], _ :: _, _, _ => by simp [eqElems]
  | _ :: _, [], _, _ => by simp [eqElems]
  | x :: xs, y :: ys, hx, hy => by
    simp only [eqElems, Bool.and_eq_true, List.cons.injEq]
    rw [eq_iff x y (hx x (by simp)) (hy y (by simp)),
      eqElems_iff xs ys (fun z hz => hx z (by simp [hz])) (fun z hz => hy z (by simp [hz]))]

theorem eqMembers_iff : ∀ xs ys : List (List Nat × Value F), (∀ x ∈ xs, FloatFree x.2) → (∀ x ∈ ys, FloatFree x.2) →
    (eqMembers fo xs ys = true ↔ xs = ys)
  | [], [], _, _ => by simp [eqMembers]
  | [], _ :: _, _, _ => by simp [eqMembers]
  | _ :: _, [], _, _ => by simp [eqMembers]
  | (k, x) :: xs, (l, y) :: ys, hx, hy => by
    simp only [eqMembers, Bool.and_eq_true, List.cons.injEq, beq_iff_eq, Prod.mk.injEq]
    rw [eq_iff x y (hx (k, x) (by simp)) (hy (l, y) (by simp)),
      eqMembers_iff xs ys (fun z hz => hx z (by simp [hz])) (fun z hz => hy z (by simp [hz]))]
end

mutual
theorem eq_symm (hs : ∀ a b, fo.eq a b = fo.eq b a) : ∀ v w : Value F, Value.eq fo v w = Value.eq fo w v
  | .null, w => by cases w <;> simp [Value.eq]
  | .bool a, w => by cases w <;> simp [Value.eq, Bool.beq_comm]
  | .int a, w => by cases w <;> simp [Value.eq, hs, Bool.beq_comm]
  | .flt a, w => by cases w <;> simp [Value.eq, hs a]
  | .str s, w => by cases w <;> simp [Value.eq, Bool.beq_comm]
  | .arr xs, w => by
    cases w with
    | arr ys => simp only [Value.eq]; exact eqElems_symm hs xs ys
    | _ => simp [Value.eq]
  | .obj xs, w => by
    cases w with
    | obj ys => simp only [Value.eq]; exact eqMembers_symm hs xs ys
    | _ => simp [Value.eq]

theorem eqElems_symm (hs : ∀ a b, fo.eq a b = fo.eq b a) : ∀ xs ys : List (Value F), eqElems fo xs ys = eqElems fo ys xs
  | [], [] => rfl
  | [], _ :: _ => by simp [eqElems]
  | _ :: _, [] => by simp [eqElems]
  | x :: xs, y :: ys => by
    simp only [eqElems]; rw [eq_symm hs x y, eqElems_symm hs xs ys]

theorem eqMembers_symm (hs : ∀ a b, fo.eq a b = fo.eq b a) : ∀ xs ys : List (List Nat × Value F), eqMembers fo xs ys = eqMembers fo ys xs
  | [], [] => rfl
  | [], _ :: _ => by simp [eqMembers]
  | _ :: _, [] => by simp [eqMembers]
  | (k, x) :: xs, (l, y) :: ys => by
    simp only [eqMembers]; rw [eq_symm hs x y, eqMembers_symm hs xs ys, Bool.beq_comm (a := k)]
end

/-! ## Lexicographic order -/

/-- `std::lexicographical_compare`. -/
def lexLt {α : Type} (r : α → α → Bool) : List α → List α → Bool
  | [], [] => false
  | [], _ :: _ => true
  | _ :: _, [] => false
  | x :: xs, y :: ys => if r x y then true else if r y x then false else lexLt r xs ys

/-- `operator<` of a pair of key and value. -/
def pairLt {α : Type} (r : α → α → Bool) (p q : List Nat × α) : Bool := ltKey p.1 q.1 || (!ltKey q.1 p.1 && r p.2 q.2)

theorem ltElems_eq : ∀ xs ys : List (Value F), ltElems fo xs ys = lexLt (Value.lt fo) xs ys
  | [], [] => by simp [ltElems, lexLt]
  | [], _ :: _ => by simp [ltElems, lexLt]
  | _ :: _, [] => by simp [ltElems, lexLt]
  | x :: xs, y :: ys => by rw [ltElems, lexLt, ltElems_eq xs ys]

theorem ltMembers_eq : ∀ xs ys : List (List Nat × Value F), ltMembers fo xs ys = lexLt (pairLt (Value.lt fo)) xs ys
  | [], [] => by simp [ltMembers, lexLt]
  | [], _ :: _ => by simp [ltMembers, lexLt]
  | _ :: _, [] => by simp [ltMembers, lexLt]
  | (k, x) :: xs, (l, y) :: ys => by rw [ltMembers, lexLt, ltMembers_eq xs ys]; rfl

theorem lt_arr (xs ys : List (Value F)) : Value.lt fo (.arr xs) (.arr ys) = lexLt (Value.lt fo) xs ys := by
  rw [Value.lt, ltElems_eq]

theorem lt_obj (xs ys : List (List Nat × Value F)) : Value.lt fo (.obj xs) (.obj ys) = lexLt (pairLt (Value.lt fo)) xs ys := by
  rw [Value.lt, ltMembers_eq]

theorem ltKey_asymm {k l : List Nat} (h : ltKey k l = true) : ltKey l k = false := by
  rw [ltKey_false]
  rw [ltKey_iff] at h
  exact List.lt_asymm h

theorem ltKey_irrefl (k : List Nat) : ltKey k k = false := by
  rw [ltKey_false]; exact List.lt_irrefl _

theorem lexLt_asymm {α : Type} {r : α → α → Bool} : ∀ xs ys : List α,
    (∀ x ∈ xs, ∀ y ∈ ys, r x y = true → r y x = false) → lexLt r xs ys = true → lexLt r ys xs = false
  | [], [], _, h => by cases h
  | [], _ :: _, _, _ => rfl
  | _ :: _, [], _, h => by cases h
  | x :: xs, y :: ys, hr, h => by
    rw [lexLt] at h ⊢
    cases h1 : r x y with
    | true => rw [hr x (by simp) y (by simp) h1]; rfl
    | false =>
      rw [h1, if_neg (by simp)] at h
      cases h2 : r y x with
      | true => rw [h2] at h; cases h
      | false =>
        rw [h2, if_neg (by simp)] at h
        rw [if_neg (by simp), if_neg (by simp)]
        exact lexLt_asymm xs ys (fun x hx y hy => hr x (by simp [hx]) y (by simp [hy])) h

mutual
theorem lt_asymm (ha : ∀ a b, fo.lt a b = true → fo.lt b a = false) : ∀ v w : Value F, Value.lt fo v w = true → Value.lt fo w v = false
  | .null, w, h => by cases w <;> simp [Value.lt] at h
  | .bool a, w, h => by
    cases w <;> simp [Value.lt] at h ⊢
    simp [h]
  | .int a, w, h => by
    cases w <;> simp [Value.lt] at h ⊢
    · omega
    · exact ha _ _ h
  | .flt a, w, h => by
    cases w <;> simp [Value.lt] at h ⊢
    · exact ha _ _ h
    · exact ha _ _ h
  | .str s, w, h => by
    cases w <;> simp [Value.lt] at h ⊢
    exact ltKey_asymm h
  | .arr xs, w, h => by
    cases w with
    | arr ys =>
      rw [lt_arr] at h ⊢
      exact lexLt_asymm xs ys (fun x hx y _ => lt_asymm_elems ha xs x hx y) h
    | _ => simp [Value.lt] at h
  | .obj xs, w, h => by
    cases w with
    | obj ys =>
      rw [lt_obj] at h ⊢
      refine lexLt_asymm xs ys (fun x hx y _ hxy => ?_) h
      unfold pairLt at hxy ⊢
      simp only [Bool.or_eq_true, Bool.and_eq_true, Bool.not_eq_true'] at hxy
      rcases hxy with hk | ⟨hk, hv⟩
      · simp [hk, ltKey_asymm hk]
      · simp [hk, lt_asymm_members ha xs x hx y.2 hv]
    | _ => simp [Value.lt] at h

theorem lt_asymm_elems (ha : ∀ a b, fo.lt a b = true → fo.lt b a = false) : ∀ (xs : List (Value F)), ∀ x ∈ xs, ∀ w,
    Value.lt fo x w = true → Value.lt fo w x = false
  | [], x, hx, _ => by cases hx
  | y :: xs, x, hx, w => fun h => by
    rcases List.mem_cons.1 hx with e | hx
    · rw [e] at h ⊢; exact lt_asymm ha y w h
    · exact lt_asymm_elems ha xs x hx w h

theorem lt_asymm_members (ha : ∀ a b, fo.lt a b = true → fo.lt b a = false) : ∀ (xs : List (List Nat × Value F)), ∀ x ∈ xs, ∀ w,
    Value.lt fo x.2 w = true → Value.lt fo w x.2 = false
  | [], x, hx, _ => by cases hx
  | (k, y) :: xs, x, hx, w => fun h => by
    rcases List.mem_cons.1 hx with e | hx
    · rw [e] at h ⊢; exact lt_asymm ha y w h
    · exact lt_asymm_members ha xs x hx w h
end

/-! ## Strict weak orders -/

theorem _root_.Spec.StrictWeak.split {α : Type} {P : α → Prop} {r : α → α → Bool} (h : StrictWeak P r) {a b c : α} (ha : P a) (hb : P b) (hc : P c)
    (hac : r a c = true) : r a b = true ∨ r b c = true := by
  cases h1 : r a b with
  | true => exact .inl rfl
  | false =>
    cases h2 : r b c with
    | true => exact .inr rfl
    | false =>
      exfalso
      cases h3 : r b a with
      | true => rw [h.trans b a c hb ha hc h3 hac] at h2; cases h2
      | false =>
        cases h4 : r c b with
        | true => rw [h.trans a c b ha hc hb hac h4] at h1; cases h1
        | false => rw [(h.incomp a b c ha hb hc h1 h3 h2 h4).1] at hac; cases hac

theorem _root_.Spec.StrictWeak.asymm {α : Type} {P : α → Prop} {r : α → α → Bool} (h : StrictWeak P r) {a b : α} (ha : P a) (hb : P b)
    (hab : r a b = true) : r b a = false := by
  cases h1 : r b a with
  | false => rfl
  | true =>
    have := h.trans a b a ha hb ha hab h1
    rw [h.irrefl a ha] at this; cases this

theorem lexLt_strictWeak {α : Type} {P : α → Prop} {r : α → α → Bool} (h : StrictWeak P r) :
    StrictWeak (fun l : List α => ∀ x ∈ l, P x) (lexLt r) where
  irrefl := by
    intro l
    induction l with
    | nil => intro _; rfl
    | cons x l ih =>
      intro hl
      rw [lexLt, h.irrefl x (hl x (by simp)), ih fun y hy => hl y (by simp [hy])]; rfl
  trans := by
    intro l1
    induction l1 with
    | nil =>
      intro l2 l3 _ _ _ h1 h2
      cases l3 with
      | cons => rfl
      | nil => cases l2 <;> cases h2
    | cons a l1 ih =>
      intro l2 l3 p1 p2 p3 h1 h2
      cases l2 with
      | nil => cases h1
      | cons b l2 =>
        cases l3 with
        | nil => cases h2
        | cons c l3 =>
          have pa := p1 a (by simp)
          have pb := p2 b (by simp)
          have pc := p3 c (by simp)
          rw [lexLt] at h1 h2 ⊢
          cases ab : r a b with
          | true =>
            have : r a c = true := by
              rcases h.split pa pc pb ab with h' | h'
              · exact h'
              · cases bc : r b c with
                | true => exact h.trans a b c pa pb pc ab bc
                | false => rw [bc, h'] at h2; cases h2
            rw [this]; rfl
          | false =>
            rw [ab] at h1
            cases ba : r b a with
            | true => rw [ba] at h1; cases h1
            | false =>
              rw [ba] at h1
              cases bc : r b c with
              | true =>
                have : r a c = true := by
                  rcases h.split pb pa pc bc with h' | h'
                  · rw [ba] at h'; cases h'
                  · exact h'
                rw [this]; rfl
              | false =>
                rw [bc] at h2
                cases cb : r c b with
                | true => rw [cb] at h2; cases h2
                | false =>
                  rw [cb] at h2
                  have := h.incomp a b c pa pb pc ab ba bc cb
                  rw [this.1, this.2]
                  exact ih l2 l3 (fun y hy => p1 y (by simp [hy])) (fun y hy => p2 y (by simp [hy]))
                    (fun y hy => p3 y (by simp [hy])) h1 h2
  incomp := by
    intro l1
    induction l1 with
    | nil =>
      intro l2 l3 _ _ _ h1 h2 h3 h4
      cases l2 with
      | cons => cases h1
      | nil =>
        cases l3 with
        | cons => cases h3
        | nil => exact ⟨rfl, rfl⟩
    | cons a l1 ih =>
      intro l2 l3 p1 p2 p3 h1 h2 h3 h4
      cases l2 with
      | nil => cases h2
      | cons b l2 =>
        cases l3 with
        | nil => cases h4
        | cons c l3 =>
          have pa := p1 a (by simp)
          have pb := p2 b (by simp)
          have pc := p3 c (by simp)
          have inc : ∀ x y (xs ys : List α), lexLt r (x :: xs) (y :: ys) = false → lexLt r (y :: ys) (x :: xs) = false →
              r x y = false ∧ r y x = false ∧ lexLt r xs ys = false ∧ lexLt r ys xs = false := by
            intro x y xs ys e1 e2
            rw [lexLt] at e1 e2
            cases e3 : r x y with
            | true => rw [e3] at e1; cases e1
            | false =>
              cases e4 : r y x with
              | true => rw [e4] at e2; cases e2
              | false =>
                rw [e3, e4] at e1 e2
                exact ⟨rfl, rfl, e1, e2⟩
          obtain ⟨ab, ba, h1, h2⟩ := inc a b l1 l2 h1 h2
          obtain ⟨bc, cb, h3, h4⟩ := inc b c l2 l3 h3 h4
          have := h.incomp a b c pa pb pc ab ba bc cb
          have ih := ih l2 l3 (fun y hy => p1 y (by simp [hy])) (fun y hy => p2 y (by simp [hy]))
            (fun y hy => p3 y (by simp [hy])) h1 h2 h3 h4
          rw [lexLt, lexLt, this.1, this.2]
          exact ih

theorem lexLt_total {α : Type} {P : α → Prop} {r : α → α → Bool} (h : ∀ a b, P a → P b → r a b = false → r b a = false → a = b) :
    ∀ xs ys : List α, (∀ x ∈ xs, P x) → (∀ x ∈ ys, P x) → lexLt r xs ys = false → lexLt r ys xs = false → xs = ys
  | [], [], _, _, _, _ => rfl
  | [], _ :: _, _, _, h, _ => by cases h
  | _ :: _, [], _, _, _, h => by cases h
  | x :: xs, y :: ys, p1, p2, e1, e2 => by
    rw [lexLt] at e1 e2
    cases e3 : r x y with
    | true => rw [e3] at e1; cases e1
    | false =>
      cases e4 : r y x with
      | true => rw [e4] at e2; cases e2
      | false =>
        rw [e3, e4] at e1 e2
        rw [h x y (p1 x (by simp)) (p2 y (by simp)) e3 e4,
          lexLt_total h xs ys (fun y hy => p1 y (by simp [hy])) (fun y hy => p2 y (by simp [hy])) e1 e2]

theorem pairLt_cases {α : Type} (r : α → α → Bool) (p q : List Nat × α) :
    (p.1 < q.1 ∧ pairLt r p q = true) ∨ (q.1 < p.1 ∧ pairLt r p q = false) ∨ (p.1 = q.1 ∧ pairLt r p q = r p.2 q.2) := by
  unfold pairLt
  by_cases h1 : p.1 < q.1
  · left; exact ⟨h1, by rw [(ltKey_iff _ _).2 h1]; rfl⟩
  · rw [(ltKey_false _ _).2 h1]
    by_cases h2 : q.1 < p.1
    · right; left; exact ⟨h2, by rw [(ltKey_iff _ _).2 h2]; rfl⟩
    · right; right
      exact ⟨key_total h1 h2, by rw [(ltKey_false _ _).2 h2]; rfl⟩

theorem key_irrefl {k : List Nat} (h : k < k) : False := List.lt_irrefl _ h

theorem pairLt_strictWeak {α : Type} {P : α → Prop} {r : α → α → Bool} (h : StrictWeak P r) :
    StrictWeak (fun p : List Nat × α => P p.2) (pairLt r) where
  irrefl := by
    intro a pa
    rcases pairLt_cases r a a with ⟨k, _⟩ | ⟨k, e⟩ | ⟨_, e⟩
    · exact (key_irrefl k).elim
    · exact e
    · rw [e]; exact h.irrefl _ pa
  trans := by
    intro a b c pa pb pc h1 h2
    rcases pairLt_cases r a b with ⟨k1, _⟩ | ⟨_, e⟩ | ⟨k1, e1⟩
    · have : a.1 < c.1 := by
        rcases pairLt_cases r b c with ⟨k2, _⟩ | ⟨_, e⟩ | ⟨k2, e2⟩
        · exact key_trans k1 k2
        · rw [e] at h2; cases h2
        · rw [← k2]; exact k1
      unfold pairLt
      rw [(ltKey_iff _ _).2 this]; rfl
    · rw [e] at h1; cases h1
    · rw [e1] at h1
      rcases pairLt_cases r b c with ⟨k2, _⟩ | ⟨_, e⟩ | ⟨k2, e2⟩
      · unfold pairLt
        rw [k1, (ltKey_iff _ _).2 k2]; rfl
      · rw [e] at h2; cases h2
      · rw [e2] at h2
        have := h.trans _ _ _ pa pb pc h1 h2
        unfold pairLt
        rw [k1, k2, this, ltKey_irrefl]; rfl
  incomp := by
    intro a b c pa pb pc h1 h2 h3 h4
    have key : ∀ p q : List Nat × α, pairLt r p q = false → pairLt r q p = false → p.1 = q.1 ∧ r p.2 q.2 = false ∧ r q.2 p.2 = false := by
      intro p q e1 e2
      rcases pairLt_cases r p q with ⟨_, e⟩ | ⟨k, _⟩ | ⟨k, e⟩
      · rw [e] at e1; cases e1
      · unfold pairLt at e2
        rw [(ltKey_iff _ _).2 k] at e2; cases e2
      · refine ⟨k, by rw [← e]; exact e1, ?_⟩
        unfold pairLt at e2
        rw [k, ltKey_irrefl] at e2
        exact e2
    obtain ⟨k1, h1, h2⟩ := key a b h1 h2
    obtain ⟨k2, h3, h4⟩ := key b c h3 h4
    have := h.incomp _ _ _ pa pb pc h1 h2 h3 h4
    unfold pairLt
    rw [k1, k2, ltKey_irrefl, this.1, this.2]
    exact ⟨rfl, rfl⟩

theorem hasKind_arr {Q : F → Prop} {k : Kind} {v : Value F} (h : HasKind Q (.arr k) v) : ∃ xs, v = .arr xs ∧ ∀ x ∈ xs, HasKind Q k x := by
  cases h with | arr h => exact ⟨_, rfl, h⟩

theorem hasKind_obj {Q : F → Prop} {k : Kind} {v : Value F} (h : HasKind Q (.obj k) v) : ∃ xs, v = .obj xs ∧ ∀ x ∈ xs, HasKind Q k x.2 := by
  cases h with | obj h => exact ⟨_, rfl, h⟩

theorem int_strictWeak : StrictWeak (fun _ : Int => True) (fun a b => decide (a < b)) where
  irrefl := by simp
  trans := by simp; omega
  incomp := by simp; omega

theorem key_strictWeak : StrictWeak (fun _ : List Nat => True) ltKey where
  irrefl := fun k _ => ltKey_irrefl k
  trans := by
    intro a b c _ _ _ h1 h2
    rw [ltKey_iff] at *
    exact key_trans h1 h2
  incomp := by
    intro a b c _ _ _ h1 h2 h3 h4
    rw [ltKey_false] at *
    rw [key_total h1 h2, key_total h3 h4]
    exact ⟨List.lt_irrefl _, by rw [ltKey_false]; exact List.lt_irrefl _⟩

/-- Values of one kind are ordered as their contents. -/
theorem strictWeak_map {α β : Type} {P : α → Prop} {Q : β → Prop} {r : α → α → Bool} {s : β → β → Bool} (h : StrictWeak P r)
    (f : α → β) (hr : ∀ a b, s (f a) (f b) = r a b) (hQ : ∀ b, Q b → ∃ a, b = f a ∧ P a) : StrictWeak Q s where
  irrefl := by
    intro b hb
    obtain ⟨a, rfl, ha⟩ := hQ b hb
    rw [hr]; exact h.irrefl a ha
  trans := by
    intro a b c ha hb hc
    obtain ⟨a', rfl, pa⟩ := hQ a ha
    obtain ⟨b', rfl, pb⟩ := hQ b hb
    obtain ⟨c', rfl, pc⟩ := hQ c hc
    rw [hr, hr, hr]; exact h.trans _ _ _ pa pb pc
  incomp := by
    intro a b c ha hb hc
    obtain ⟨a', rfl, pa⟩ := hQ a ha
    obtain ⟨b', rfl, pb⟩ := hQ b hb
    obtain ⟨c', rfl, pc⟩ := hQ c hc
    rw [hr, hr, hr, hr, hr, hr]; exact h.incomp _ _ _ pa pb pc

theorem bool_strictWeak : StrictWeak (fun _ : Bool => True) (fun a b => !a && b) where
  irrefl := by simp
  trans := by
    intro a b c
    cases a <;> cases b <;> cases c <;> simp
  incomp := by
    intro a b c
    cases a <;> cases b <;> cases c <;> simp

theorem lt_strictWeak {Q : F → Prop} (hQ : StrictWeak Q fo.lt) (k : Kind) : StrictWeak (HasKind Q k) (Value.lt fo) := by
  induction k with
  | null =>
    have : ∀ v : Value F, HasKind Q .null v → v = .null := by intro v h; cases h; rfl
    refine ⟨?_, ?_, ?_⟩
    · intro a ha; rw [this a ha]; simp [Value.lt]
    · intro a b c ha hb hc; rw [this a ha, this b hb]; simp [Value.lt]
    · intro a b c ha hb hc; rw [this a ha, this c hc]; simp [Value.lt]
  | bool => exact strictWeak_map bool_strictWeak Value.bool (fun a b => by simp [Value.lt]) (fun v h => by cases h; exact ⟨_, rfl, trivial⟩)
  | int => exact strictWeak_map int_strictWeak Value.int (fun a b => by simp [Value.lt]) (fun v h => by cases h; exact ⟨_, rfl, trivial⟩)
  | flt => exact strictWeak_map hQ Value.flt (fun a b => by simp [Value.lt]) (fun v h => by cases h with | flt h => exact ⟨_, rfl, h⟩)
  | str => exact strictWeak_map key_strictWeak Value.str (fun a b => by simp [Value.lt]) (fun v h => by cases h; exact ⟨_, rfl, trivial⟩)
  | arr k ih => exact strictWeak_map (lexLt_strictWeak ih) Value.arr (lt_arr fo) (fun v h => hasKind_arr h)
  | obj k ih => exact strictWeak_map (lexLt_strictWeak (pairLt_strictWeak ih)) Value.obj (lt_obj fo) (fun v h => hasKind_obj h)

/-- Without floating point numbers, values of one kind that are not ordered are the same. -/
theorem lt_total (k : Kind) : ∀ v w : Value F, HasKind (fun _ => False) k v → HasKind (fun _ => False) k w →
    Value.lt fo v w = false → Value.lt fo w v = false → v = w := by
  induction k with
  | null => intro v w hv hw; cases hv; cases hw; intros; rfl
  | bool =>
    intro v w hv hw
    cases hv with | @bool a => cases hw with | @bool b => cases a <;> cases b <;> simp [Value.lt]
  | int =>
    intro v w hv hw
    cases hv; cases hw
    simp only [Value.lt, decide_eq_false_iff_not, Value.int.injEq]
    omega
  | flt => intro v w hv; cases hv with | flt h => exact h.elim
  | str =>
    intro v w hv hw
    cases hv; cases hw
    simp only [Value.lt, ltKey_false, Value.str.injEq]
    exact key_total
  | arr k ih =>
    intro v w hv hw
    obtain ⟨xs, rfl, hx⟩ := hasKind_arr hv
    obtain ⟨ys, rfl, hy⟩ := hasKind_arr hw
    rw [lt_arr, lt_arr]
    intro h1 h2
    rw [lexLt_total ih xs ys hx hy h1 h2]
  | obj k ih =>
    intro v w hv hw
    obtain ⟨xs, rfl, hx⟩ := hasKind_obj hv
    obtain ⟨ys, rfl, hy⟩ := hasKind_obj hw
    rw [lt_obj, lt_obj]
    intro h1 h2
    refine congrArg _ (lexLt_total (P := fun p => HasKind (fun _ => False) k p.2) ?_ xs ys hx hy h1 h2)
    intro p q hp hq e1 e2
    rcases pairLt_cases (Value.lt fo) p q with ⟨_, e⟩ | ⟨l, _⟩ | ⟨l, e⟩
    · rw [e] at e1; cases e1
    · unfold pairLt at e2
      rw [(ltKey_iff _ _).2 l] at e2; cases e2
    · rw [e] at e1
      unfold pairLt at e2
      rw [l, ltKey_irrefl] at e2
      exact Prod.ext l (ih _ _ hp hq e1 e2)

theorem kind_floatFree {k : Kind} : ∀ {v : Value F}, HasKind (fun _ => False) k v → FloatFree v := by
  induction k with
  | flt => intro v h; cases h with | flt h => exact h.elim
  | arr k ih =>
    intro v h f hf
    obtain ⟨xs, rfl, hx⟩ := hasKind_arr h
    cases hf with | elem h1 h2 => exact ih (hx _ h1) f h2
  | obj k ih =>
    intro v h f hf
    obtain ⟨xs, rfl, hx⟩ := hasKind_obj h
    cases hf with | member h1 h2 => exact ih (hx _ h1) f h2
  | _ => intro v h f hf; cases h; cases hf

end Configor
