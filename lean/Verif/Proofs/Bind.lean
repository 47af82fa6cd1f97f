import Verif.Proofs.Convert
/-! # Lemmas about `CONFIGOR_BIND` -/
namespace Configor
open Spec ValueOps

variable {F T S : Type}

/-- What `to_value` of a bound struct works on. -/
def Shape (c : Value F) : Prop := c = .null ∨ ∃ ms, c = .obj ms ∧ Sorted ms

instance (f : Field F S) (s : S) : Decidable (Omitted f s) := inferInstanceAs (Decidable (_ ∧ _))

theorem write_step (f : Field F S) (s : S) {c : Value F} (hc : Shape c) {y : Value F} (hy : f.conv.toValue (f.get s) = .ok y) :
    ∃ c', f.write s c = .ok c' ∧ Shape c' ∧
      (∀ k, member c' k = if k = f.name ∧ ¬ Omitted f s then some y else member c k) ∧ (¬ Omitted f s → c'.type = .obj) ∧
      (c.type = .obj → c'.type = .obj) := by
  unfold Field.write
  by_cases ho : Omitted f s
  · have : (f.optional && f.isZero (f.get s)) = true := by rw [ho.1, ho.2]; rfl
    rw [if_pos this]
    exact ⟨c, rfl, hc, fun k => by simp [ho], fun h => absurd ho h, id⟩
  · have : ¬ (f.optional && f.isZero (f.get s)) = true := by
      intro h
      rw [Bool.and_eq_true] at h
      exact ho h
    rw [if_neg this, hy]
    rcases hc with rfl | ⟨ms, rfl, hm⟩
    · have e := withKey_null f.name (assign y)
      refine ⟨.obj (put f.name y []), ?_, .inr ⟨_, rfl, put_sorted (by simp [Sorted])⟩, fun k => ?_, fun _ => rfl, fun _ => rfl⟩
      · show (match withKey f.name (assign y) .null with | (.ok _, c) => _ | (.error e, _) => _) = _
        rw [e]; rfl
      · show (put f.name y []).lookup k = _
        rw [put_lookup (by simp [Sorted])]
        simp [ho, member]
    · have e := withKey_obj hm f.name (assign y)
      refine ⟨.obj (put f.name y ms), ?_, .inr ⟨_, rfl, put_sorted hm⟩, fun k => ?_, fun _ => rfl, fun _ => rfl⟩
      · show (match withKey f.name (assign y) (.obj ms) with | (.ok _, c) => _ | (.error e, _) => _) = _
        rw [e]; rfl
      · show (put f.name y ms).lookup k = _
        rw [put_lookup hm]
        simp [ho, member]

theorem writeAll_spec (s : S) (fs : List (Field F S)) (hn : (fs.map Field.name).Nodup) (hy : ∀ f ∈ fs, ∃ y, f.conv.toValue (f.get s) = .ok y) :
    ∀ c, Shape c → ∃ c', writeAll s fs c = .ok c' ∧ Shape c' ∧
      (∀ f ∈ fs, (¬ Omitted f s → ∃ y, f.conv.toValue (f.get s) = .ok y ∧ member c' f.name = some y) ∧ (Omitted f s → member c' f.name = member c f.name)) ∧
      (∀ k, k ∉ fs.map Field.name → member c' k = member c k) ∧ ((∃ f ∈ fs, ¬ Omitted f s) → c'.type = .obj) ∧
      (c.type = .obj → c'.type = .obj) ∧ ((∀ f ∈ fs, Omitted f s) → c' = c) := by
  induction fs with
  | nil => intro c hc; exact ⟨c, rfl, hc, by simp, fun _ _ => rfl, by simp, id, fun _ => rfl⟩
  | cons f fs ih =>
    intro c hc
    rw [List.map_cons, List.nodup_cons] at hn
    obtain ⟨y, h1⟩ := hy f (by simp)
    obtain ⟨d, h2, h3, h4, h4a, h4b⟩ := write_step f s hc h1
    obtain ⟨c', h5, h6, h7, h8, h9, h10, h11⟩ := ih hn.2 (fun g hg => hy g (by simp [hg])) d h3
    have hw : writeAll s (f :: fs) c = writeAll s fs d := by
      show (do writeAll s fs (← f.write s c)) = _
      rw [h2]; rfl
    refine ⟨c', by rw [hw, h5], h6, ?_, ?_, ?_, fun h => h10 (h4b h), ?_⟩
    · intro g hg
      rcases List.mem_cons.1 hg with rfl | hg
      · constructor
        · intro ho
          exact ⟨y, h1, by rw [h8 _ hn.1, h4, if_pos ⟨rfl, ho⟩]⟩
        · intro ho
          rw [h8 _ hn.1, h4, if_neg (fun h => h.2 ho)]
      · refine ⟨(h7 g hg).1, fun ho => ?_⟩
        rw [(h7 g hg).2 ho, h4, if_neg]
        intro h
        exact hn.1 (h.1 ▸ List.mem_map_of_mem hg)
    · intro k hk
      rw [List.map_cons, List.mem_cons] at hk
      rw [h8 k (fun h => hk (.inr h)), h4, if_neg (fun h => hk (.inl h.1))]
    · rintro ⟨g, hg, ho⟩
      rcases List.mem_cons.1 hg with rfl | hg
      · exact h10 (h4a ho)
      · exact h9 ⟨g, hg, ho⟩
    · intro h
      rw [h11 fun g hg => h g (by simp [hg])]
      have ho := h f (by simp)
      have : f.write s c = .ok c := by
        unfold Field.write
        rw [if_pos (by rw [ho.1, ho.2]; rfl)]
      rw [this] at h2
      cases h2; rfl

/-! ## Reading -/

theorem member_count {c : Value F} (hc : Shape c) (k : List Nat) : (c.count k == 0) = (member c k).isNone := by
  rcases hc with rfl | ⟨ms, rfl, hm⟩
  · rfl
  · rw [count_eq hm]
    show _ = (ms.lookup k).isNone
    cases ms.lookup k <;> rfl

theorem read_some (f : Field F S) {c : Value F} (hc : Shape c) {y : Value F} (hy : member c f.name = some y) (s : S) :
    f.read c s = match f.conv.getInto y (f.get s) with
      | (.ok _, t) => (.ok (), f.set t s)
      | (.error e, t) => (.error e, f.set t s) := by
  unfold Field.read
  rw [member_count hc, hy]
  rcases hc with rfl | ⟨ms, rfl, hm⟩
  · cases hy
  · rw [if_neg (by simp), atKey_read hm hy]
    rfl

theorem read_none_optional (f : Field F S) {c : Value F} (hc : Shape c) (hy : member c f.name = none) (ho : f.optional = true) (s : S) :
    f.read c s = (.ok (), s) := by
  unfold Field.read
  rw [member_count hc, hy, ho]
  rfl

theorem read_none_required (f : Field F S) {ms : Map.T (Value F)} (hm : Sorted ms) (hy : ms.lookup f.name = none) (ho : f.optional = false) (s : S) :
    f.read (.obj ms) s = (.error (.exn .outOfRange), s) := by
  unfold Field.read
  rw [ho, atKey_none hm hy]
  rfl

/-- A read changes only the field, as far as the bound fields go. -/
theorem read_sets (f : Field F S) (c : Value F) (s : S) : (f.read c s).2 = s ∨ ∃ t, (f.read c s).2 = f.set t s := by
  unfold Field.read
  split
  · exact .inl rfl
  · split
    · exact .inl rfl
    · rename_i x _
      rcases f.conv.getInto x (f.get s) with ⟨_ | _, t⟩
      · exact .inr ⟨t, rfl⟩
      · exact .inr ⟨t, rfl⟩

theorem read_other {f g : Field F S} (h : ∀ x s, g.get (f.set x s) = g.get s) (c : Value F) (s : S) : g.get (f.read c s).2 = g.get s := by
  rcases read_sets f c s with e | ⟨t, e⟩
  · rw [e]
  · rw [e, h]

theorem readAll_cons (c : Value F) (f : Field F S) (fs : List (Field F S)) (s : S) :
    readAll c (f :: fs) s = match f.read c s with
      | (.ok _, s) => readAll c fs s
      | (.error e, s) => (.error e, s) := by
  rw [readAll]; rfl

theorem readAll_other {g : Field F S} (c : Value F) (fs : List (Field F S)) (h : ∀ f ∈ fs, ∀ x s, g.get (f.set x s) = g.get s) (s : S) :
    g.get (readAll c fs s).2 = g.get s := by
  induction fs generalizing s with
  | nil => rfl
  | cons f fs ih =>
    rw [readAll_cons]
    have h1 := read_other (h f (by simp)) c s
    rcases hr : f.read c s with ⟨_ | _, s'⟩
    · rw [hr] at h1; exact h1
    · rw [hr] at h1
      exact (ih (fun f' hf' => h f' (by simp [hf'])) s').trans h1

theorem lenses_cons {f : Field F S} {fs : List (Field F S)} (h : Lenses (f :: fs)) : Lenses fs :=
  ⟨fun g hg => h.same g (by simp [hg]), (List.pairwise_cons.1 h.other).2⟩

/-- Every field is read on its own: with what the fields are read from and into the initial
content of the field. -/
theorem readAll_fields {c : Value F} (hc : Shape c) : ∀ (fs : List (Field F S)), Lenses fs → ∀ s s', readAll c fs s = (.ok (), s') →
    ∀ f ∈ fs, (member c f.name = none → f.optional = true) ∧
      (member c f.name = none → f.get s' = f.get s) ∧
      (∀ y, member c f.name = some y → ∃ b, f.conv.getInto y (f.get s) = (.ok b, f.get s')) := by
  intro fs
  induction fs with
  | nil => intro _ s s' _ f hf; cases hf
  | cons g fs ih =>
    intro hl s s' hr f hf
    rw [readAll_cons] at hr
    have hp := List.pairwise_cons.1 hl.other
    rcases hg : g.read c s with ⟨_ | _, s1⟩
    · rw [hg] at hr; cases hr
    · rw [hg] at hr
      dsimp only at hr
      rcases List.mem_cons.1 hf with rfl | hf
      · have hk : f.get s' = f.get s1 := by
          have := readAll_other (g := f) c fs (fun f' hf' => (hp.1 f' hf').2) s1
          rw [hr] at this; exact this
        cases hm : member c f.name with
        | none =>
          have ho : f.optional = true := by
            cases e : f.optional with
            | true => rfl
            | false =>
              rcases hc with rfl | ⟨ms, rfl, hs⟩
              · unfold Field.read at hg; rw [e] at hg; cases hg
              · rw [read_none_required f hs hm e] at hg; cases hg
          rw [read_none_optional f hc hm ho] at hg
          cases hg
          exact ⟨fun _ => ho, fun _ => hk, fun y hy => by cases hy⟩
        | some y =>
          refine ⟨fun h => (by cases h), fun h => (by cases h), fun y' hy' => ?_⟩
          cases hy'
          rw [read_some f hc hm] at hg
          rcases hx : f.conv.getInto y (f.get s) with ⟨_ | b, t⟩
          · rw [hx] at hg; cases hg
          · rw [hx] at hg; cases hg
            exact ⟨b, by rw [hk, hl.same f (by simp)]⟩
      · have h1 : f.get s1 = f.get s := by
          have := read_other (hp.1 f hf).1 c s
          rw [hg] at this; exact this
        have := ih (lenses_cons hl) s1 s' hr f hf
        rw [h1] at this
        exact this

/-- When reads do not stop and no required member is missing, the whole read succeeds. -/
theorem readAll_ok {c : Value F} (hc : Shape c) : ∀ (fs : List (Field F S)), Lenses fs → ∀ s,
    (∀ f ∈ fs, (member c f.name = none ∧ f.optional = true) ∨ ∃ y b t, member c f.name = some y ∧ f.conv.getInto y (f.get s) = (.ok b, t)) →
    ∃ s', readAll c fs s = (.ok (), s') := by
  intro fs
  induction fs with
  | nil => intro _ s _; exact ⟨s, rfl⟩
  | cons g fs ih =>
    intro hl s h
    have hp := List.pairwise_cons.1 hl.other
    have hg : ∃ s1, g.read c s = (.ok (), s1) := by
      rcases h g (by simp) with ⟨h1, h2⟩ | ⟨y, b, t, h1, h2⟩
      · exact ⟨s, read_none_optional g hc h1 h2 s⟩
      · exact ⟨g.set t s, by rw [read_some g hc h1, h2]⟩
    obtain ⟨s1, hg⟩ := hg
    rw [readAll_cons, hg]
    refine ih (lenses_cons hl) s1 fun f hf => ?_
    have h1 : f.get s1 = f.get s := by
      have := read_other (hp.1 f hf).1 c s
      rw [hg] at this; exact this
    rw [h1]
    exact h f (by simp [hf])

theorem readAll_missing {ms : Map.T (Value F)} (hm : Sorted ms) : ∀ (fs : List (Field F S)), (∀ f ∈ fs, Safe f.conv) → ∀ f ∈ fs,
    f.optional = false → ms.lookup f.name = none → ∀ s, ∃ s', readAll (.obj ms) fs s = (.error (.exn .outOfRange), s') := by
  intro fs
  induction fs with
  | nil => intro _ f hf; cases hf
  | cons g fs ih =>
    intro hs f hf ho hn s
    rw [readAll_cons]
    have hc : Shape (.obj ms) := .inr ⟨ms, rfl, hm⟩
    cases hg : ms.lookup g.name with
    | none =>
      cases hgo : g.optional with
      | true =>
        rw [read_none_optional g hc hg hgo]
        rcases List.mem_cons.1 hf with rfl | hf
        · rw [ho] at hgo; cases hgo
        · exact ih (fun f' hf' => hs f' (by simp [hf'])) f hf ho hn s
      | false => exact ⟨s, by rw [read_none_required g hm hg hgo]⟩
    | some y =>
      rw [read_some g hc hg]
      obtain ⟨b, t, hb⟩ := hs g (by simp) y (g.get s)
      rw [hb]
      rcases List.mem_cons.1 hf with rfl | hf
      · rw [hn] at hg; cases hg
      · exact ih (fun f' hf' => hs f' (by simp [hf'])) f hf ho hn _

end Configor
