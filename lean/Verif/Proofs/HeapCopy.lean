import Verif.Proofs.HeapRepr
/-!
# Copying and destroying
-/
namespace Spec
open Configor

variable {F : Type}

/-- The heap without some blocks. -/
def without (h : Heap F) (fp : List Nat) : Heap F := { h with mem := fun a => if a ∈ fp then none else h.mem a }

theorem without_nil (h : Heap F) : without h [] = h := by simp [without]

theorem without_mem {h : Heap F} {fp : List Nat} {a : Nat} (ha : a ∉ fp) : (without h fp).mem a = h.mem a := by
  simp [without, ha]

theorem without_append (h : Heap F) (f g : List Nat) : without (without h f) g = without h (f ++ g) := by
  simp only [without, List.mem_append]
  congr 1
  funext a
  by_cases h1 : a ∈ g <;> by_cases h2 : a ∈ f <;> simp [h1, h2]

theorem free_ok {h : Heap F} {a : Nat} {b : Block F} (hb : h.mem a = some b) :
    Heap.free a h = (.ok (), without h [a]) := by
  simp only [Heap.free, hb, without]
  refine Prod.ext rfl ?_
  simp only
  congr 1
  funext x
  simp [upd]

theorem destroy_flat {h : Heap F} {n : Nat} {c : Cell F} {v : Value F} {fp : List Nat} (hr : Flat h.mem c v fp) :
    Heap.destroy n c h = (.ok (), without h fp) := by
  cases c <;> cases v <;> simp only [Flat] at hr
  · subst hr; cases n <;> simp [Heap.destroy, M.pure_def, without_nil]
  · obtain ⟨_, hr⟩ := hr; subst hr; cases n <;> simp [Heap.destroy, M.pure_def, without_nil]
  · obtain ⟨_, hr⟩ := hr; subst hr; cases n <;> simp [Heap.destroy, M.pure_def, without_nil]
  · obtain ⟨_, hr⟩ := hr; subst hr; cases n <;> simp [Heap.destroy, M.pure_def, without_nil]
  · obtain ⟨hm, hr⟩ := hr
    subst hr
    rename_i a s
    have : Heap.string a h = (.ok s, h) := by simp only [Heap.string, hm]
    cases n <;> (simp only [Heap.destroy]; rw [M.bind_ok this]; exact free_ok hm)

theorem each_ok {n : Nat}
    (ih : ∀ {h : Heap F} {c : Cell F} {v : Value F} {fp : List Nat}, Repr h.mem n c v fp → fp.Nodup →
      Heap.destroy n c h = (.ok (), without h fp)) :
    ∀ {cs : List (Cell F)} {vs : List (Value F)} {fps : List (List Nat)} {h : Heap F}, All3 (Repr h.mem n) cs vs fps →
      fps.flatten.Nodup → Heap.each (Heap.destroy n) cs h = (.ok (), without h fps.flatten) := by
  intro cs
  induction cs with
  | nil =>
    intro vs fps h ha _
    cases ha
    simp [Heap.each, M.pure_def, without_nil]
  | cons c cs ihl =>
    intro vs fps h ha hn
    cases ha with
    | @cons _ _ f _ _ fs h1 h2 =>
      simp only [List.flatten_cons, List.nodup_append] at hn
      simp only [Heap.each]
      rw [M.bind_ok (ih h1 hn.1)]
      rw [ihl (h := without h f) (All3.imp h2 fun x y z hz hr => Repr.frame hr fun k hk => without_mem (by
        intro hkf
        exact hn.2.2 k hkf k (List.mem_flatten.2 ⟨z, hz, hk⟩) rfl)) hn.2.1]
      rw [without_append]
      simp

/-- The destructor frees exactly the blocks of the value. -/
theorem destroy_ok : ∀ {n : Nat} {h : Heap F} {c : Cell F} {v : Value F} {fp : List Nat}, Repr h.mem n c v fp → fp.Nodup →
    Heap.destroy n c h = (.ok (), without h fp) := by
  intro n
  induction n with
  | zero => intro h c v fp hr _; exact destroy_flat hr
  | succ n ih =>
    intro h c v fp hr hn
    rcases hr with hr | ⟨a, b, fps, h1, h2, h3, h4⟩
    · exact destroy_flat hr
    · subst h4
      simp only [List.nodup_cons] at hn
      have he := each_ok ih h3 hn.2
      have hw : (without h fps.flatten).mem a = some b := by rw [without_mem hn.1, h1]
      have hf := free_ok hw
      have hp : without (without h fps.flatten) [a] = without h (a :: fps.flatten) := by
        rw [without_append]
        simp only [without, List.mem_append, List.mem_cons, List.not_mem_nil, or_false]
        congr 1
        funext x
        simp only [Or.comm]
      rw [hp] at hf
      cases c <;> cases b <;> cases v <;> simp only [Node] at h2
      · subst h2
        rename_i a cs _
        have : Heap.vector a h = (.ok cs, h) := by simp only [Heap.vector, h1]
        simp only [Heap.destroy]
        simp only [Block.cells] at he
        rw [M.bind_ok this, M.bind_ok he, hf]
      · obtain ⟨h2, _⟩ := h2
        subst h2
        rename_i a ms _ _
        have : Heap.map a h = (.ok ms, h) := by simp only [Heap.map, h1]
        simp only [Heap.destroy]
        simp only [Block.cells] at he
        rw [M.bind_ok this, M.bind_ok he, hf]

/-! ## Copying -/

/-- Nothing is allocated beyond `next`. -/
def Fresh (h : Heap F) : Prop := ∀ a, h.next ≤ a → h.mem a = none

/-- `h'` comes from `h` by allocating: the old blocks are as they were. -/
structure Grew (h h' : Heap F) : Prop where
  next : h.next ≤ h'.next
  old : ∀ a, a < h.next → h'.mem a = h.mem a
  fresh : Fresh h'
  plan : h'.plan = h.plan
  tick : h.tick ≤ h'.tick

/-- No allocation failed in between. -/
def AllGood (h h' : Heap F) : Prop := ∀ t, h.tick ≤ t → t < h'.tick → h.plan t = true

/-- The last allocation in between failed. -/
def Failed (h h' : Heap F) : Prop := ∃ t, h.tick ≤ t ∧ t < h'.tick ∧ h.plan t = false

theorem Grew.refl {h : Heap F} (hf : Fresh h) : Grew h h := ⟨Nat.le_refl _, fun _ _ => rfl, hf, rfl, Nat.le_refl _⟩

theorem Grew.trans {h h' h'' : Heap F} (g : Grew h h') (g' : Grew h' h'') : Grew h h'' :=
  ⟨Nat.le_trans g.next g'.next, fun a ha => (g'.old a (Nat.lt_of_lt_of_le ha g.next)).trans (g.old a ha), g'.fresh,
    g'.plan.trans g.plan, Nat.le_trans g.tick g'.tick⟩

theorem AllGood.trans {h h' h'' : Heap F} (g : Grew h h') (a : AllGood h h') (b : AllGood h' h'') : AllGood h h'' := by
  intro t h1 h2
  rcases Nat.lt_or_ge t h'.tick with h3 | h3
  · exact a t h1 h3
  · rw [← g.plan]; exact b t h3 h2

theorem Failed.left {h h' h'' : Heap F} (a : Failed h h') (g' : Grew h' h'') : Failed h h'' := by
  obtain ⟨t, h1, h2, h3⟩ := a
  exact ⟨t, h1, Nat.lt_of_lt_of_le h2 g'.tick, h3⟩

theorem Failed.right {h h' h'' : Heap F} (g : Grew h h') (b : Failed h' h'') : Failed h h'' := by
  obtain ⟨t, h1, h2, h3⟩ := b
  exact ⟨t, Nat.le_trans g.tick h1, h2, by rw [← g.plan]; exact h3⟩

/-- What `attempt` does. -/
theorem attempt_cases {h : Heap F} (hf : Fresh h) :
    (∃ h', Heap.attempt h = (.ok (), h') ∧ Grew h h' ∧ AllGood h h' ∧ h'.mem = h.mem ∧ h'.next = h.next) ∨
    (∃ h', Heap.attempt h = (.error (.exn .badAlloc), h') ∧ Grew h h' ∧ Failed h h' ∧ h'.mem = h.mem ∧ h'.next = h.next) := by
  by_cases hp : h.plan h.tick
  · refine .inl ⟨{ h with tick := h.tick + 1 }, by simp [Heap.attempt, hp], ?_, ?_, rfl, rfl⟩
    · exact ⟨Nat.le_refl _, fun _ _ => rfl, hf, rfl, by simp⟩
    · intro t h1 h2
      have : t = h.tick := by simp only at h2; omega
      rw [this]; exact hp
  · refine .inr ⟨{ h with tick := h.tick + 1 }, by simp [Heap.attempt, hp], ?_, ?_, rfl, rfl⟩
    · exact ⟨Nat.le_refl _, fun _ _ => rfl, hf, rfl, by simp⟩
    · exact ⟨h.tick, Nat.le_refl _, by simp, by simpa using hp⟩

/-- What `allocate` does. -/
theorem allocate_cases {h : Heap F} (hf : Fresh h) :
    (∃ h', Heap.allocate h = (.ok h.next, h') ∧ Grew h h' ∧ AllGood h h' ∧ h'.next = h.next + 1 ∧
      h'.mem = upd h.mem h.next (some .raw)) ∨
    (∃ h', Heap.allocate h = (.error (.exn .badAlloc), h') ∧ Grew h h' ∧ Failed h h' ∧ h'.mem = h.mem ∧ h'.next = h.next) := by
  rcases attempt_cases hf with ⟨h', e, g, ag, hm, hn⟩ | ⟨h', e, g, fl, hm, hn⟩
  · refine .inl ⟨{ h' with mem := upd h.mem h.next (some .raw), next := h.next + 1 },
      by simp only [Heap.allocate]; rw [M.bind_ok e]; simp only [Heap.extend, hn, hm], ?_, ag, rfl, rfl⟩
    refine ⟨by simp, ?_, ?_, g.plan, g.tick⟩
    · intro a ha
      have : a ≠ h.next := by omega
      simp [upd, this]
    · intro a ha
      simp only at ha
      have : a ≠ h.next := by omega
      simp [upd, this, hf a (by omega)]
  · exact .inr ⟨h', by simp only [Heap.allocate]; rw [M.bind_error e], g, fl, hm, hn⟩

theorem put_ok {h : Heap F} {a : Nat} {b b' : Block F} (hb : h.mem a = some b) :
    Heap.put a b' h = (.ok (), { h with mem := upd h.mem a (some b') }) := by simp [Heap.put, hb]

/-- All blocks beyond `h.next` are memory that was never constructed. -/
def RawBeyond (h h' : Heap F) : Prop := ∀ a, h.next ≤ a → h'.mem a ≠ none → h'.mem a = some .raw

/-- A copy was made, in new blocks, and these are the only new ones. -/
def Copied (n : Nat) (v : Value F) (h : Heap F) (r : Except Stop (Cell F) × Heap F) : Prop :=
  ∃ c' fp' h', r = (.ok c', h') ∧ Grew h h' ∧ AllGood h h' ∧ Repr h'.mem n c' v fp' ∧ fp'.Nodup ∧
    ∀ a, a ∈ fp' ↔ h.next ≤ a ∧ h'.mem a ≠ none

/-- No copy was made because an allocation failed. -/
def NotCopied {α : Type} (h : Heap F) (r : Except Stop α × Heap F) : Prop :=
  ∃ h', r = (.error (.exn .badAlloc), h') ∧ Grew h h' ∧ Failed h h' ∧ RawBeyond h h'

theorem NotCopied.same {α : Type} {h h' : Heap F} {r : Except Stop α × Heap F} (e : r = (.error (.exn .badAlloc), h'))
    (g : Grew h h') (fl : Failed h h') (hf : Fresh h) (hm : h'.mem = h.mem) : NotCopied h r :=
  ⟨h', e, g, fl, fun a ha hne => absurd (by rw [hm]; exact hf a ha) hne⟩

/-- Memory was allocated and could not be constructed. -/
theorem NotCopied.raw {α : Type} {h h1 : Heap F} {r : Except Stop α × Heap F} (g : Grew h h1)
    (hn : h1.next = h.next + 1) (hm : h1.mem = upd h.mem h.next (some .raw)) (nc : NotCopied h1 r) : NotCopied h r := by
  obtain ⟨h', e, g', fl, rb⟩ := nc
  refine ⟨h', e, g.trans g', .right g fl, ?_⟩
  intro a ha hne
  rcases Nat.lt_or_ge a h1.next with h3 | h3
  · have : a = h.next := by omega
    rw [g'.old a h3, hm, this]
    simp [upd]
  · exact rb a h3 hne

/-- The end of a construction: the block is put into place. -/
theorem finish {h h1 h2 : Heap F} {b : Block F} {gs : List Nat} (g1 : Grew h h1) (a1 : AllGood h h1)
    (hn : h1.next = h.next + 1) (hm : h1.mem = upd h.mem h.next (some .raw)) (g2 : Grew h1 h2) (a2 : AllGood h1 h2)
    (hd : gs.Nodup) (hgs : ∀ a, a ∈ gs ↔ h1.next ≤ a ∧ h2.mem a ≠ none) :
    ∃ h3, Heap.put h.next b h2 = (.ok (), h3) ∧ Grew h h3 ∧ AllGood h h3 ∧ h3.mem h.next = some b ∧
      (∀ a ∈ gs, h3.mem a = h2.mem a) ∧ (h.next :: gs).Nodup ∧
      ∀ a, a ∈ h.next :: gs ↔ h.next ≤ a ∧ h3.mem a ≠ none := by
  have hraw : h2.mem h.next = some .raw := by
    rw [g2.old h.next (by omega), hm]; simp [upd]
  refine ⟨_, put_ok hraw, ?_, ?_, by simp [upd], ?_, ?_, ?_⟩
  · have g := g1.trans g2
    refine ⟨g.next, ?_, ?_, g.plan, g.tick⟩
    · intro a ha
      have : a ≠ h.next := by omega
      simp only [upd, this, if_false]
      exact g.old a ha
    · intro a ha
      simp only at ha
      have h1 := g2.next
      have : a ≠ h.next := by omega
      simp only [upd, this, if_false]
      exact g2.fresh a ha
  · exact AllGood.trans g1 a1 a2
  · intro a ha
    have := (hgs a).1 ha
    have : a ≠ h.next := by omega
    simp [upd, this]
  · refine List.nodup_cons.2 ⟨fun hc => ?_, hd⟩
    have := (hgs _).1 hc
    omega
  · intro a
    by_cases e : a = h.next
    · subst e; simp [upd]
    · simp only [List.mem_cons, e, false_or, upd, if_false, hgs]
      constructor
      · intro h; exact ⟨by omega, h.2⟩
      · intro h; exact ⟨by omega, h.2⟩

theorem copy_flat {n : Nat} {h : Heap F} {c : Cell F} {v : Value F} {fp : List Nat} (hr : Flat h.mem c v fp) (hf : Fresh h) :
    Copied n v h (Heap.copy n c h) ∨ NotCopied h (Heap.copy n c h) := by
  have triv : Heap.copy n c h = (.ok c, h) → fp = [] → Copied n v h (Heap.copy n c h) := by
    intro e hfp
    refine ⟨c, fp, h, e, .refl hf, ?_, Repr.mono (n := 0) (by exact hr) (by omega), by simp [hfp], ?_⟩
    · intro t h1 h2; omega
    · intro a
      simp only [hfp, List.not_mem_nil, false_iff]
      intro h'
      exact h'.2 (hf a h'.1)
  cases c <;> cases v <;> simp only [Flat] at hr
  · exact .inl (triv (by cases n <;> simp [Heap.copy, M.pure_def]) hr)
  · exact .inl (triv (by cases n <;> simp [Heap.copy, M.pure_def]) hr.2)
  · exact .inl (triv (by cases n <;> simp [Heap.copy, M.pure_def]) hr.2)
  · exact .inl (triv (by cases n <;> simp [Heap.copy, M.pure_def]) hr.2)
  · rename_i a s
    clear triv
    obtain ⟨hm, hr⟩ := hr
    have e0 : Heap.string a h = (.ok s, h) := by simp only [Heap.string, hm]
    have he : Heap.copy n (.str a) h =
        (do let p ← Heap.allocate; Heap.attempt; Heap.put p (.str s); pure (.str p) : M (Heap F) (Cell F)) h := by
      cases n <;> (simp only [Heap.copy]; rw [M.bind_ok e0])
    rw [he]
    rcases allocate_cases hf with ⟨h1, e1, g1, a1, n1, m1⟩ | ⟨h1, e1, g1, f1, m1, n1⟩
    · rw [M.bind_ok e1]
      rcases attempt_cases g1.fresh with ⟨h2, e2, g2, a2, m2, n2⟩ | ⟨h2, e2, g2, f2, m2, n2⟩
      · rw [M.bind_ok e2]
        obtain ⟨h3, e3, g3, a3, q1, q2, q3, q4⟩ := finish (b := .str s) (gs := []) g1 a1 n1 m1 g2 a2 List.nodup_nil (by
          intro a
          simp only [List.not_mem_nil, false_iff]
          rw [m2]
          intro h'
          exact h'.2 (g1.fresh a h'.1))
        rw [M.bind_ok e3]
        refine .inl ⟨.str h.next, [h.next], h3, rfl, g3, a3, ?_, q3, q4⟩
        exact Repr.mono (n := 0) (by exact ⟨q1, rfl⟩) (by omega)
      · rw [M.bind_error e2]
        exact .inr (NotCopied.raw g1 n1 m1 (NotCopied.same rfl g2 f2 g1.fresh m2))
    · rw [M.bind_error e1]
      exact .inr (NotCopied.same rfl g1 f1 hf m1)

theorem copyAll_cases {n : Nat}
    (ih : ∀ {h : Heap F} {c : Cell F} {v : Value F} {fp : List Nat}, Repr h.mem n c v fp → Fresh h →
      (∀ a ∈ fp, a < h.next) → Copied n v h (Heap.copy n c h) ∨ NotCopied h (Heap.copy n c h)) :
    ∀ {cs : List (Cell F)} {vs : List (Value F)} {fps : List (List Nat)} {h : Heap F}, All3 (Repr h.mem n) cs vs fps → Fresh h →
      (∀ a ∈ fps.flatten, a < h.next) →
      (∃ cs' fps' h', Heap.copyAll (Heap.copy n) (Heap.destroy n) cs h = (.ok cs', h') ∧ Grew h h' ∧ AllGood h h' ∧
        All3 (Repr h'.mem n) cs' vs fps' ∧ fps'.flatten.Nodup ∧ ∀ a, a ∈ fps'.flatten ↔ h.next ≤ a ∧ h'.mem a ≠ none) ∨
      NotCopied h (Heap.copyAll (Heap.copy n) (Heap.destroy n) cs h) := by
  intro cs
  induction cs with
  | nil =>
    intro vs fps h ha hf _
    cases ha
    refine .inl ⟨[], [], h, rfl, .refl hf, ?_, .nil, by simp, ?_⟩
    · intro t h1 h2; omega
    · intro a
      simp only [List.flatten_nil, List.not_mem_nil, false_iff]
      intro h'
      exact h'.2 (hf a h'.1)
  | cons c cs ihl =>
    intro vs fps h ha hf hlt
    cases ha with
    | @cons _ v f _ vs fs r1 r2 =>
      simp only [List.flatten_cons, List.mem_append] at hlt
      simp only [Heap.copyAll]
      rcases attempt_cases hf with ⟨h1, e1, g1, a1, m1, n1⟩ | ⟨h1, e1, g1, f1, m1, n1⟩
      · rw [M.bind_ok e1]
        rcases ih (h := h1) (by rw [m1]; exact r1) g1.fresh (by rw [n1]; exact fun a ha => hlt a (.inl ha)) with
          ⟨c', fp', h2, e2, g2, a2, q1, q2, q3⟩ | ⟨h2, e2, g2, f2, q⟩
        · rw [M.bind_ok e2]
          have hlt2 : ∀ a ∈ fp', a < h2.next := by
            intro a ha
            rcases Nat.lt_or_ge a h2.next with h | h
            · exact h
            · exact absurd (g2.fresh a h) ((q3 a).1 ha).2
          have r2' : All3 (Repr h2.mem n) cs vs fs := All3.imp r2 fun x y z hz hr => Repr.frame hr fun k hk => by
            have hk' := hlt k (.inr (List.mem_flatten.2 ⟨z, hz, hk⟩))
            rw [g2.old k (by omega), m1]
          have hn2 := g2.next
          rcases ihl (h := h2) r2' g2.fresh (fun a ha => by have := hlt a (.inr ha); omega) with
            ⟨cs', fps', h3, e3, g3, a3, w1, w2, w3⟩ | ⟨h3, e3, g3, f3, w⟩
          · rw [M.bind_ok (show Heap.unwinding (Heap.copyAll (Heap.copy n) (Heap.destroy n) cs) (Heap.destroy n c') h2 = (.ok cs', h3) by
              simp only [Heap.unwinding, e3])]
            refine .inl ⟨c' :: cs', fp' :: fps', h3, rfl, g1.trans (g2.trans g3), ?_, ?_, ?_, ?_⟩
            · exact AllGood.trans g1 a1 (AllGood.trans g2 a2 a3)
            · exact .cons (Repr.frame q1 fun a ha => g3.old a (hlt2 a ha)) w1
            · simp only [List.flatten_cons, List.nodup_append]
              refine ⟨q2, w2, ?_⟩
              intro a ha b hb e
              subst e
              have := ((w3 a).1 hb).1
              have := hlt2 a ha
              omega
            · intro a
              simp only [List.flatten_cons, List.mem_append, q3, w3]
              constructor
              · rintro (h' | h')
                · exact ⟨by omega, by rw [g3.old a (hlt2 a ((q3 a).2 h'))]; exact h'.2⟩
                · exact ⟨by omega, h'.2⟩
              · rintro ⟨h1', h2'⟩
                rcases Nat.lt_or_ge a h2.next with h | h
                · exact .inl ⟨by omega, by rw [← g3.old a h]; exact h2'⟩
                · exact .inr ⟨h, h2'⟩
          · have hr3 : Repr h3.mem n c' v fp' := Repr.frame q1 fun a ha => g3.old a (hlt2 a ha)
            rw [M.bind_error (show Heap.unwinding (Heap.copyAll (Heap.copy n) (Heap.destroy n) cs) (Heap.destroy n c') h2 =
              (.error (.exn .badAlloc), without h3 fp') by simp only [Heap.unwinding, e3, destroy_ok hr3 q2])]
            have g13 := g1.trans (g2.trans g3)
            refine .inr ⟨without h3 fp', rfl, ?_, ?_, ?_⟩
            · refine ⟨g13.next, ?_, ?_, g13.plan, g13.tick⟩
              · intro a ha
                rw [without_mem, g13.old a ha]
                intro hc
                have := ((q3 a).1 hc).1
                omega
              · intro a ha
                by_cases hc : a ∈ fp'
                · simp [without, hc]
                · rw [without_mem hc]; exact g3.fresh a ha
            · obtain ⟨t, t1, t2, t3⟩ := Failed.right g1 (Failed.right g2 f3)
              exact ⟨t, t1, t2, t3⟩
            · intro a ha hne
              by_cases hc : a ∈ fp'
              · simp [without, hc] at hne
              · rw [without_mem hc] at hne ⊢
                rcases Nat.lt_or_ge a h2.next with h' | h'
                · rw [g3.old a h'] at hne
                  exact absurd ((q3 a).2 ⟨by omega, hne⟩) hc
                · exact w a h' hne
        · rw [M.bind_error e2]
          exact .inr ⟨h2, rfl, g1.trans g2, Failed.right g1 f2, fun a ha => q a (by omega)⟩
      · rw [M.bind_error e1]
        exact .inr (NotCopied.same rfl g1 f1 hf m1)

/-- The copy constructor makes a copy in new blocks, or fails. -/
theorem copy_cases : ∀ {n : Nat} {h : Heap F} {c : Cell F} {v : Value F} {fp : List Nat}, Repr h.mem n c v fp → Fresh h →
    (∀ a ∈ fp, a < h.next) → Copied n v h (Heap.copy n c h) ∨ NotCopied h (Heap.copy n c h) := by
  intro n
  induction n with
  | zero => intro h c v fp hr hf _; exact copy_flat hr hf
  | succ n ih =>
    intro h c v fp hr hf hlt
    rcases hr with hr | ⟨a, b, fps, h1, h2, h3, h4⟩
    · exact copy_flat hr hf
    · subst h4
      have key : ∀ (mk : Nat → Cell F) (mkb : List (Cell F) → Block F),
          (∀ p cs', cs'.length = (kids v).length → Node p (mk p) (mkb cs') v ∧ (mkb cs').cells = cs') →
          Heap.copy (n + 1) c h = (do
            let p ← Heap.allocate; Heap.attempt
            let cs' ← Heap.copyAll (Heap.copy n) (Heap.destroy n) b.cells
            Heap.put p (mkb cs')
            pure (mk p) : M (Heap F) (Cell F)) h →
          Copied (n + 1) v h (Heap.copy (n + 1) c h) ∨ NotCopied h (Heap.copy (n + 1) c h) := by
        intro mk mkb hmk he
        rw [he]
        rcases allocate_cases hf with ⟨k1, e1, g1, a1, n1, m1⟩ | ⟨k1, e1, g1, f1, m1, n1⟩
        · rw [M.bind_ok e1]
          rcases attempt_cases g1.fresh with ⟨k2, e2, g2, a2, m2, n2⟩ | ⟨k2, e2, g2, f2, m2, n2⟩
          · rw [M.bind_ok e2]
            have hall : All3 (Repr k2.mem n) b.cells (kids v) fps := All3.imp h3 fun x y z hz hr => Repr.frame hr fun k hk => by
              have := hlt k (by simp only [List.mem_cons]; exact .inr (List.mem_flatten.2 ⟨z, hz, hk⟩))
              rw [m2, g1.old k this]
            rcases copyAll_cases ih hall g2.fresh (fun a ha => by have := hlt a (by simp [ha]); omega) with
              ⟨cs', fps', k3, e3, g3, a3, w1, w2, w3⟩ | nc
            · rw [M.bind_ok e3]
              obtain ⟨k4, e4, g4, a4, q1, q2, q3, q4⟩ := finish (b := mkb cs') (gs := fps'.flatten) g1 a1 n1 m1
                (g2.trans g3) (AllGood.trans g2 a2 a3) w2 (by intro a; rw [w3, n2])
              rw [M.bind_ok e4]
              have hk := hmk h.next cs' w1.length.1
              refine .inl ⟨mk h.next, h.next :: fps'.flatten, k4, rfl, g4, a4, .inr ⟨h.next, mkb cs', fps', q1, hk.1, ?_, rfl⟩, q3, q4⟩
              rw [hk.2]
              exact All3.imp w1 fun x y z hz hr => Repr.frame hr fun k hk => q2 k (List.mem_flatten.2 ⟨z, hz, hk⟩)
            · refine .inr (NotCopied.raw g1 n1 m1 ?_)
              obtain ⟨k3, e3, g3, f3, w⟩ := nc
              rw [M.bind_error e3]
              exact ⟨k3, rfl, g2.trans g3, Failed.right g2 f3, fun a ha => w a (by omega)⟩
          · rw [M.bind_error e2]
            exact .inr (NotCopied.raw g1 n1 m1 (NotCopied.same rfl g2 f2 g1.fresh m2))
        · rw [M.bind_error e1]
          exact .inr (NotCopied.same rfl g1 f1 hf m1)
      cases c <;> cases b <;> cases v <;> simp only [Node] at h2
      · subst h2
        refine key Cell.arr Block.arr (fun p cs' _ => ⟨rfl, rfl⟩) ?_
        rename_i a cs _
        have : Heap.vector a h = (.ok cs, h) := by simp only [Heap.vector, h1]
        simp only [Heap.copy]
        rw [M.bind_ok this]
        rfl
      · rename_i ms vs
        obtain ⟨h2, hk⟩ := h2
        subst h2
        rename_i ad
        refine key Cell.obj (fun cs' => Block.obj ((ms.map Prod.fst).zip cs')) (fun p cs' hl => ?_) ?_
        · have hlen := congrArg List.length hk
          simp only [List.length_map, kids] at hlen hl
          refine ⟨⟨rfl, ?_⟩, ?_⟩
          · rw [List.map_fst_zip (by simp; omega)]; exact hk
          · simp only [Block.cells]
            rw [List.map_snd_zip (by simp; omega)]
        · have : Heap.map ad h = (.ok ms, h) := by simp only [Heap.map, h1]
          simp only [Heap.copy]
          rw [M.bind_ok this]
          rfl

end Spec
