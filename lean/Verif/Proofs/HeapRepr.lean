import Verif.Spec.Heap
/-!
# Cells that stand for trees
-/
namespace Spec
open Configor

variable {F : Type} {mem mem' : Nat → Option (Block F)}

/-! ## Lists -/

theorem All3.imp {A B C : Type} {R S : A → B → C → Prop} {as bs cs} (h : All3 R as bs cs)
    (hi : ∀ a b c, c ∈ cs → R a b c → S a b c) : All3 S as bs cs := by
  induction h with
  | nil => exact .nil
  | cons h1 _ ih =>
    exact .cons (hi _ _ _ (by simp) h1) (ih fun a b c hc => hi a b c (by simp [hc]))

theorem All3.length {A B C : Type} {R : A → B → C → Prop} {as bs cs} (h : All3 R as bs cs) :
    as.length = bs.length ∧ as.length = cs.length := by
  induction h with
  | nil => exact ⟨rfl, rfl⟩
  | cons _ _ ih => exact ⟨by simp [ih.1], by simp [ih.2]⟩

/-- The `i`-th triple, with what is around it. -/
theorem All3.get {A B : Type} {R : A → B → List Nat → Prop} {as bs cs} (h : All3 R as bs cs) :
    ∀ {i : Nat} {a : A}, as[i]? = some a → ∃ b f pre post, bs[i]? = some b ∧ cs[i]? = some f ∧ R a b f ∧
      cs.flatten = pre ++ f ++ post ∧
      ∀ (S : A → B → List Nat → Prop) (a' : A) (b' : B) (f' : List Nat), S a' b' f' →
        (∀ x y z, (∀ k ∈ z, k ∈ pre ∨ k ∈ post) → R x y z → S x y z) →
        ∃ cs', All3 S (as.set i a') (bs.set i b') cs' ∧ cs'.flatten = pre ++ f' ++ post := by
  induction h with
  | nil => intro i a h; simp at h
  | @cons a0 b0 c0 as bs cs h0 h1 ih =>
    intro i a h
    cases i with
    | zero =>
      simp at h
      subst h
      refine ⟨b0, c0, [], cs.flatten, rfl, rfl, h0, by simp, ?_⟩
      intro S a' b' f' hs hi
      refine ⟨f' :: cs, .cons hs ?_, by simp⟩
      exact All3.imp h1 fun x y z hz hr => hi x y z (fun k hk => .inr (List.mem_flatten.2 ⟨z, hz, hk⟩)) hr
    | succ i =>
      simp at h
      obtain ⟨b, f, pre, post, e1, e2, e3, e4, e5⟩ := ih h
      refine ⟨b, f, c0 ++ pre, post, by simpa using e1, by simpa using e2, e3, by simp [e4], ?_⟩
      intro S a' b' f' hs hi
      obtain ⟨cs', g1, g2⟩ := e5 S a' b' f' hs fun x y z hz hr =>
        hi x y z (fun k hk => by rcases hz k hk with h | h <;> simp [h]) hr
      refine ⟨c0 :: cs', .cons (hi _ _ _ (fun k hk => by simp [hk]) h0) g1, by simp [g2]⟩

theorem All3.get_b {A B : Type} {R : A → B → List Nat → Prop} {as bs cs} (h : All3 R as bs cs)
    {i : Nat} {b : B} (hb : bs[i]? = some b) : ∃ a, as[i]? = some a := by
  have hl := h.length.1
  have : i < bs.length := by
    rcases Nat.lt_or_ge i bs.length with h | h
    · exact h
    · rw [List.getElem?_eq_none h] at hb; cases hb
  exact ⟨as[i], List.getElem?_eq_getElem (by omega)⟩

theorem length_le_of_nodup : ∀ (n : Nat) (l : List Nat), l.Nodup → (∀ a ∈ l, a < n) → l.length ≤ n := by
  intro n
  induction n with
  | zero =>
    intro l _ h
    cases l with
    | nil => simp
    | cons a l => exact absurd (h a (by simp)) (by omega)
  | succ n ih =>
    intro l hn h
    have h1 := ih (l.erase n) (hn.erase n) (by
      intro a ha
      have := h a (List.mem_of_mem_erase ha)
      have hne : a ≠ n := by
        intro e; subst e
        exact absurd ha (hn.not_mem_erase)
      omega)
    have := List.length_erase (a := n) (l := l)
    split at this <;> omega

theorem zip_fst_snd {A B : Type} : ∀ xs : List (A × B), (xs.map Prod.fst).zip (xs.map Prod.snd) = xs
  | [] => rfl
  | x :: xs => by simp [zip_fst_snd xs]

/-! ## Representation -/

theorem Flat.frame {c : Cell F} {v : Value F} {fp : List Nat} (h : Flat mem c v fp)
    (he : ∀ a ∈ fp, mem' a = mem a) : Flat mem' c v fp := by
  cases c <;> cases v <;> simp only [Flat] at h ⊢ <;> try exact h
  obtain ⟨h1, h2⟩ := h
  exact ⟨by rw [he _ (by simp [h2])]; exact h1, h2⟩

theorem Repr.frame : ∀ {n : Nat} {c : Cell F} {v : Value F} {fp : List Nat}, Repr mem n c v fp →
    (∀ a ∈ fp, mem' a = mem a) → Repr mem' n c v fp := by
  intro n
  induction n with
  | zero => intro c v fp h he; exact Flat.frame h he
  | succ n ih =>
    intro c v fp h he
    rcases h with h | ⟨a, b, fps, h1, h2, h3, h4⟩
    · exact .inl (Flat.frame h he)
    · subst h4
      refine .inr ⟨a, b, fps, by rw [he a (by simp)]; exact h1, h2, ?_, rfl⟩
      exact All3.imp h3 fun x y z hz hr => ih hr fun k hk => he k (by
        simp only [List.mem_cons]; exact .inr (List.mem_flatten.2 ⟨z, hz, hk⟩))

theorem Repr.mono : ∀ {n m : Nat} {c : Cell F} {v : Value F} {fp : List Nat}, Repr mem n c v fp → n ≤ m →
    Repr mem m c v fp := by
  intro n
  induction n with
  | zero => intro m c v fp h _; cases m with
    | zero => exact h
    | succ m => exact .inl h
  | succ n ih =>
    intro m c v fp h hm
    cases m with
    | zero => omega
    | succ m =>
      rcases h with h | ⟨a, b, fps, h1, h2, h3, h4⟩
      · exact .inl h
      · exact .inr ⟨a, b, fps, h1, h2, All3.imp h3 fun x y z _ hr => ih hr (by omega), h4⟩

theorem length_le_flatten {z : List Nat} {fps : List (List Nat)} (h : z ∈ fps) : z.length ≤ fps.flatten.length := by
  induction fps with
  | nil => cases h
  | cons y ys ih =>
    simp only [List.flatten_cons, List.length_append]
    rcases List.mem_cons.1 h with rfl | h
    · omega
    · have := ih h; omega

/-- The number of blocks bounds the depth. -/
theorem Repr.depth : ∀ {n : Nat} {c : Cell F} {v : Value F} {fp : List Nat}, Repr mem n c v fp →
    Repr mem fp.length c v fp := by
  intro n
  induction n with
  | zero => intro c v fp h; exact Repr.mono (n := 0) h (by omega)
  | succ n ih =>
    intro c v fp h
    rcases h with h | ⟨a, b, fps, h1, h2, h3, h4⟩
    · exact Repr.mono (n := 0) (by exact h) (by omega)
    · subst h4
      exact .inr ⟨a, b, fps, h1, h2, All3.imp h3 fun x y z hz hr => Repr.mono (ih hr) (length_le_flatten hz), rfl⟩

/-- Owned blocks are allocated. -/
theorem Repr.allocated : ∀ {n : Nat} {c : Cell F} {v : Value F} {fp : List Nat}, Repr mem n c v fp →
    ∀ a ∈ fp, mem a ≠ none := by
  intro n
  have flat : ∀ {c : Cell F} {v : Value F} {fp : List Nat}, Flat mem c v fp → ∀ a ∈ fp, mem a ≠ none := by
    intro c v fp h a ha
    cases c <;> cases v <;> simp only [Flat] at h
    all_goals (try (have := h.2; subst this; cases ha; done))
    · subst h; cases ha
    · obtain ⟨h1, h2⟩ := h
      subst h2
      simp at ha
      subst ha
      simp [h1]
  induction n with
  | zero => intro c v fp h; exact flat h
  | succ n ih =>
    intro c v fp h k hk0
    rcases h with h | ⟨a, b, fps, h1, h2, h3, h4⟩
    · exact flat h k hk0
    · subst h4
      rcases List.mem_cons.1 hk0 with rfl | hk
      · simp [h1]
      · obtain ⟨z, hz, hkz⟩ := List.mem_flatten.1 hk
        clear h1 h2 hk0
        generalize kids v = vs at h3
        generalize b.cells = cs at h3
        clear hk
        induction h3 with
        | nil => cases hz
        | cons g1 _ ih' =>
          rcases List.mem_cons.1 hz with rfl | hz
          · exact ih g1 k hkz
          · exact ih' hz

/-- A cell stands for one tree, held in one list of blocks. -/
theorem Repr.unique : ∀ {n m : Nat} {c : Cell F} {v v' : Value F} {fp fp' : List Nat}, Repr mem n c v fp →
    Repr mem m c v' fp' → v = v' ∧ fp = fp' := by
  have flat : ∀ {c : Cell F} {v v' : Value F} {fp fp' : List Nat}, Flat mem c v fp → Flat mem c v' fp' →
      v = v' ∧ fp = fp' := by
    intro c v v' fp fp' h h'
    cases c <;> cases v <;> simp only [Flat] at h <;> cases v' <;> simp only [Flat] at h'
    all_goals simp_all
  have mixed : ∀ {c : Cell F} {v v' : Value F} {fp : List Nat} {a b}, Flat mem c v fp → ¬ Node a c b v' := by
    intro c v v' fp a b h h'
    cases c <;> cases v <;> simp only [Flat] at h <;> cases b <;> cases v' <;> simp only [Node] at h'
  intro n
  induction n with
  | zero =>
    intro m c v v' fp fp' h h'
    cases m with
    | zero => exact flat h h'
    | succ m =>
      rcases h' with h' | ⟨a, b, fps, h1, h2, h3, h4⟩
      · exact flat h h'
      · exact absurd h2 (mixed h)
  | succ n ih =>
    intro m c v v' fp fp' h h'
    rcases h with h | ⟨a, b, fps, h1, h2, h3, h4⟩
    · cases m with
      | zero => exact flat h h'
      | succ m =>
        rcases h' with h' | ⟨a, b, fps, h1, h2, h3, h4⟩
        · exact flat h h'
        · exact absurd h2 (mixed h)
    · cases m with
      | zero => exact absurd h2 (mixed h')
      | succ m =>
        rcases h' with h' | ⟨a', b', fps', h1', h2', h3', h4'⟩
        · exact absurd h2 (mixed h')
        · have all : ∀ {cs : List (Cell F)} {vs vs' : List (Value F)} {gs gs' : List (List Nat)},
              All3 (Repr mem n) cs vs gs → All3 (Repr mem m) cs vs' gs' → vs = vs' ∧ gs = gs' := by
            intro cs vs vs' gs gs' g
            induction g generalizing vs' gs' with
            | nil => intro g'; cases g'; exact ⟨rfl, rfl⟩
            | cons g1 _ ihl =>
              intro g'
              cases g' with
              | cons g1' g2' =>
                obtain ⟨e1, e2⟩ := ih g1 g1'
                obtain ⟨e3, e4⟩ := ihl g2'
                subst e1 e2 e3 e4
                exact ⟨rfl, rfl⟩
          have ea : a = a' := by
            cases c <;> cases b <;> cases v <;> simp only [Node] at h2 <;> cases b' <;> cases v' <;>
              simp only [Node] at h2'
            · omega
            · omega
          subst ea
          have eb : b = b' := by rw [h1] at h1'; injection h1'
          subst eb
          obtain ⟨e1, e2⟩ := all h3 h3'
          subst e2 h4 h4'
          refine ⟨?_, rfl⟩
          cases c <;> cases b <;> cases v <;> simp only [Node] at h2 <;> cases v' <;> simp only [Node] at h2'
          · simp only [kids] at e1; rw [e1]
          · rename_i xs ys
            simp only [kids] at e1
            have e3 := h2.2.symm.trans h2'.2
            congr 1
            rw [← zip_fst_snd xs, ← zip_fst_snd ys, e3, e1]

/-! ## References -/

/-- The address of the container of a cell. -/
def _root_.Configor.Cell.addr : Cell F → Option Nat
  | .arr a => some a
  | .obj a => some a
  | _ => none

theorem Node.addr {a : Nat} {c : Cell F} {b : Block F} {v : Value F} (h : Node a c b v) : c.addr = some a := by
  cases c <;> cases b <;> cases v <;> simp_all [Node, Cell.addr]

theorem Flat.addr {c : Cell F} {v : Value F} {fp} (h : Flat mem c v fp) : c.addr = none := by
  cases c <;> cases v <;> simp_all [Flat, Cell.addr]

/-- `State.locate` as a function of the memory. -/
def find (mem : Nat → Option (Block F)) : Loc → Cell F → List Nat → Option (Loc × Cell F)
  | l, c, [] => some (l, c)
  | _, c, i :: p => c.addr.bind fun a => (mem a).bind fun b => b.cells[i]?.bind fun c' => find mem (.slot a i) c' p

theorem find_append : ∀ (p q : List Nat) (l : Loc) (c : Cell F),
    find mem l c (p ++ q) = (find mem l c p).bind fun r => find mem r.1 r.2 q := by
  intro p
  induction p with
  | nil => intro q l c; rfl
  | cons i p ih =>
    intro q l c
    simp only [List.cons_append, find]
    cases c.addr with
    | none => rfl
    | some a => cases hm : mem a with
      | none => simp [hm]
      | some b => cases hb : b.cells[i]? with
        | none => simp [hm, hb]
        | some c' => simp [hm, hb, ih]

/-- What a reference finds is what the tree has. -/
theorem Repr.find : ∀ {p : List Nat} {n : Nat} {c : Cell F} {v u : Value F} {fp : List Nat} (l : Loc), Repr mem n c v fp →
    part v p = some u → ∃ l' c', find mem l c p = some (l', c') := by
  intro p
  induction p with
  | nil => intro n c v u fp l _ _; exact ⟨l, c, rfl⟩
  | cons i p ih =>
    intro n c v u fp l h hp
    simp only [part, Option.bind_eq_some_iff] at hp
    obtain ⟨x, hx, hp⟩ := hp
    have flat : Flat mem c v fp → False := by
      intro h
      cases v <;> simp [kids] at hx <;> cases c <;> simp [Flat] at h
    cases n with
    | zero => exact (flat h).elim
    | succ n =>
      rcases h with h | ⟨a, b, fps, h1, h2, h3, h4⟩
      · exact (flat h).elim
      · obtain ⟨c', hc'⟩ := All3.get_b h3 hx
        obtain ⟨x', f, pre, post, e1, e2, e3, e4, e5⟩ := All3.get h3 hc'
        rw [hx] at e1
        injection e1 with e1
        subst e1
        obtain ⟨l', c'', g⟩ := ih (.slot a i) e3 hp
        exact ⟨l', c'', by simp [Spec.find, h2.addr, h1, hc', g]⟩

/-- The location is the start, or an element of a container. -/
theorem find_slot : ∀ {p : List Nat} {l l' : Loc} {c c' : Cell F}, find mem l c p = some (l', c') → p ≠ [] →
    ∃ a i b, l' = .slot a i ∧ mem a = some b ∧ b.cells[i]? = some c' := by
  intro p
  induction p with
  | nil => intro l l' c c' _ h; exact absurd rfl h
  | cons i p ih =>
    intro l l' c c' h _
    simp only [find, Option.bind_eq_some_iff] at h
    obtain ⟨a, ha, b, hb, d, hd, h⟩ := h
    cases p with
    | nil =>
      simp only [find] at h
      injection h with h
      injection h with h1 h2
      subst h1 h2
      exact ⟨a, i, b, rfl, hb, hd⟩
    | cons j p => exact ih h (by simp)

theorem Block.cells_withCells (b : Block F) (cs : List (Cell F)) (h : cs.length = b.cells.length) :
    (b.withCells cs).cells = cs := by
  cases b with
  | raw => simp [Block.cells] at h; simp [Block.withCells, Block.cells, h]
  | str s => simp [Block.cells] at h; simp [Block.withCells, Block.cells, h]
  | arr xs => rfl
  | obj ms =>
    simp only [Block.withCells, Block.cells] at h ⊢
    rw [List.map_snd_zip]
    simp only [List.length_map] at h ⊢
    omega

theorem Block.withCells_cells (b : Block F) : b.withCells b.cells = b := by
  cases b with
  | obj ms => simp only [Block.withCells, Block.cells, zip_fst_snd]
  | _ => rfl

theorem kids_withKids (v : Value F) (xs : List (Value F)) (h : xs.length = (kids v).length) :
    kids (withKids v xs) = xs := by
  cases v with
  | arr ys => rfl
  | obj ms =>
    simp only [withKids, kids] at h ⊢
    rw [List.map_snd_zip]
    simp only [List.length_map] at h ⊢
    omega
  | _ => simp [kids] at h; simp [withKids, kids, h]

theorem Node.with {a : Nat} {c : Cell F} {b : Block F} {v : Value F} (h : Node a c b v) {cs xs}
    (hc : cs.length = b.cells.length) (hx : xs.length = (kids v).length) : Node a c (b.withCells cs) (withKids v xs) := by
  cases c <;> cases b <;> cases v <;> simp only [Node] at h
  · exact h
  · refine ⟨h.1, ?_⟩
    simp only [Block.cells, kids, List.length_map] at hc hx
    rw [List.map_fst_zip (by simp; omega), List.map_fst_zip (by simp; omega)]
    exact h.2

/-- A part of a tree in memory, what is around it, and how the whole changes with the part. -/
theorem Repr.focus : ∀ {p : List Nat} {n : Nat} {c cu : Cell F} {v : Value F} {fp : List Nat} {l l' : Loc},
    Repr mem n c v fp → fp.Nodup → Spec.find mem l c p = some (l', cu) →
    ∃ u fu ctx m, part v p = some u ∧ Repr mem m cu u fu ∧ fp.Perm (fu ++ ctx) ∧
      (p = [] → ctx = []) ∧
      (p ≠ [] → ∃ a i b, l' = .slot a i ∧ mem a = some b ∧ a ∈ ctx ∧ b.cells[i]? = some cu ∧
        ∀ (mem' : Nat → Option (Block F)) cu' u' fu' k, mem' a = some (b.withCells (b.cells.set i cu')) →
          (∀ a' ∈ ctx, a' ≠ a → mem' a' = mem a') → Repr mem' k cu' u' fu' →
          ∃ n' fp', Repr mem' n' c (replace v p u') fp' ∧ fp'.Perm (fu' ++ ctx)) := by
  intro p
  induction p with
  | nil =>
    intro n c cu v fp l l' h _ hf
    simp only [Spec.find] at hf
    injection hf with hf
    injection hf with h1 h2
    subst h1 h2
    exact ⟨v, fp, [], n, rfl, h, by simp, fun _ => rfl, fun h => absurd rfl h⟩
  | cons i p ih =>
    intro n c cu v fp l l' h hn hf
    simp only [Spec.find, Option.bind_eq_some_iff] at hf
    obtain ⟨a, ha, b, hb, c', hc', hf⟩ := hf
    cases n with
    | zero => have h' : Flat mem c v fp := h; rw [h'.addr] at ha; cases ha
    | succ n =>
      rcases h with h | ⟨a', b', fps, h1, h2, h3, h4⟩
      · rw [h.addr] at ha; cases ha
      · rw [h2.addr] at ha
        injection ha with ha
        subst ha
        rw [h1] at hb
        injection hb with hb
        subst hb h4
        obtain ⟨x, f, pre, post, e1, e2, e3, e4, e5⟩ := All3.get h3 hc'
        rw [e4] at hn ⊢
        have hn1 : f.Nodup := by
          simp only [List.nodup_cons, List.nodup_append] at hn
          exact hn.2.1.2.1
        have hl := h3.length
        have hi : i < b'.cells.length := by
          rcases Nat.lt_or_ge i b'.cells.length with h | h
          · exact h
          · rw [List.getElem?_eq_none h] at hc'; cases hc'
        have hperm : ∀ g : List Nat, (a' :: (pre ++ g ++ post)).Perm (g ++ (a' :: (pre ++ post))) := by
          intro g
          have h1 : (pre ++ g ++ post).Perm (g ++ (pre ++ post)) := by
            rw [← List.append_assoc]
            exact (List.perm_append_comm).append_right post
          exact (h1.cons a').trans List.perm_middle.symm
        obtain ⟨u, fu, ctx, m, g1, g2, g3, g4, g5⟩ := ih e3 hn1 hf
        refine ⟨u, fu, ctx ++ (a' :: (pre ++ post)), m, by simp [part, e1, g1], g2, ?_, by simp, ?_⟩
        · refine (hperm f).trans ?_
          rw [← List.append_assoc]
          exact g3.append_right _
        · intro _
          by_cases hp : p = []
          · subst hp
            have hctx := g4 rfl
            subst hctx
            simp only [Spec.find] at hf
            injection hf with hf
            injection hf with q1 q2
            subst q1 q2
            simp only [part] at g1
            injection g1 with g1
            subst g1
            refine ⟨a', i, b', rfl, h1, by simp, hc', ?_⟩
            intro mem' cu' u' fu' k w1 w2 w3
            have hmax : ∀ x y z, (∀ k ∈ z, k ∈ pre ∨ k ∈ post) → Repr mem n x y z → Repr mem' (max n k) x y z := by
              intro x y z hz hr
              refine Repr.mono (Repr.frame hr fun q hq => w2 q ?_ ?_) (by omega)
              · rcases hz q hq with h | h <;> simp [h]
              · intro e
                subst e
                simp only [List.nodup_cons, List.mem_append, not_or] at hn
                rcases hz q hq with h | h
                · exact hn.1.1.1 h
                · exact hn.1.2 h
            obtain ⟨cs', s1, s2⟩ := e5 (Repr mem' (max n k)) cu' u' fu' (Repr.mono w3 (by omega)) hmax
            refine ⟨max n k + 1, a' :: cs'.flatten, .inr ⟨a', _, cs', w1, ?_, ?_, rfl⟩, ?_⟩
            · simp only [replace, e1]
              exact h2.with (by simp) (by simp)
            · simp only [replace, e1]
              rw [Block.cells_withCells _ _ (by simp), kids_withKids _ _ (by simp)]
              exact s1
            · rw [s2]
              exact (hperm fu').trans (by simp)
          · obtain ⟨a, j, b, k1, k2, k3, k4, k5⟩ := g5 hp
            have haf : a ∈ f := g3.symm.subset (by simp [k3])
            have hctxf : ∀ q ∈ ctx, q ∈ f := fun q hq => g3.symm.subset (by simp [hq])
            refine ⟨a, j, b, k1, k2, by simp [k3], k4, ?_⟩
            intro mem' cu' u' fu' k w1 w2 w3
            obtain ⟨n', fp', r1, r2⟩ := k5 mem' cu' u' fu' k w1 (fun q hq hne => w2 q (by simp [hq]) hne) w3
            have hne : ∀ q, q = a' ∨ q ∈ pre ∨ q ∈ post → q ≠ a := by
              intro q hq e
              subst e
              simp only [List.nodup_cons, List.mem_append, List.nodup_append, not_or] at hn
              rcases hq with h | h | h
              · subst h; exact hn.1.1.2 haf
              · exact hn.2.1.2.2 q h q haf rfl
              · exact hn.2.2.2 q (.inr haf) q h rfl
            have hmax : ∀ x y z, (∀ k ∈ z, k ∈ pre ∨ k ∈ post) → Repr mem n x y z → Repr mem' (max n n') x y z := by
              intro x y z hz hr
              refine Repr.mono (Repr.frame hr fun q hq => w2 q ?_ (hne q (.inr (hz q hq)))) (by omega)
              rcases hz q hq with h | h <;> simp [h]
            obtain ⟨cs', s1, s2⟩ := e5 (Repr mem' (max n n')) c' (replace x p u') fp' (Repr.mono r1 (by omega)) hmax
            refine ⟨max n n' + 1, a' :: cs'.flatten, .inr ⟨a', b', cs', ?_, ?_, ?_, rfl⟩, ?_⟩
            · rw [w2 a' (by simp) (hne a' (.inl rfl))]; exact h1
            · simp only [replace, e1]
              have := h2.with (cs := b'.cells) (xs := (kids v).set i (replace x p u')) rfl (by simp)
              rw [Block.withCells_cells] at this
              exact this
            · simp only [replace, e1]
              rw [kids_withKids _ _ (by simp)]
              have : b'.cells.set i c' = b'.cells := by
                apply List.ext_getElem? 
                intro j
                rw [List.getElem?_set]
                split
                · next h => subst h; rw [hc']
                · rfl
              rw [this] at s1
              exact s1
            · rw [s2]
              refine (hperm fp').trans ?_
              rw [← List.append_assoc]
              exact r2.append_right _

end Spec
