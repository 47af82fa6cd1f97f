import Verif.Model.Preproc
/-!
# Rules for macro replacement

`Gives T A A' xs ys`: tokens spelled `xs` that hide no name of `A` are replaced by tokens spelled `ys` that hide no name of `A'`.
-/
set_option autoImplicit false

namespace Configor.Preproc

/-! ## More steps do not change the result -/

theorem subst_mono {ex ex' : List Tok → Option (List Tok)} (h : ∀ a x, ex a = some x → ex' a = some x) (env : List (Text × List Tok)) :
    ∀ (body : List Text) (out r : List Tok), subst ex env body out = some r → subst ex' env body out = some r := by
  intro body out
  fun_induction subst ex env body out with
  | case1 => intro r hr; simpa [subst] using hr
  | case2 out t ha => intro r hr; simpa [subst, ha] using hr
  | case3 out t a ha =>
    intro r hr
    obtain ⟨x, hx, rfl⟩ := Option.map_eq_some_iff.1 hr
    simp [subst, ha, h _ _ hx]
  | case4 => intro r hr; cases hr
  | case5 p rest out a ha ih => intro r hr; rw [subst, if_pos rfl, ha]; exact ih r hr
  | case6 => intro r hr; cases hr
  | case7 p rest out out' hg h1 ih => intro r hr; rw [subst, if_neg (by decide), if_pos rfl, hg]; exact ih r hr
  | case8 out t p rest h1 h2 ha ih => intro r hr; rw [subst, if_neg h1, if_neg h2, ha]; exact ih r hr
  | case9 t rest out h1 h2 a ha ih => intro r hr; rw [subst, if_neg h1, if_neg h2, ha]; simp only [if_true]; exact ih r hr
  | case10 => intro r hr; cases hr
  | case11 out t p rest h1 h2 a ha h3 x hx ih =>
    intro r hr
    rw [subst, if_neg h1, if_neg h2, ha]
    simp only [if_neg h3, h _ _ hx]
    exact ih r hr

theorem expand_succ (T : Text → Option Macro) : ∀ (n : Nat) (ts out : List Tok), expand T n ts = some out → expand T (n + 1) ts = some out := by
  intro n
  induction n with
  | zero => intro ts out h; cases h
  | succ n ih =>
    intro ts out h
    cases ts with
    | nil => exact h
    | cons t ts =>
      have key : ∀ (r : List Tok), (expand T n r).map (t :: ·) = some out → (expand T (n + 1) r).map (t :: ·) = some out := by
        intro r hr
        obtain ⟨x, hx, rfl⟩ := Option.map_eq_some_iff.1 hr
        rw [ih _ _ hx]
        rfl
      rw [expand] at h ⊢
      split at h
      · exact key _ h
      · next m hm =>
        split at h
        · next hp =>
          split at h
          · cases h
          · next body hb =>
            rw [subst_mono ih _ _ _ _ hb]
            exact ih _ _ h
        · next ps hp =>
          cases ts with
          | nil => exact h
          | cons l ts =>
            simp only at h ⊢
            split at h
            · next hl =>
              rw [if_pos hl]
              split at h
              · cases h
              · next args close rest hc =>
                split at h
                · cases h
                · next env he =>
                  split at h
                  · cases h
                  · next body hb =>
                    rw [subst_mono ih _ _ _ _ hb]
                    exact ih _ _ h
            · next hl =>
              rw [if_neg hl]
              exact key _ h

theorem expand_mono {T : Text → Option Macro} {n m : Nat} {ts out : List Tok} (h : expand T n ts = some out) (hnm : n ≤ m) :
    expand T m ts = some out := by
  induction hnm with
  | refl => exact h
  | step _ ih => exact expand_succ T _ _ _ ih

/-! ## Arguments -/

/-- `collect` on spellings. -/
def collectX : Nat → List Text → List Text → Option (List (List Text) × List Text)
  | _, _, [] => none
  | d, cur, t :: ts =>
    if t = lparen then collectX (d + 1) (cur ++ [t]) ts
    else if t = rparen then
      match d with
      | 0 => some ([cur], ts)
      | d + 1 => collectX d (cur ++ [t]) ts
    else if t = comma ∧ d = 0 then
      (collectX 0 [] ts).map fun (as, r) => (cur :: as, r)
    else collectX d (cur ++ [t]) ts

theorem collectX_cons (d : Nat) (cur : List Text) (t : Text) (ts : List Text) : collectX d cur (t :: ts) =
    if t = lparen then collectX (d + 1) (cur ++ [t]) ts
    else if t = rparen then
      match d with
      | 0 => some ([cur], ts)
      | d + 1 => collectX d (cur ++ [t]) ts
    else if t = comma ∧ d = 0 then
      (collectX 0 [] ts).map fun (as, r) => (cur :: as, r)
    else collectX d (cur ++ [t]) ts := by cases d <;> rfl

theorem collect_cons (d : Nat) (cur : List Tok) (t : Tok) (ts : List Tok) : collect d cur (t :: ts) =
    if t.text = lparen then collect (d + 1) (cur ++ [t]) ts
    else if t.text = rparen then
      match d with
      | 0 => some ([cur], t, ts)
      | d + 1 => collect d (cur ++ [t]) ts
    else if t.text = comma ∧ d = 0 then
      (collect 0 [] ts).map fun (as, r) => (cur :: as, r)
    else collect d (cur ++ [t]) ts := by cases d <;> rfl

/-- The spelling of tokens. -/
def spell (ts : List Tok) : List Text := ts.map (·.text)

@[simp] theorem spell_append (a b : List Tok) : spell (a ++ b) = spell a ++ spell b := List.map_append
@[simp] theorem spell_cons (a : Tok) (b : List Tok) : spell (a :: b) = a.text :: spell b := rfl
@[simp] theorem spell_nil : spell [] = [] := rfl

theorem collect_spell (P : Tok → Prop) : ∀ (ts : List Tok) (d : Nat) (cur : List Tok) (as : List (List Text)) (r : List Text),
    collectX d (spell cur) (spell ts) = some (as, r) → (∀ t ∈ cur, P t) → (∀ t ∈ ts, P t) →
    ∃ args close rest, collect d cur ts = some (args, close, rest) ∧ args.map spell = as ∧ spell rest = r ∧
      (∀ a ∈ args, ∀ t ∈ a, P t) ∧ P close ∧ ∀ t ∈ rest, P t := by
  intro ts
  induction ts with
  | nil => intro d cur as r h; cases h
  | cons t ts ih =>
    intro d cur as r h hc ht
    have ht1 := ht t List.mem_cons_self
    have ht2 : ∀ t ∈ ts, P t := fun x hx => ht x (List.mem_cons_of_mem _ hx)
    have hct : ∀ x ∈ cur ++ [t], P x := by
      intro x hx
      rcases List.mem_append.1 hx with hx | hx
      · exact hc x hx
      · rw [List.mem_singleton.1 hx]; exact ht1
    have hsp : spell cur ++ [t.text] = spell (cur ++ [t]) := by simp
    rw [spell_cons, collectX_cons] at h
    rw [collect_cons]
    by_cases h1 : t.text = lparen
    · rw [if_pos h1] at h ⊢
      rw [hsp] at h
      exact ih _ _ _ _ h hct ht2
    · rw [if_neg h1] at h ⊢
      by_cases h2 : t.text = rparen
      · rw [if_pos h2] at h ⊢
        cases d with
        | zero =>
          cases h
          exact ⟨[cur], t, ts, rfl, rfl, rfl, fun a ha => by rw [List.mem_singleton.1 ha]; exact hc, ht1, ht2⟩
        | succ d =>
          rw [hsp] at h
          exact ih _ _ _ _ h hct ht2
      · rw [if_neg h2] at h ⊢
        by_cases h3 : t.text = comma ∧ d = 0
        · rw [if_pos h3] at h ⊢
          obtain ⟨⟨as', r'⟩, hx, he⟩ := Option.map_eq_some_iff.1 h
          cases he
          obtain ⟨args, close, rest, e1, e2, e3, e4, e5, e6⟩ := ih 0 [] _ _ hx (by simp) ht2
          refine ⟨cur :: args, close, rest, by rw [e1]; rfl, by rw [List.map_cons, e2], e3, ?_, e5, e6⟩
          intro a ha
          rcases List.mem_cons.1 ha with rfl | ha
          · exact hc
          · exact e4 a ha
        · rw [if_neg h3] at h ⊢
          rw [hsp] at h
          exact ih _ _ _ _ h hct ht2

theorem collect_append : ∀ (ts : List Tok) (d : Nat) (cur : List Tok) (args : List (List Tok)) (close : Tok) (rest more : List Tok),
    collect d cur ts = some (args, close, rest) → collect d cur (ts ++ more) = some (args, close, rest ++ more) := by
  intro ts
  induction ts with
  | nil => intro d cur args close rest more h; cases h
  | cons t ts ih =>
    intro d cur args close rest more h
    rw [collect_cons] at h
    rw [List.cons_append, collect_cons]
    by_cases h1 : t.text = lparen
    · rw [if_pos h1] at h ⊢
      exact ih _ _ _ _ _ _ h
    · rw [if_neg h1] at h ⊢
      by_cases h2 : t.text = rparen
      · rw [if_pos h2] at h ⊢
        cases d with
        | zero => cases h; rfl
        | succ d => exact ih _ _ _ _ _ _ h
      · rw [if_neg h2] at h ⊢
        by_cases h3 : t.text = comma ∧ d = 0
        · rw [if_pos h3] at h ⊢
          obtain ⟨⟨as', r'⟩, hx, he⟩ := Option.map_eq_some_iff.1 h
          cases he
          rw [ih _ _ _ _ _ _ hx]
          rfl
        · rw [if_neg h3] at h ⊢
          exact ih _ _ _ _ _ _ h

/-! ## Replacement lists -/

/-- A part of a replacement list: a token, the i-th parameter, `#` with the i-th, or `##` between the i-th and the j-th. -/
inductive Piece where
  | lit (t : Text)
  | par (i : Nat)
  | str (i : Nat)
  | cat (i j : Nat)
deriving DecidableEq

def piece (ks : List Text) (t : Text) : Piece :=
  match ks.idxOf? t with
  | some i => .par i
  | none => .lit t

def pieces (ks : List Text) : List Text → Option (List Piece)
  | [] => some []
  | [t] => some [piece ks t]
  | t :: p :: rest =>
    if t = hash then
      match ks.idxOf? p with
      | some i => (pieces ks rest).map (.str i :: ·)
      | none => none
    else if t = hashhash then none
    else if p = hashhash then
      match rest with
      | [] => none
      | q :: rest =>
        match ks.idxOf? t, ks.idxOf? q with
        | some i, some j => (pieces ks rest).map (.cat i j :: ·)
        | _, _ => none
    else (pieces ks (p :: rest)).map (piece ks t :: ·)

/-- `glue` on the spellings of two arguments. -/
def glueX : List Text → List Text → Option (List Text)
  | [], _ => none
  | _, [] => none
  | [l], r :: rs => if (l ++ r).all wordChar then some ((l ++ r) :: rs) else none
  | a :: b :: as, rs => (glueX (b :: as) rs).map (a :: ·)

/-- One part of a replacement list with the arguments put in: `raw` as they are, `full` after complete replacement. -/
def fillOne (raw full : List (List Text)) : Piece → Option (List Text)
  | .lit t => some [t]
  | .par i => full[i]?
  | .str i => raw[i]?.map fun a => [stringize a]
  | .cat i j => raw[i]?.bind fun a => raw[j]?.bind fun b => glueX a b

def fill (raw full : List (List Text)) : List Piece → Option (List Text)
  | [] => some []
  | p :: ps =>
    match fillOne raw full p with
    | none => none
    | some x => (fill raw full ps).map (x ++ ·)

theorem argOf_zip {α : Type} (ks : List Text) (vs : List (List α)) (h : ks.length = vs.length) (p : Text) :
    argOf (ks.zip vs) p = (ks.idxOf? p).bind (vs[·]?) := by
  induction ks generalizing vs with
  | nil => rfl
  | cons k ks ih =>
    cases vs with
    | nil => cases h
    | cons v vs =>
      have ih := ih vs (by simpa using h)
      simp only [argOf, List.zip_cons_cons, List.find?_cons, List.idxOf?, List.findIdx?_cons, beq_iff_eq] at ih ⊢
      by_cases hk : k = p
      · simp [hk]
      · rw [if_neg hk]
        simp only [decide_eq_false hk]
        rw [ih]
        cases List.findIdx? (fun x => x == p) ks <;> rfl

theorem glue_spell {P : Tok → Prop} (hP : ∀ l r : Tok, P l → P r → P ⟨l.text ++ r.text, l.hide.filter (· ∈ r.hide)⟩) :
    ∀ (a b out : List Tok) (x : List Text), glueX (spell a) (spell b) = some x → (∀ t ∈ a, P t) → (∀ t ∈ b, P t) →
    ∃ r, glue (out ++ a) b = some (out ++ r) ∧ spell r = x ∧ ∀ t ∈ r, P t := by
  intro a
  induction a with
  | nil => intro b out x h; cases h
  | cons l a ih =>
    intro b out x h ha hb
    cases b with
    | nil => cases a <;> cases h
    | cons r rs =>
      cases a with
      | nil =>
        simp only [spell_cons, spell_nil, glueX] at h
        split at h
        · next hw =>
          cases h
          refine ⟨⟨l.text ++ r.text, l.hide.filter (· ∈ r.hide)⟩ :: rs, ?_, rfl, ?_⟩
          · simp only [glue, List.getLast?_append, List.getLast?_singleton, hw, Bool.true_or, if_true,
              List.dropLast_append_of_ne_nil (List.cons_ne_nil l []), List.dropLast_singleton, List.append_nil, Option.some_or]
          · intro t ht
            rcases List.mem_cons.1 ht with rfl | ht
            · exact hP _ _ (ha _ List.mem_cons_self) (hb _ List.mem_cons_self)
            · exact hb _ (List.mem_cons_of_mem _ ht)
        · cases h
      | cons y a =>
        simp only [spell_cons, glueX] at h
        obtain ⟨x', hx, rfl⟩ := Option.map_eq_some_iff.1 h
        obtain ⟨q, e1, e2, e3⟩ := ih (r :: rs) (out ++ [l]) x' hx (fun t ht => ha t (List.mem_cons_of_mem _ ht)) hb
        refine ⟨l :: q, ?_, by rw [spell_cons, e2], ?_⟩
        · rw [List.append_assoc, List.append_assoc] at e1
          exact e1
        · intro t ht
          rcases List.mem_cons.1 ht with rfl | ht
          · exact ha _ List.mem_cons_self
          · exact e3 _ ht

theorem glueX_ne {a b x : List Text} (h : glueX a b = some x) : a ≠ [] ∧ b ≠ [] := by
  cases a with
  | nil => cases h
  | cons l a =>
    cases b with
    | nil => cases a <;> cases h
    | cons r rs => simp

theorem fill_cons {raw full : List (List Text)} {p : Piece} {ps : List Piece} {b : List Text} (h : fill raw full (p :: ps) = some b) :
    ∃ x y, b = x ++ y ∧ fill raw full ps = some y ∧ fillOne raw full p = some x := by
  rw [fill] at h
  split at h
  · cases h
  · next x hx =>
    obtain ⟨y, hy, rfl⟩ := Option.map_eq_some_iff.1 h
    exact ⟨x, y, rfl, hy, hx⟩

theorem subst_fill {ex : List Tok → Option (List Tok)} {ks : List Text} {vs : List (List Tok)} {full : List (List Text)}
    (hl : ks.length = vs.length) {P : Tok → Prop} (hP0 : ∀ t, P ⟨t, []⟩)
    (hP : ∀ l r : Tok, P l → P r → P ⟨l.text ++ r.text, l.hide.filter (· ∈ r.hide)⟩) (hvs : ∀ a ∈ vs, ∀ t ∈ a, P t)
    (hex : ∀ (i : Nat) a, vs[i]? = some a → ∃ x, ex a = some x ∧ full[i]? = some (spell x) ∧ ∀ t ∈ x, P t) :
    ∀ (body : List Text) (pcs : List Piece) (b : List Text) (out : List Tok), pieces ks body = some pcs → fill (vs.map spell) full pcs = some b →
    ∃ r, subst ex (ks.zip vs) body out = some (out ++ r) ∧ spell r = b ∧ ∀ t ∈ r, P t := by
  have one : ∀ (t : Text) (x : List Text), fillOne (vs.map spell) full (piece ks t) = some x →
      (argOf (ks.zip vs) t = none ∧ x = [t]) ∨
      ∃ a y, argOf (ks.zip vs) t = some a ∧ ex a = some y ∧ spell y = x ∧ ∀ t ∈ y, P t := by
    intro t x h
    rw [argOf_zip ks vs hl]
    unfold piece at h
    cases hk : ks.idxOf? t with
    | none =>
      rw [hk] at h
      cases h
      exact .inl ⟨rfl, rfl⟩
    | some i =>
      rw [hk] at h
      simp only [fillOne] at h
      have hi : i < vs.length := by
        rw [← hl]
        rw [List.idxOf?] at hk
        exact (List.findIdx?_eq_some_iff_getElem.1 hk).1
      obtain ⟨y, e1, e2, e3⟩ := hex i vs[i] (List.getElem?_eq_getElem hi)
      rw [e2] at h
      cases h
      exact .inr ⟨_, y, by simp [List.getElem?_eq_getElem hi], e1, rfl, e3⟩
  have raw : ∀ (t : Text) (i : Nat), ks.idxOf? t = some i → ∃ a, argOf (ks.zip vs) t = some a ∧ (vs.map spell)[i]? = some (spell a) ∧ a ∈ vs := by
    intro t i hk
    rw [argOf_zip ks vs hl, hk]
    have hi : i < vs.length := by
      rw [← hl]
      rw [List.idxOf?] at hk
      exact (List.findIdx?_eq_some_iff_getElem.1 hk).1
    exact ⟨vs[i], by simp [List.getElem?_eq_getElem hi], by simp [List.getElem?_eq_getElem hi], List.getElem_mem hi⟩
  intro body
  fun_induction pieces ks body with
  | case1 =>
    intro pcs b out hp hf
    cases hp
    cases hf
    exact ⟨[], by simp [subst], rfl, by simp⟩
  | case2 t =>
    intro pcs b out hp hf
    cases hp
    obtain ⟨x, y, rfl, hy, hx⟩ := fill_cons hf
    cases hy
    rcases one t x hx with ⟨ha, rfl⟩ | ⟨a, y, ha, he, rfl, hy⟩
    · exact ⟨[⟨t, []⟩], by simp only [subst, ha], rfl, by simpa using hP0 t⟩
    · exact ⟨y, by simp [subst, ha, he], by simp, hy⟩
  | case3 p rest i hi ih =>
    intro pcs b out hp hf
    obtain ⟨pcs, hp', rfl⟩ := Option.map_eq_some_iff.1 hp
    obtain ⟨x, y, rfl, hy, hx⟩ := fill_cons hf
    obtain ⟨a, ha, hr, _⟩ := raw p i hi
    simp only [fillOne, hr, Option.map_some] at hx
    cases hx
    obtain ⟨r, e1, e2, e3⟩ := ih pcs y (out ++ [⟨stringize (spell a), []⟩]) hp' hy
    refine ⟨⟨stringize (spell a), []⟩ :: r, ?_, by simp [e2], ?_⟩
    · rw [subst, if_pos rfl, ha]
      simp only
      rw [List.append_assoc] at e1
      exact e1
    · intro t ht
      rcases List.mem_cons.1 ht with rfl | ht
      · exact hP0 _
      · exact e3 _ ht
  | case4 => intro pcs b out hp; cases hp
  | case5 => intro pcs b out hp; cases hp
  | case6 => intro pcs b out hp; cases hp
  | case7 t h1 h2 q rest i j hj hi ih =>
    intro pcs b out hp hf
    obtain ⟨pcs, hp', rfl⟩ := Option.map_eq_some_iff.1 hp
    obtain ⟨x, y, rfl, hy, hx⟩ := fill_cons hf
    obtain ⟨a, ha, hra, ma⟩ := raw t i hi
    obtain ⟨c, hc, hrc, mc⟩ := raw q j hj
    simp only [fillOne, hra, hrc, Option.bind_some] at hx
    obtain ⟨g, g1, g2, g3⟩ := glue_spell hP a c out x hx (hvs a ma) (hvs c mc)
    have hne := glueX_ne hx
    have ha0 : a ≠ [] := fun h => hne.1 (by rw [h]; rfl)
    have hc0 : c ≠ [] := fun h => hne.2 (by rw [h]; rfl)
    obtain ⟨r, e1, e2, e3⟩ := ih pcs y (out ++ g) hp' hy
    refine ⟨g ++ r, ?_, by rw [spell_append, g2, e2], ?_⟩
    · rw [subst, if_neg h1, if_neg h2, ha]
      simp only [if_true]
      rw [subst, if_neg (by decide), if_pos rfl, hc]
      simp only [Option.getD_some, operand, if_neg ha0, if_neg hc0, g1]
      rw [← List.append_assoc]
      exact e1
    · intro t ht
      rcases List.mem_append.1 ht with ht | ht
      · exact g3 _ ht
      · exact e3 _ ht
  | case8 => intro pcs b out hp; cases hp
  | case9 t p rest h1 h2 h3 ih =>
    intro pcs b out hp hf
    obtain ⟨pcs, hp', rfl⟩ := Option.map_eq_some_iff.1 hp
    obtain ⟨x, y, rfl, hy, hx⟩ := fill_cons hf
    rw [subst, if_neg h1, if_neg h2]
    rcases one t x hx with ⟨ha, rfl⟩ | ⟨a, z, ha, he, rfl, hz⟩
    · obtain ⟨r, e1, e2, e3⟩ := ih pcs y (out ++ [⟨t, []⟩]) hp' hy
      refine ⟨⟨t, []⟩ :: r, ?_, by simp [e2], ?_⟩
      · rw [ha]
        simp only
        rw [List.append_assoc] at e1
        exact e1
      · intro t ht
        rcases List.mem_cons.1 ht with rfl | ht
        · exact hP0 _
        · exact e3 _ ht
    · obtain ⟨r, e1, e2, e3⟩ := ih pcs y (out ++ z) hp' hy
      refine ⟨z ++ r, ?_, by simp [e2], ?_⟩
      · rw [ha]
        simp only [if_neg h3, he]
        rw [List.append_assoc] at e1
        exact e1
      · intro t ht
        rcases List.mem_append.1 ht with ht | ht
        · exact hz _ ht
        · exact e3 _ ht

/-! ## Rules -/

/-- No token hides a name of `A`. -/
def Avoids (A : List Text) (t : Tok) : Prop := ∀ h ∈ t.hide, h ∉ A

/-- Tokens spelled `xs` that hide no name of `A` are replaced by tokens spelled `ys` that hide no name of `A'`. -/
def Gives (T : Text → Option Macro) (A A' : List Text) (xs ys : List Text) : Prop :=
  ∀ ts, spell ts = xs → (∀ t ∈ ts, Avoids A t) → ∃ n out, expand T n ts = some out ∧ spell out = ys ∧ ∀ t ∈ out, Avoids A' t

variable {T : Text → Option Macro}

theorem Gives.weaken {A A' B B' : List Text} {xs ys : List Text} (h : Gives T A A' xs ys) (hA : ∀ x ∈ A, x ∈ B) (hB : ∀ x ∈ B', x ∈ A') :
    Gives T B B' xs ys := by
  intro ts hts ht
  obtain ⟨n, out, e1, e2, e3⟩ := h ts hts fun t h1 x h2 h3 => ht t h1 x h2 (hA x h3)
  exact ⟨n, out, e1, e2, fun t h1 x h2 h3 => e3 t h1 x h2 (hB x h3)⟩

theorem Gives.nil (A : List Text) : Gives T A A [] [] := by
  intro ts hts _
  cases ts with
  | nil => exact ⟨1, [], rfl, rfl, by simp⟩
  | cons t ts => cases hts

/-- A token that no replacement happens at. -/
theorem Gives.cons {A : List Text} {x : Text} {xs ys : List Text} (hx : T x = none ∨ (∃ m ps, T x = some m ∧ m.params = some ps) ∧ xs.head? ≠ some lparen)
    (h : Gives T A A xs ys) : Gives T A A (x :: xs) (x :: ys) := by
  intro ts hts ht
  cases ts with
  | nil => cases hts
  | cons t ts =>
    injection hts with h1 h2
    change t.text = x at h1
    obtain ⟨n, out, e1, e2, e3⟩ := h ts h2 fun t h => ht t (List.mem_cons_of_mem _ h)
    refine ⟨n + 1, t :: out, ?_, by rw [spell_cons, h1, e2], ?_⟩
    · rw [expand]
      by_cases hh : t.text ∈ t.hide
      · simp only [if_pos hh, e1, Option.map_some]
      · rw [if_neg hh, h1]
        rcases hx with hx | ⟨⟨m, ps, hm, hp⟩, hx⟩
        · simp only [hx, e1, Option.map_some]
        · simp only [hm, hp]
          cases ts with
          | nil =>
            cases n with
            | zero => cases e1
            | succ n => cases e1; rfl
          | cons l ts =>
            have : l.text ≠ lparen := by
              intro h
              rw [← h2] at hx
              apply hx
              rw [List.map_cons, h]
              rfl
            simp only [if_neg this, e1, Option.map_some]
    · intro u hu
      rcases List.mem_cons.1 hu with rfl | hu
      · exact ht _ List.mem_cons_self
      · exact e3 u hu

/-- Tokens without macros stay as they are. -/
theorem Gives.plain (A : List Text) {xs : List Text} (h : ∀ x ∈ xs, T x = none) : Gives T A A xs xs := by
  induction xs with
  | nil => exact .nil A
  | cons x xs ih => exact .cons (.inl (h x List.mem_cons_self)) (ih fun y hy => h y (List.mem_cons_of_mem _ hy))

/-- So do macros with parentheses where there are none. -/
theorem Gives.quiet (A : List Text) {xs : List Text} (h : ∀ x ∈ xs, T x = none ∨ ∃ m ps, T x = some m ∧ m.params = some ps) (hp : lparen ∉ xs) :
    Gives T A A xs xs := by
  induction xs with
  | nil => exact .nil A
  | cons x xs ih =>
    have ih := ih (fun y hy => h y (List.mem_cons_of_mem _ hy)) fun h => hp (List.mem_cons_of_mem _ h)
    rcases h x List.mem_cons_self with hx | hx
    · exact .cons (.inl hx) ih
    · refine .cons (.inr ⟨hx, fun hh => hp (List.mem_cons_of_mem _ ?_)⟩) ih
      cases xs with
      | nil => cases hh
      | cons y ys => cases hh; exact List.mem_cons_self

theorem expand_append : ∀ (n : Nat) (ts out more res : List Tok) (m : Nat), expand T n ts = some out → (∀ t ∈ out.getLast?, T t.text = none) →
    expand T m more = some res → expand T (n + m) (ts ++ more) = some (out ++ res) := by
  intro n
  induction n with
  | zero => intro ts out more res m h; cases h
  | succ n ih =>
    intro ts out more res m h ho hm
    cases ts with
    | nil =>
      cases h
      exact expand_mono hm (by omega)
    | cons t ts =>
      rw [Nat.succ_add]
      rw [expand] at h
      rw [List.cons_append, expand]
      have key : ∀ r, (expand T n r).map (t :: ·) = some out → (expand T (n + m) (r ++ more)).map (t :: ·) = some (out ++ res) := by
        intro r hr
        obtain ⟨x, hx, rfl⟩ := Option.map_eq_some_iff.1 hr
        rw [ih _ _ _ _ _ hx (fun u hu => ho u (by rw [List.getLast?_cons, hu]; rfl)) hm]
        rfl
      have mono : ∀ a x, expand T n a = some x → expand T (n + m) a = some x := fun a x h => expand_mono h (Nat.le_add_right _ _)
      split at h
      · exact key _ h
      · next mc hmc =>
        have hT : T t.text ≠ none := by
          intro h0
          rw [h0] at hmc
          split at hmc <;> cases hmc
        split at h
        · split at h
          · cases h
          · next body hb =>
            rw [subst_mono mono _ _ _ _ hb]
            simp only
            rw [← List.append_assoc]
            exact ih _ _ _ _ _ h ho hm
        · cases ts with
          | nil =>
            cases h
            exact absurd (ho t rfl) hT
          | cons l ts =>
            simp only [List.cons_append] at h ⊢
            split at h
            · next hl =>
              rw [if_pos hl]
              split at h
              · cases h
              · next args close rest hc =>
                rw [collect_append _ _ _ _ _ _ more hc]
                simp only
                split at h
                · cases h
                · split at h
                  · cases h
                  · next body hb =>
                    rw [subst_mono mono _ _ _ _ hb]
                    simp only
                    rw [← List.append_assoc]
                    exact ih _ _ _ _ _ h ho hm
            · next hl =>
              rw [if_neg hl]
              exact key _ h

/-- A text whose replacement does not end with a macro is replaced on its own. -/
theorem Gives.append' {A A' : List Text} {xs ys xs' ys' : List Text} (h : Gives T A A' xs ys) (hy : ∀ y ∈ ys.getLast?, T y = none) (h' : Gives T A A' xs' ys') :
    Gives T A A' (xs ++ xs') (ys ++ ys') := by
  intro ts hts ht
  obtain ⟨t1, t2, rfl, h1, h2⟩ := List.map_eq_append_iff.1 hts
  obtain ⟨n, out, e1, e2, e3⟩ := h t1 h1 fun t h => ht t (List.mem_append_left _ h)
  obtain ⟨m, res, f1, f2, f3⟩ := h' t2 h2 fun t h => ht t (List.mem_append_right _ h)
  refine ⟨n + m, out ++ res, expand_append n _ _ _ _ m e1 ?_ f1, by rw [spell_append, e2, f2], ?_⟩
  · intro t h
    apply hy
    rw [← e2]
    unfold spell
    rw [List.getLast?_map, h]
    rfl
  · intro t h
    rcases List.mem_append.1 h with h | h
    · exact e3 t h
    · exact f3 t h

/-- A text whose replacement has no macros left is replaced on its own. -/
theorem Gives.append {A A' : List Text} {xs ys xs' ys' : List Text} (h : Gives T A A' xs ys) (hy : ∀ y ∈ ys, T y = none) (h' : Gives T A A' xs' ys') :
    Gives T A A' (xs ++ xs') (ys ++ ys') := h.append' (fun y hy' => hy y (List.mem_of_getLast? hy')) h'

/-- What is needed of a macro with parentheses: the number of its named parameters, whether it takes more arguments, and
its replacement list. -/
def info (m : Macro) : Option (Nat × Bool × List Piece) :=
  match m.params with
  | none => none
  | some ps => (pieces (if m.variadic then ps ++ [vaArgs] else ps) m.body).map fun pcs => (ps.length, m.variadic, pcs)

/-- The arguments for the parameters. -/
def arrange {α : Type} (c : α) (k : Nat) (v : Bool) (as : List (List α)) : Option (List (List α)) :=
  if v then if k ≤ as.length then some (as.take k ++ [commas c (as.drop k)]) else none
  else if k = as.length then some as else none

theorem zip_take {α β : Type} (l : List α) (m : List β) : l.zip (m.take l.length) = l.zip m := by
  induction l generalizing m with
  | nil => rfl
  | cons a l ih =>
    cases m with
    | nil => rfl
    | cons b m => simp [ih]

theorem bindArgs_zip {α : Type} {c : α} {ps : List Text} {v : Bool} {as vs : List (List α)} (h : arrange c ps.length v as = some vs) :
    bindArgs c ps v as = some ((if v then ps ++ [vaArgs] else ps).zip vs) ∧ (if v then ps ++ [vaArgs] else ps).length = vs.length := by
  unfold arrange at h
  unfold bindArgs
  cases v with
  | false =>
    simp only [Bool.false_eq_true, if_false] at h ⊢
    split at h
    · next hk => cases h; exact ⟨by rw [if_pos hk], hk⟩
    · cases h
  | true =>
    simp only [if_true] at h ⊢
    split at h
    · next hk =>
      cases h
      rw [if_pos hk]
      constructor
      · rw [List.zip_append (by simp [Nat.min_eq_left hk])]
        rw [zip_take]
        rfl
      · simp [Nat.min_eq_left hk]
    · cases h

theorem commas_spell {c : Tok} (as : List (List Tok)) : spell (commas c as) = commas c.text (as.map spell) := by
  induction as with
  | nil => rfl
  | cons a as ih =>
    cases as with
    | nil => rfl
    | cons b bs =>
      simp only [commas, List.map_cons, spell_append, spell_cons] at ih ⊢
      rw [ih]

theorem mem_commas {α : Type} {c t : α} {as : List (List α)} (h : t ∈ commas c as) : t = c ∨ ∃ a ∈ as, t ∈ a := by
  induction as with
  | nil => cases h
  | cons a as ih =>
    cases as with
    | nil => exact .inr ⟨a, List.mem_cons_self, h⟩
    | cons b bs =>
      rw [commas] at h
      · rcases List.mem_append.1 h with h | h
        · exact .inr ⟨a, List.mem_cons_self, h⟩
        · rcases List.mem_cons.1 h with h | h
          · exact .inl h
          · rcases ih h with h | ⟨x, hx, h⟩
            · exact .inl h
            · exact .inr ⟨x, List.mem_cons_of_mem _ hx, h⟩
      · simp

theorem arrange_spell {c : Tok} {k : Nat} {v : Bool} {as : List (List Tok)} {vals : List (List Text)}
    (h : arrange c.text k v (as.map spell) = some vals) : ∃ vs, arrange c k v as = some vs ∧ vs.map spell = vals ∧
      ∀ a ∈ vs, ∀ t ∈ a, t = c ∨ ∃ a' ∈ as, t ∈ a' := by
  unfold arrange at h ⊢
  rw [List.length_map] at h
  cases v with
  | false =>
    simp only [Bool.false_eq_true, if_false] at h ⊢
    split at h
    · next hk => cases h; exact ⟨as, by rw [if_pos hk], rfl, fun a ha t ht => .inr ⟨a, ha, ht⟩⟩
    · cases h
  | true =>
    simp only [if_true] at h ⊢
    split at h
    · next hk =>
      cases h
      refine ⟨as.take k ++ [commas c (as.drop k)], by rw [if_pos hk], ?_, ?_⟩
      · rw [List.map_append, List.map_take, List.map_singleton, commas_spell, List.map_drop]
      · intro a ha t ht
        rcases List.mem_append.1 ha with ha | ha
        · exact .inr ⟨a, List.mem_of_mem_take ha, ht⟩
        · rw [List.mem_singleton.1 ha] at ht
          rcases mem_commas ht with h | ⟨x, hx, h⟩
          · exact .inl h
          · exact .inr ⟨x, List.mem_of_mem_drop hx, h⟩
    · cases h

/-- The same for a first token that hides no name of `C`, while the others hide no name of `A`. -/
def Gives2 (T : Text → Option Macro) (C A A' : List Text) (x : Text) (xs ys : List Text) : Prop :=
  ∀ t ts, t.text = x → Avoids C t → spell ts = xs → (∀ t ∈ ts, Avoids A t) →
    ∃ n out, expand T n (t :: ts) = some out ∧ spell out = ys ∧ ∀ t ∈ out, Avoids A' t

/-- A call of a macro. -/
theorem Gives2.call' {C A A1 A2 : List Text} {x : Text} {m : Macro} {k : Nat} {v : Bool} {pcs : List Piece} {xs : List Text} {as : List (List Text)}
    {rest : List Text} {vals full : List (List Text)} {b ys : List Text} (hx : x ∈ C) (hT : T x = some m) (hm : info m = some (k, v, pcs))
    (hc : collectX 0 [] xs = some (as, rest)) (hv : arrange comma k v as = some vals) (hl : vals.length = full.length)
    (hfull : ∀ e ∈ vals.zip full, Gives T A A1 e.1 e.2) (hA : ∀ y ∈ A1, y ∈ A) (hb : fill vals full pcs = some b) (hne : [] ∉ b)
    (hr : ∀ b' r', spell b' = b → spell r' = rest → (∀ t ∈ b', Avoids (A1.filter (· ≠ x)) t) → (∀ t ∈ r', Avoids A t) →
      ∃ n out, expand T n (b' ++ r') = some out ∧ spell out = ys ∧ ∀ t ∈ out, Avoids A2 t) : Gives2 T C A A2 x (lparen :: xs) ys := by
  intro t ts h1 htC h2 ht
  obtain ⟨l, ts, rfl⟩ : ∃ l ts', ts = l :: ts' := by
    cases ts with
    | nil => cases h2
    | cons t ts => exact ⟨t, ts, rfl⟩
  injection h2 with h2 h3
  change l.text = lparen at h2
  have hrest : ∀ u ∈ ts, Avoids A u := fun u hu => ht u (List.mem_cons_of_mem _ hu)
  have hc' : collectX 0 (spell []) (spell ts) = some (as, rest) := by rw [show spell ts = xs from h3]; exact hc
  obtain ⟨args, close, rst, c1, c2, c3, c4, c5, c6⟩ := collect_spell (Avoids A) ts 0 [] as rest hc' (by simp) hrest
  rw [← c2] at hv
  obtain ⟨vs, v1, v2, v3⟩ := arrange_spell (c := ⟨comma, []⟩) hv
  have hvs : ∀ a ∈ vs, ∀ u ∈ a, Avoids A u := by
    intro a ha u hu
    rcases v3 a ha u hu with h | ⟨a', ha', h⟩
    · rw [h]; intro y hy; cases hy
    · exact c4 a' ha' u h
  unfold info at hm
  split at hm
  · cases hm
  · next ps hps =>
    obtain ⟨pcs', hp, he⟩ := Option.map_eq_some_iff.1 hm
    injection he with he1 he2
    injection he2 with he2 he3
    subst he1 he2 he3
    obtain ⟨b1, b2⟩ := bindArgs_zip v1
    -- enough steps for all arguments
    have hex : ∃ n, ∀ (i : Nat) a, vs[i]? = some a → ∃ y, expand T n a = some y ∧ full[i]? = some (spell y) ∧ ∀ u ∈ y, Avoids A1 u := by
      have hz : ∀ (i : Nat) a, vs[i]? = some a → ∃ n y, expand T n a = some y ∧ full[i]? = some (spell y) ∧ ∀ u ∈ y, Avoids A1 u := by
        intro i a ha
        have hi : i < vs.length := (List.getElem?_eq_some_iff.1 ha).1
        have hif : i < full.length := by rw [← hl, ← v2, List.length_map]; exact hi
        have hiv : i < vals.length := by rw [hl]; exact hif
        have hmem : (vals[i], full[i]) ∈ vals.zip full := by
          have : i < (vals.zip full).length := by rw [List.length_zip]; omega
          have e := List.getElem_mem this
          rw [List.getElem_zip] at e
          exact e
        have hva : spell a = vals[i] := by
          have : vals[i]? = some (spell a) := by rw [← v2, List.getElem?_map, ha]; rfl
          rw [List.getElem?_eq_getElem hiv] at this
          exact (Option.some.inj this).symm
        obtain ⟨n, y, e1, e2, e3⟩ := hfull _ hmem a hva (hvs a (List.mem_of_getElem? ha))
        exact ⟨n, y, e1, by rw [List.getElem?_eq_getElem hif, e2], e3⟩
      clear v1 v2 v3 hvs b1 b2 hv hl hfull
      have hbound : ∀ j, ∃ n, ∀ (i : Nat) a, i < j → vs[i]? = some a → ∃ y, expand T n a = some y ∧ full[i]? = some (spell y) ∧ ∀ u ∈ y, Avoids A1 u := by
        intro j
        induction j with
        | zero => exact ⟨0, fun i a h => absurd h (Nat.not_lt_zero _)⟩
        | succ j ih =>
          obtain ⟨n, hn⟩ := ih
          by_cases hj : j < vs.length
          · obtain ⟨n', y, e1, e2, e3⟩ := hz j vs[j] (List.getElem?_eq_getElem hj)
            refine ⟨max n n', fun i a hi ha => ?_⟩
            by_cases hij : i < j
            · obtain ⟨y, f1, f2, f3⟩ := hn i a hij ha
              exact ⟨y, expand_mono f1 (Nat.le_max_left _ _), f2, f3⟩
            · have : i = j := by omega
              subst this
              rw [List.getElem?_eq_getElem hj] at ha
              cases ha
              exact ⟨y, expand_mono e1 (Nat.le_max_right _ _), e2, e3⟩
          · refine ⟨n, fun i a hi ha => ?_⟩
            have := (List.getElem?_eq_some_iff.1 ha).1
            exact hn i a (by omega) ha
      obtain ⟨n, hn⟩ := hbound vs.length
      exact ⟨n, fun i a ha => hn i a (List.getElem?_eq_some_iff.1 ha).1 ha⟩
    obtain ⟨n, hn⟩ := hex
    have hP : ∀ l r : Tok, Avoids A1 l → Avoids A1 r → Avoids A1 ⟨l.text ++ r.text, l.hide.filter (· ∈ r.hide)⟩ := by
      intro l r hl _ h hh
      exact hl h (List.mem_filter.1 hh).1
    obtain ⟨r, r1, r2, r3⟩ := subst_fill (ex := expand T n) b2 (P := Avoids A1) (by intro t h hh; cases hh) hP
      (fun a ha u hu h hh hA1 => hvs a ha u hu h hh (hA h hA1)) hn m.body pcs' b [] hp (by rw [v2]; exact hb)
    obtain ⟨n', out, o1, o2, o3⟩ := hr (hsadd (t.text :: t.hide.filter (· ∈ close.hide)) r) rst (by
        rw [← r2]
        have : (r.filter fun t => t.text ≠ []) = r := by
          rw [List.filter_eq_self]
          intro u hu
          have : u.text ≠ [] := by
            intro h0
            apply hne
            rw [← r2, ← h0]
            exact List.mem_map_of_mem hu
          simpa using this
        unfold hsadd
        rw [this]
        simp [spell, Function.comp_def]) c3 (by
        intro u hu
        unfold hsadd at hu
        obtain ⟨w, hw, rfl⟩ := List.mem_map.1 hu
        have hw := (List.mem_filter.1 hw).1
        intro h hh hA1
        have hA1' := List.mem_filter.1 hA1
        rcases List.mem_append.1 hh with hh | hh
        · exact r3 w hw h hh hA1'.1
        · rcases List.mem_cons.1 hh with rfl | hh
          · simp [h1] at hA1'
          · exact c5 h (by simpa using (List.mem_filter.1 hh).2) (hA h hA1'.1)) c6
    refine ⟨max n n' + 1, out, ?_, o2, o3⟩
    rw [expand]
    have hnot : t.text ∉ t.hide := by
      intro hh
      exact htC _ hh (by rw [h1]; exact hx)
    rw [if_neg hnot, h1]
    simp only [hT, hps]
    rw [if_pos h2, c1]
    simp only [b1]
    rw [subst_mono (fun a x h => expand_mono h (Nat.le_max_left n n')) _ _ _ _ r1]
    simp only [List.nil_append]
    rw [← h1]
    exact expand_mono o1 (Nat.le_max_right n n')

theorem Gives2.gives {A A' : List Text} {x : Text} {xs ys : List Text} (h : Gives2 T A A A' x xs ys) : Gives T A A' (x :: xs) ys := by
  intro ts hts ht
  cases ts with
  | nil => cases hts
  | cons t ts =>
    injection hts with h1 h2
    exact h t ts h1 (ht t List.mem_cons_self) h2 fun u hu => ht u (List.mem_cons_of_mem _ hu)

theorem Gives2.call {C A A1 A2 : List Text} {x : Text} {m : Macro} {k : Nat} {v : Bool} {pcs : List Piece} {xs : List Text} {as : List (List Text)}
    {rest : List Text} {vals full : List (List Text)} {b ys : List Text} (hx : x ∈ C) (hT : T x = some m) (hm : info m = some (k, v, pcs))
    (hc : collectX 0 [] xs = some (as, rest)) (hv : arrange comma k v as = some vals) (hl : vals.length = full.length)
    (hfull : ∀ e ∈ vals.zip full, Gives T A A1 e.1 e.2) (hA : ∀ y ∈ A1, y ∈ A) (hb : fill vals full pcs = some b) (hne : [] ∉ b)
    (hr : Gives T (A1.filter (· ≠ x)) A2 (b ++ rest) ys) : Gives2 T C A A2 x (lparen :: xs) ys := by
  refine Gives2.call' hx hT hm hc hv hl hfull hA hb hne fun b' r' h1 h2 h3 h4 => hr (b' ++ r') (by rw [spell_append, h1, h2]) fun t ht => ?_
  rcases List.mem_append.1 ht with ht | ht
  · exact h3 t ht
  · exact fun y hy hA' => h4 t ht y hy (hA y (List.mem_filter.1 hA').1)

theorem Gives.call {A A1 A2 : List Text} {x : Text} {m : Macro} {k : Nat} {v : Bool} {pcs : List Piece} {xs : List Text} {as : List (List Text)}
    {rest : List Text} {vals full : List (List Text)} {b ys : List Text} (hx : x ∈ A) (hT : T x = some m) (hm : info m = some (k, v, pcs))
    (hc : collectX 0 [] xs = some (as, rest)) (hv : arrange comma k v as = some vals) (hl : vals.length = full.length)
    (hfull : ∀ e ∈ vals.zip full, Gives T A A1 e.1 e.2) (hA : ∀ y ∈ A1, y ∈ A) (hb : fill vals full pcs = some b) (hne : [] ∉ b)
    (hr : Gives T (A1.filter (· ≠ x)) A2 (b ++ rest) ys) : Gives T A A2 (x :: lparen :: xs) ys :=
  (Gives2.call hx hT hm hc hv hl hfull hA hb hne hr).gives

/-- A call that leaves one token before the rest. -/
theorem Gives.call1 {A A1 A2 : List Text} {x : Text} {m : Macro} {k : Nat} {v : Bool} {pcs : List Piece} {xs : List Text} {as : List (List Text)}
    {rest : List Text} {vals full : List (List Text)} {y : Text} {ys : List Text} (hx : x ∈ A) (hT : T x = some m) (hm : info m = some (k, v, pcs))
    (hc : collectX 0 [] xs = some (as, rest)) (hv : arrange comma k v as = some vals) (hl : vals.length = full.length)
    (hfull : ∀ e ∈ vals.zip full, Gives T A A1 e.1 e.2) (hA : ∀ y ∈ A1, y ∈ A) (hb : fill vals full pcs = some [y]) (hne : y ≠ [])
    (hr : Gives2 T (A1.filter (· ≠ x)) A A2 y rest ys) : Gives T A A2 (x :: lparen :: xs) ys := by
  refine (Gives2.call' hx hT hm hc hv hl hfull hA hb (by simpa using hne.symm) fun b' r' h1 h2 h3 h4 => ?_).gives
  cases b' with
  | nil => cases h1
  | cons t b' =>
    injection h1 with h1 h1'
    cases b' with
    | nil => exact hr t r' h1 (h3 t List.mem_cons_self) h2 h4
    | cons u b' => cases h1'

end Configor.Preproc
