import Verif.Proofs.BindTable
/-!
# `CONFIGOR_BIND`, step by step
-/
set_option autoImplicit false
set_option maxRecDepth 100000

namespace Configor.Preproc
open Spec

variable {user : Text → Option Macro}

theorem macros_of_header {t : Text} {m : Macro} (h : inHeader t = some m) : macros user t = some m := by
  unfold inHeader at h
  obtain ⟨d, hd, rfl⟩ := Option.map_eq_some_iff.1 h
  unfold macros
  rw [hd]

theorem macros_of_none {t : Text} (h : inHeader t = none) : macros user t = user t := by
  unfold inHeader at h
  unfold macros
  rw [Option.map_eq_none_iff.1 h]

/-- What the table says of a macro. -/
theorem known {x : Text} {k : Nat} {v : Bool} {pcs : List Piece} (h : (x, k, v, pcs) ∈ table) :
    ∃ m, macros user x = some m ∧ info m = some (k, v, pcs) := by
  have := List.all_eq_true.1 table_ok _ h
  have := beq_iff_eq.1 this
  obtain ⟨m, h1, h2⟩ := Option.bind_eq_some_iff.1 this
  exact ⟨m, macros_of_header h1, h2⟩

theorem known_params {x : Text} {k : Nat} {v : Bool} {pcs : List Piece} (h : (x, k, v, pcs) ∈ table) :
    ∃ m ps, macros user x = some m ∧ m.params = some ps := by
  obtain ⟨m, h1, h2⟩ := known (user := user) h
  cases hp : m.params with
  | none => simp [info, hp] at h2
  | some ps => exact ⟨m, ps, h1, hp⟩

theorem other (hu : Harmless user) {t : Text} (h : t ∈ others) : macros user t = none := by
  have h0 := List.all_eq_true.1 others_ok _ h
  rw [macros_of_none (Option.isNone_iff_eq_none.1 h0)]
  unfold others at h
  have nameless : ∀ ts : List Text, ts.all (fun t => match t with
      | [] => false
      | c :: _ => !(wordChar c && !(decide (0x30 ≤ c) && decide (c ≤ 0x39)))) = true → ∀ t ∈ ts, user t = none := by
    intro ts hts t ht
    have := List.all_eq_true.1 hts t ht
    cases t with
    | nil => cases this
    | cons c t =>
      cases hx : user (c :: t) with
      | none => rfl
      | some m =>
        obtain ⟨h1, h2⟩ := hu.names c t (by rw [hx]; simp)
        simp only [h1, Bool.true_and, Bool.not_not, Bool.and_eq_true, decide_eq_true_eq] at this
        exact absurd this h2
  rcases List.mem_append.1 h with h | h
  · rcases List.mem_append.1 h with h | h
    · rcases List.mem_append.1 h with h | h
      · exact hu.words t h
      · exact nameless puncts (by decide +kernel) t h
    · exact nameless nums (by decide +kernel) t h
  · have : t = nCallOver false ∨ t = nCallOver true := by simpa using h
    rcases this with rfl | rfl
    · exact hu.own (text! "_TO_CONF_CALL_OVERLOAD")
    · exact hu.own (text! "_FROM_CONF_CALL_OVERLOAD")

/-! ## Arguments -/

theorem collectX_matched {g : List Text} (h : Matched g) : ∀ (d : Nat) (cur r : List Text),
    collectX (d + 1) cur (g ++ r) = collectX (d + 1) (cur ++ g) r := by
  induction h with
  | nil => intro d cur r; simp
  | tok h1 h2 h ih =>
    intro d cur r
    rw [List.cons_append, collectX_cons, if_neg h1, if_neg h2, if_neg (by simp), ih]
    simp
  | group hg h ih1 ih2 =>
    intro d cur r
    rw [List.cons_append, collectX_cons, if_pos rfl, List.append_assoc, ih1, List.cons_append, collectX_cons, if_neg (by decide), if_pos rfl]
    simp only
    rw [ih2]
    simp

theorem collectX_argument {a : List Text} (h : Argument a) : ∀ (cur r : List Text), collectX 0 cur (a ++ r) = collectX 0 (cur ++ a) r := by
  induction h with
  | nil => intro cur r; simp
  | tok h1 h2 h3 h ih =>
    intro cur r
    rw [List.cons_append, collectX_cons, if_neg h1, if_neg h2, if_neg (by simp [h3]), ih]
    simp
  | group hg h ih =>
    intro cur r
    rw [List.cons_append, collectX_cons, if_pos rfl, List.append_assoc, collectX_matched hg, List.cons_append, collectX_cons, if_neg (by decide), if_pos rfl]
    simp only
    rw [ih]
    simp

theorem collectX_args : ∀ (as : List (List Text)) (rest : List Text), as ≠ [] → (∀ a ∈ as, Argument a) →
    collectX 0 [] (commas comma as ++ rparen :: rest) = some (as, rest) := by
  intro as
  induction as with
  | nil => intro rest h; exact absurd rfl h
  | cons a as ih =>
    intro rest _ h
    have ha := h a List.mem_cons_self
    cases as with
    | nil =>
      rw [commas, collectX_argument ha, collectX_cons, if_neg (by decide), if_pos rfl]
      rfl
    | cons b bs =>
      rw [commas, List.append_assoc, collectX_argument ha, List.cons_append, collectX_cons, if_neg (by decide), if_neg (by decide), if_pos ⟨rfl, rfl⟩,
        ih rest (by simp) fun x hx => h x (List.mem_cons_of_mem _ hx)]
      · rfl
      · simp

theorem _root_.Configor.Spec.Argument.append {a b : List Text} (ha : Argument a) (hb : Argument b) : Argument (a ++ b) := by
  induction ha with
  | nil => exact hb
  | tok h1 h2 h3 h ih => exact .tok h1 h2 h3 ih
  | group hg h ih =>
    rw [List.cons_append, List.append_assoc, List.cons_append]
    exact .group hg ih

theorem _root_.Configor.Spec.Matched.append {a b : List Text} (ha : Matched a) (hb : Matched b) : Matched (a ++ b) := by
  induction ha with
  | nil => exact hb
  | tok h1 h2 h ih => exact .tok h1 h2 ih
  | group hg h _ ih =>
    rw [List.cons_append, List.append_assoc, List.cons_append]
    exact .group hg ih

theorem _root_.Configor.Spec.Argument.matched {a : List Text} (h : Argument a) : Matched a := by
  induction h with
  | nil => exact .nil
  | tok h1 h2 _ _ ih => exact .tok h1 h2 ih
  | group hg _ ih => exact .group hg ih

theorem _root_.Configor.Spec.Matched.commas {as : List (List Text)} (h : ∀ a ∈ as, Argument a) : Matched (commas comma as) := by
  induction as with
  | nil => exact .nil
  | cons a as ih =>
    have ha := (h a List.mem_cons_self).matched
    cases as with
    | nil => exact ha
    | cons b bs =>
      rw [Preproc.commas]
      · exact Matched.append ha (.tok (by decide) (by decide) (ih fun x hx => h x (List.mem_cons_of_mem _ hx)))
      · simp

/-- A name, alone or with arguments, is an argument. -/
theorem _root_.Configor.Spec.Argument.word {t : Text} (h : t ≠ lparen ∧ t ≠ rparen ∧ t ≠ comma) : Argument [t] := .tok h.1 h.2.1 h.2.2 .nil

theorem _root_.Configor.Spec.Argument.call {t : Text} (h : t ≠ lparen ∧ t ≠ rparen ∧ t ≠ comma) {g ts : List Text} (hg : Matched g) (hts : Argument ts) :
    Argument (t :: lparen :: (g ++ rparen :: ts)) := .tok h.1 h.2.1 h.2.2 (.group hg hts)

/-! ## Calls -/

theorem fill_append (raw full : List (List Text)) (a b : List Piece) :
    fill raw full (a ++ b) = (fill raw full a).bind fun x => (fill raw full b).map (x ++ ·) := by
  induction a with
  | nil => simp [fill]
  | cons p a ih =>
    simp only [List.cons_append, fill]
    cases fillOne raw full p with
    | none => rfl
    | some x =>
      simp only [ih]
      cases fill raw full a with
      | none => rfl
      | some y => cases fill raw full b <;> simp

theorem fill_lits (raw full : List (List Text)) (ts : List Text) : fill raw full (lits ts) = some ts := by
  induction ts with
  | nil => rfl
  | cons t ts ih =>
    show (match fillOne raw full (.lit t) with | none => none | some x => (fill raw full (lits ts)).map (x ++ ·)) = _
    rw [ih]
    rfl

/-- A call with these arguments. -/
theorem Gives.of_table {A A1 A2 : List Text} {x : Text} {k : Nat} {v : Bool} {pcs : List Piece} {as : List (List Text)}
    {rest : List Text} {vals full : List (List Text)} {b ys : List Text} (ht : (x, k, v, pcs) ∈ table) (hx : x ∈ A)
    (h0 : as ≠ []) (has : ∀ a ∈ as, Argument a) (hv : arrange comma k v as = some vals) (hl : vals.length = full.length)
    (hfull : ∀ e ∈ vals.zip full, Gives (macros user) A A1 e.1 e.2) (hA : ∀ y ∈ A1, y ∈ A) (hb : fill vals full pcs = some b) (hne : [] ∉ b)
    (hr : Gives (macros user) (A1.filter (· ≠ x)) A2 (b ++ rest) ys) :
    Gives (macros user) A A2 (x :: lparen :: (commas comma as ++ rparen :: rest)) ys := by
  obtain ⟨m, h1, h2⟩ := known (user := user) ht
  exact Gives.call hx h1 h2 (collectX_args as rest h0 has) hv hl hfull hA hb hne hr

/-- No macros, and tokens with characters. -/
def Clear (user : Text → Option Macro) (ys : List Text) : Prop := ∀ y ∈ ys, macros user y = none ∧ y ≠ []

theorem Clear.gives {ys : List Text} (h : Clear user ys) (A : List Text) : Gives (macros user) A A ys ys :=
  .plain A fun y hy => (h y hy).1

theorem Clear.ne {ys : List Text} (h : Clear user ys) : [] ∉ ys := fun hy => (h _ hy).2 rfl

theorem Clear.append {xs ys : List Text} (h : Clear user xs) (h' : Clear user ys) : Clear user (xs ++ ys) := by
  intro y hy
  rcases List.mem_append.1 hy with hy | hy
  · exact h y hy
  · exact h' y hy

theorem Clear.of_others (hu : Harmless user) {ys : List Text} (h : ∀ y ∈ ys, y ∈ others) (h0 : [] ∉ ys) : Clear user ys :=
  fun y hy => ⟨other hu (h y hy), fun e => h0 (e ▸ hy)⟩

theorem Clear.commas {as : List (List Text)} (hu : Harmless user) (h : ∀ a ∈ as, Clear user a) : Clear user (commas comma as) := by
  intro y hy
  rcases mem_commas hy with rfl | ⟨a, ha, hy⟩
  · exact ⟨other hu (by decide +kernel), by decide⟩
  · exact h a ha y hy

/-- `__CONFIGOR_EXPAND(...)` -/
theorem gives_expand' {A A1 : List Text} {inner ys : List Text} (hx : nExpand ∈ A) (hi : Argument inner) (h : Gives (macros user) A A1 inner ys)
    (hA : ∀ y ∈ A1, y ∈ A) (hne : [] ∉ ys) (hy : ∀ A, Gives (macros user) A A ys ys) :
    Gives (macros user) A (A1.filter (· ≠ nExpand)) (nExpand :: lparen :: (inner ++ [rparen])) ys := by
  have := Gives.of_table (user := user) (A := A) (A1 := A1) (A2 := A1.filter (· ≠ nExpand)) (x := nExpand) (k := 1) (v := false) (pcs := [.par 0]) (as := [inner]) (rest := [])
    (vals := [inner]) (full := [ys]) (b := ys) (ys := ys) (by decide +kernel) hx (by simp) (by simpa using hi) (by simp [arrange]) rfl
    (by simpa using h) hA (by simp [fill, fillOne]) hne (by rw [List.append_nil]; exact hy _)
  simpa [commas] using this

theorem gives_expand {A A1 : List Text} {inner ys : List Text} (hx : nExpand ∈ A) (hi : Argument inner) (h : Gives (macros user) A A1 inner ys)
    (hA : ∀ y ∈ A1, y ∈ A) (hy : Clear user ys) :
    Gives (macros user) A (A1.filter (· ≠ nExpand)) (nExpand :: lparen :: (inner ++ [rparen])) ys :=
  gives_expand' hx hi h hA hy.ne hy.gives

/-- `__CONFIGOR_GET_ARG_MAX50(...)`: the 51st argument. -/
theorem gives_getArg {A : List Text} {as : List (List Text)} {a : List Text} {rest ys A2 : List Text} (hx : nGetArg ∈ A) (hl : 51 ≤ as.length)
    (has : ∀ a ∈ as, Argument a) (hq : ∀ a ∈ as.take 51, Gives (macros user) A A a a) (hd : Gives (macros user) A A (commas comma (as.drop 51)) (commas comma (as.drop 51)))
    (ha : as[50]? = some a) (hne : [] ∉ a) (hr : Gives (macros user) (A.filter (· ≠ nGetArg)) A2 (a ++ rest) ys) :
    Gives (macros user) A A2 (nGetArg :: lparen :: (commas comma as ++ rparen :: rest)) ys := by
  refine Gives.of_table (A1 := A) (k := 51) (v := true) (pcs := [.par 50]) (vals := as.take 51 ++ [commas comma (as.drop 51)])
    (full := as.take 51 ++ [commas comma (as.drop 51)]) (b := a) (by decide +kernel) hx ?_ has (by simp [arrange, hl]) rfl ?_ (fun y h => h) ?_ hne hr
  · intro h; rw [h] at hl; simp at hl
  · intro e he
    have : e.1 = e.2 ∧ e.1 ∈ as.take 51 ++ [commas comma (as.drop 51)] := by
      generalize as.take 51 ++ [commas comma (as.drop 51)] = l at he
      induction l with
      | nil => cases he
      | cons z l ih =>
        rw [List.zip_cons_cons] at he
        rcases List.mem_cons.1 he with rfl | he
        · exact ⟨rfl, List.mem_cons_self⟩
        · exact ⟨(ih he).1, List.mem_cons_of_mem _ (ih he).2⟩
    rw [← this.1]
    rcases List.mem_append.1 this.2 with h | h
    · exact hq _ h
    · rw [List.mem_singleton.1 h]; exact hd
  · have : (as.take 51 ++ [commas comma (as.drop 51)])[50]? = some a := by
      rw [List.getElem?_append_left (by simp; omega), List.getElem?_take_of_lt (by decide), ha]
    simp [fill, fillOne, this]

/-! ## Counting the arguments -/

theorem commas_eq {α : Type} (c : α) (a : List α) (as : List (List α)) : commas c (a :: as) = a ++ as.flatMap (c :: ·) := by
  induction as generalizing a with
  | nil => simp [commas]
  | cons b bs ih => rw [commas, ih]; simp; simp

theorem flatMap_single {α : Type} (c : α) (ks : List α) : (ks.map ([·])).flatMap (c :: ·) = ks.flatMap fun k => [c, k] := by
  induction ks with
  | nil => rfl
  | cons k ks ih => simp [ih]

theorem fill_words (raw full : List (List Text)) (ks : List Text) :
    fill raw full (ks.flatMap fun k => [cm, .lit k]) = some (ks.flatMap fun k => [comma, k]) := by
  have : (ks.flatMap fun k => [cm, .lit k]) = lits (ks.flatMap fun k => [comma, k]) := by
    induction ks with
    | nil => rfl
    | cons k ks ih => simp only [List.flatMap_cons, ih, lits, List.map_append]; rfl
  rw [this, fill_lits]

theorem mem_filter_ne {A : List Text} {x y : Text} (h : x ∈ A) (hne : x ≠ y) : x ∈ A.filter (· ≠ y) :=
  List.mem_filter.2 ⟨h, by simpa using hne⟩

theorem num_word : ∀ n ≤ 50, num n ≠ lparen ∧ num n ≠ rparen ∧ num n ≠ comma ∧ num n ≠ [] := by decide

theorem nums_others : ∀ x ∈ nums, x ∈ others := by
  intro x hx
  unfold others
  exact List.mem_append_left _ (List.mem_append_right _ hx)

theorem num_mem {n : Nat} (h : n ≤ 50) : num n ∈ nums := by
  unfold nums
  refine List.mem_map.2 ⟨50 - n, List.mem_range.2 (by omega), ?_⟩
  rw [show 50 - (50 - n) = n by omega]

theorem clear_num (hu : Harmless user) {n : Nat} (h : n ≤ 50) : Clear user [num n] :=
  .of_others hu (by simpa using nums_others _ (num_mem h)) (by simpa using (num_word n h).2.2.2.symm)

/-- `__CONFIGOR_COUNT_ARGS_MAX50(...)` -/
theorem gives_count (hu : Harmless user) {A : List Text} {args : List (List Text)} (h0 : args ≠ []) (hn : args.length ≤ 50) (ha : ∀ a ∈ args, Argument a)
    (hc : ∀ a ∈ args, Clear user a) (h1 : nCount ∈ A) (h2 : nExpand ∈ A) (h3 : nGetArg ∈ A) :
    Gives (macros user) A (((A.filter (· ≠ nCount)).filter (· ≠ nGetArg)).filter (· ≠ nExpand)) (nCount :: lparen :: (commas comma args ++ [rparen])) [num args.length] := by
  have hall : ∀ a ∈ args ++ nums.map ([·]), Argument a ∧ Clear user a := by
    intro a h
    rcases List.mem_append.1 h with h | h
    · exact ⟨ha a h, hc a h⟩
    · obtain ⟨k, hk, rfl⟩ := List.mem_map.1 h
      obtain ⟨i, hi, rfl⟩ := List.mem_map.1 hk
      have := num_word (50 - i) (by omega)
      exact ⟨.word ⟨this.1, this.2.1, this.2.2.1⟩, clear_num hu (by omega)⟩
  have hlen : (args ++ nums.map ([·])).length = args.length + 51 := by simp [nums]
  have h1l : 1 ≤ args.length := List.length_pos_iff.2 h0
  have hcommas : commas comma (args ++ nums.map ([·])) = commas comma args ++ nums.flatMap fun k => [comma, k] := by
    cases args with
    | nil => exact absurd rfl h0
    | cons a as => rw [List.cons_append, commas_eq, commas_eq, List.flatMap_append, flatMap_single, List.append_assoc]
  refine Gives.of_table (A1 := A) (k := 0) (v := true) (pcs := [.lit nExpand, lp, .lit nGetArg, lp, .par 0] ++ nums.flatMap (fun k => [cm, .lit k]) ++ [rp, rp])
    (vals := [commas comma args]) (full := [commas comma args]) (rest := []) (as := args)
    (b := nExpand :: lparen :: ((nGetArg :: lparen :: (commas comma (args ++ nums.map ([·])) ++ [rparen])) ++ [rparen]))
    (by decide +kernel) h1 h0 ha (by simp [arrange]) rfl ?_ (fun y h => h) ?_ ?_ ?_
  · simpa using (Clear.commas hu hc).gives A
  · rw [hcommas, fill_append, fill_append, fill_words]
    simp [fill, fillOne, lp, rp]
  · have := (Clear.commas hu fun a h => (hall a h).2).ne
    simp only [List.cons_append, List.mem_cons, List.mem_append, this, List.not_mem_nil, or_false, not_or]
    decide
  · rw [List.append_nil]
    refine gives_expand (A := A.filter (· ≠ nCount)) (A1 := (A.filter (· ≠ nCount)).filter (· ≠ nGetArg)) (mem_filter_ne h2 (by decide)) ?_ ?_
      (fun y h => (List.mem_filter.1 h).1) (clear_num hu hn)
    · exact .call (by decide) (.commas fun a h => (hall a h).1) .nil
    · refine gives_getArg (a := [num args.length]) (mem_filter_ne h3 (by decide)) (by omega) (fun a h => (hall a h).1)
        (fun a h => ((hall a (List.mem_of_mem_take h)).2).gives _) ((Clear.commas hu fun a h => (hall a (List.mem_of_mem_drop h)).2).gives _) ?_ (clear_num hu hn).ne ?_
      · rw [List.getElem?_append_right hn, List.getElem?_map, nums, List.getElem?_map, List.getElem?_range (by omega)]
        simp only [Option.map_some]
        rw [show 50 - (50 - args.length) = args.length by omega]
      · rw [List.append_nil]
        exact (clear_num hu hn).gives _

/-! ## Choosing by the number of arguments -/

/-- `__CONFIGOR_CALL_OVERLOAD(N, ...)` -/
theorem gives_overload (hu : Harmless user) {A B : List Text} {N : Text} {args : List (List Text)} {ys : List Text} (h0 : args ≠ []) (hn : args.length ≤ 50)
    (ha : ∀ a ∈ args, Argument a) (hc : ∀ a ∈ args, Clear user a)
    (hA : ∀ x ∈ [nOverload, nExpand, nCombine, nCombineInner, nCount, nGetArg], x ∈ A)
    (hB : ∀ x ∈ B, x ∈ A ∧ x ∉ [nOverload, nExpand, nCombine, nCombineInner, nCount, nGetArg])
    (hN : N ≠ lparen ∧ N ≠ rparen ∧ N ≠ comma) (hNw : N.all wordChar = true) (hN0 : N ≠ []) (hNm : ∃ m ps, macros user N = some m ∧ m.params = some ps)
    (hw : (num args.length).all wordChar = true)
    (hy : Clear user ys) (h : Gives (macros user) B [] ((N ++ num args.length) :: lparen :: (commas comma args ++ [rparen])) ys) :
    Gives (macros user) A [] (nOverload :: lparen :: (commas comma ([N] :: args) ++ [rparen])) ys := by
  have hN1 : Argument [N] := .word hN
  have hcl := Clear.commas hu hc
  have hgN : ∀ A, Gives (macros user) A A [N] [N] := fun A => .quiet A (by intro x hx; rw [List.mem_singleton.1 hx]; exact .inr hNm) (by simpa using Ne.symm hN.1)
  have hnn : ([] : Text) ≠ N := Ne.symm hN0
  have hk := num_word args.length hn
  refine Gives.of_table (A1 := A) (k := 1) (v := true)
    (pcs := [.lit nExpand, lp, .lit nCombine, lp, .par 0, cm, .lit nCount, lp, .par 1, rp, rp, lp, .par 1, rp, rp])
    (vals := [[N], commas comma args]) (full := [[N], commas comma args]) (rest := [])
    (b := nExpand :: lparen :: ((nCombine :: lparen :: (commas comma [[N], nCount :: lparen :: (commas comma args ++ [rparen])] ++
      rparen :: (lparen :: (commas comma args ++ [rparen])))) ++ [rparen]))
    (by decide +kernel) (hA _ (by simp)) (by simp) ?_ (by simp [arrange]) rfl ?_ (fun y h => h) ?_ ?_ ?_
  · intro a h
    rcases List.mem_cons.1 h with rfl | h
    · exact hN1
    · exact ha a h
  · intro e he
    have : e = ([N], [N]) ∨ e = (commas comma args, commas comma args) := by simpa using he
    rcases this with rfl | rfl
    · exact hgN A
    · exact hcl.gives A
  · simp [fill, fillOne, lp, rp, cm, commas]
  · have := hcl.ne
    simp only [commas, List.cons_append, List.nil_append, List.append_assoc, List.mem_cons, List.mem_append, this, List.not_mem_nil, or_false, false_or, hnn, not_or]
    decide
  · rw [List.append_nil]
    have hin : Gives (macros user) (A.filter (· ≠ nOverload)) [] (nCombine :: lparen :: (commas comma [[N], nCount :: lparen :: (commas comma args ++ [rparen])] ++
        rparen :: (lparen :: (commas comma args ++ [rparen])))) ys := by
      refine Gives.of_table (A1 := (((A.filter (· ≠ nOverload)).filter (· ≠ nCount)).filter (· ≠ nGetArg)).filter (· ≠ nExpand)) (k := 2) (v := false)
        (pcs := [.lit nCombineInner, lp, .par 0, cm, .par 1, rp])
        (vals := [[N], nCount :: lparen :: (commas comma args ++ [rparen])]) (full := [[N], [num args.length]])
        (b := nCombineInner :: lparen :: (commas comma [[N], [num args.length]] ++ [rparen]))
        (by decide +kernel) (mem_filter_ne (hA _ (by simp)) (by decide)) (by simp) ?_ (by simp [arrange]) rfl ?_ ?_ ?_ ?_ ?_
      · intro a h
        have : a = [N] ∨ a = nCount :: lparen :: (commas comma args ++ [rparen]) := by simpa using h
        rcases this with rfl | rfl
        · exact hN1
        · exact .call (by decide) (.commas ha) .nil
      · intro e he
        have : e = ([N], [N]) ∨ e = (nCount :: lparen :: (commas comma args ++ [rparen]), [num args.length]) := by simpa using he
        rcases this with rfl | rfl
        · exact (hgN _).weaken (fun x h => h) fun x h => (List.mem_filter.1 (List.mem_filter.1 (List.mem_filter.1 h).1).1).1
        · exact gives_count hu h0 hn ha hc (mem_filter_ne (hA _ (by simp)) (by decide)) (mem_filter_ne (hA _ (by simp)) (by decide))
            (mem_filter_ne (hA _ (by simp)) (by decide))
      · exact fun x h => (List.mem_filter.1 (List.mem_filter.1 (List.mem_filter.1 h).1).1).1
      · simp [fill, fillOne, lp, rp, cm, commas]
      · simp only [commas, List.cons_append, List.nil_append, List.mem_cons, List.not_mem_nil, or_false, hnn, hk.2.2.2.symm, not_or]
        decide
      · have e : nCombineInner :: lparen :: (commas comma [[N], [num args.length]] ++ [rparen]) ++ lparen :: (commas comma args ++ [rparen])
            = nCombineInner :: lparen :: (commas comma [[N], [num args.length]] ++ rparen :: (lparen :: (commas comma args ++ [rparen]))) := by simp
        rw [e]
        refine Gives.of_table (A1 := ((((A.filter (· ≠ nOverload)).filter (· ≠ nCount)).filter (· ≠ nGetArg)).filter (· ≠ nExpand)).filter (· ≠ nCombine)) (k := 2) (v := false)
          (pcs := [.cat 0 1]) (vals := [[N], [num args.length]]) (full := [[N], [num args.length]]) (b := [N ++ num args.length])
          (by decide +kernel) ?_ (by simp) ?_ (by simp [arrange]) rfl ?_ (fun y h => h) ?_ ?_ ?_
        · exact mem_filter_ne (mem_filter_ne (mem_filter_ne (mem_filter_ne (mem_filter_ne (hA _ (by simp)) (by decide)) (by decide)) (by decide)) (by decide)) (by decide)
        · intro a h
          have : a = [N] ∨ a = [num args.length] := by simpa using h
          rcases this with rfl | rfl
          · exact hN1
          · exact .word ⟨hk.1, hk.2.1, hk.2.2.1⟩
        · intro e he
          have : e = ([N], [N]) ∨ e = ([num args.length], [num args.length]) := by simpa using he
          rcases this with rfl | rfl
          · exact hgN _
          · exact (clear_num hu hn).gives _
        · have : ((N ++ num args.length).all wordChar) = true := by rw [List.all_append, hNw, hw]; rfl
          simp only [fill, fillOne, List.getElem?_cons_zero, List.getElem?_cons_succ, Option.bind_some, glueX, this, if_true, Option.map_some, List.append_nil]
        · simp [hN0]
        · refine h.weaken (fun x hx => ?_) fun x hx => hx
          obtain ⟨h1, h2⟩ := hB x hx
          simp only [List.mem_cons, List.not_mem_nil, or_false, not_or] at h2
          exact mem_filter_ne (mem_filter_ne (mem_filter_ne (mem_filter_ne (mem_filter_ne (mem_filter_ne h1 h2.1) h2.2.2.2.2.1) h2.2.2.2.2.2) h2.2.1) h2.2.2.1) h2.2.2.2.1
    refine (gives_expand (mem_filter_ne (hA _ (by simp)) (by decide)) ?_ hin (by simp) hy).weaken (fun x h => h) (by simp)
    refine .call (by decide) (.commas ?_) (.group (.commas ha) .nil)
    intro a h
    have : a = [N] ∨ a = nCount :: lparen :: (commas comma args ++ [rparen]) := by simpa using h
    rcases this with rfl | rfl
    · exact hN1
    · exact .call (by decide) (.commas ha) .nil

/-! ## One field -/

theorem header_no_quote : header.all (fun d => d.1.head? != some 0x22) = true := by decide +kernel

theorem clear_stringize (hu : Harmless user) (a : List Text) : Clear user [stringize a] := by
  intro y hy
  rw [List.mem_singleton.1 hy]
  refine ⟨?_, by simp [stringize]⟩
  have : inHeader (stringize a) = none := by
    unfold inHeader
    rw [Option.map_eq_none_iff, List.find?_eq_none]
    intro d hd
    have := List.all_eq_true.1 header_no_quote d hd
    intro h
    rw [of_decide_eq_true h] at this
    simp [stringize] at this
  rw [macros_of_none this]
  cases hx : user (stringize a) with
  | none => rfl
  | some m =>
    have := (hu.names 0x22 _ (by rw [show (0x22 :: (a.flatten ++ [0x22])) = stringize a from rfl, hx]; simp)).1
    exact absurd this (by decide)

theorem argument_stringize (a : List Text) : Argument [stringize a] :=
  .word ⟨by simp [stringize], by simp [stringize], by simp [stringize]⟩

theorem clear_toks (hu : Harmless user) (ts : List Text) (h : (ts.all fun t => decide (t ∈ others) && t != []) = true) : Clear user ts := by
  intro y hy
  have := List.all_eq_true.1 h y hy
  simp only [Bool.and_eq_true, decide_eq_true_eq, bne_iff_ne, ne_eq] at this
  exact ⟨other hu this.1, this.2⟩

/-- `__CONFIGOR_TO_CONF_REQUIRED(field, name)` and the like: the statement with `ks` for the key. -/
def confStmt (f o : Bool) (fld ks : List Text) : List Text :=
  match f, o with
  | false, false => toks! "c[" ++ ks ++ toks! "].operator=(v." ++ fld ++ toks! ");"
  | true, false => toks! "c.at(" ++ ks ++ toks! ").get(v." ++ fld ++ toks! ");"
  | false, true => toks! "if (v." ++ fld ++ toks! "!= decltype(v." ++ fld ++ toks! "){}) {" ++
      (toks! "c[" ++ ks ++ toks! "].operator=(v." ++ fld ++ toks! ");") ++ toks! "}"
  | true, true => toks! "if (c.count(" ++ ks ++ toks! ")) {" ++ (toks! "c.at(" ++ ks ++ toks! ").get(v." ++ fld ++ toks! ");") ++ toks! "}"

theorem clear_confStmt (hu : Harmless user) (f o : Bool) {fld ks : List Text} (hf : Clear user fld) (hk : Clear user ks) : Clear user (confStmt f o fld ks) := by
  cases f <;> cases o <;> simp only [confStmt]
  · exact (((((clear_toks hu _ (by decide +kernel)).append hk).append (clear_toks hu _ (by decide +kernel))).append hf).append (clear_toks hu _ (by decide +kernel)))
  · exact ((((((clear_toks hu _ (by decide +kernel)).append hf).append (clear_toks hu _ (by decide +kernel))).append hf).append (clear_toks hu _ (by decide +kernel))).append
      (((((clear_toks hu _ (by decide +kernel)).append hk).append (clear_toks hu _ (by decide +kernel))).append hf).append (clear_toks hu _ (by decide +kernel)))).append
      (clear_toks hu _ (by decide +kernel))
  · exact (((((clear_toks hu _ (by decide +kernel)).append hk).append (clear_toks hu _ (by decide +kernel))).append hf).append (clear_toks hu _ (by decide +kernel)))
  · exact ((((clear_toks hu _ (by decide +kernel)).append hk).append (clear_toks hu _ (by decide +kernel))).append
      (((((clear_toks hu _ (by decide +kernel)).append hk).append (clear_toks hu _ (by decide +kernel))).append hf).append (clear_toks hu _ (by decide +kernel)))).append
      (clear_toks hu _ (by decide +kernel))

theorem conf_mem : ∀ f o : Bool, (nConf f o, 2, false, confPieces f o) ∈ table := by decide +kernel

theorem conf1_mem : ∀ f o : Bool, (nConf f o ++ num 1, 1, false, [Piece.lit (nConf f o), lp, .par 0, cm, .str 0, rp]) ∈ table := by decide +kernel

theorem conf2_mem : ∀ f o : Bool, (nConf f o ++ num 2, 2, false, [Piece.lit (nConf f o), lp, .par 0, cm, .par 1, rp]) ∈ table := by decide +kernel

theorem conf_ne : ∀ f : Bool, nConf f false ≠ nConf f true := by decide

theorem conf_nil : ∀ f o : Bool, ¬[] = nConf f o ∧ ¬[] = lparen ∧ ¬[] = comma ∧ ¬[] = rparen := by decide

theorem conf_ne1 : ∀ f o : Bool, nConf f o ≠ nConf f o ++ num 1 ∧ nConf f false ≠ nConf f o ++ num 1 := by decide

theorem conf_ne2 : ∀ f o : Bool, nConf f o ≠ nConf f o ++ num 2 ∧ nConf f false ≠ nConf f o ++ num 2 := by decide

theorem gives_required (hu : Harmless user) (f : Bool) {A : List Text} {fld ks : List Text} (hA : nConf f false ∈ A) (ha : Argument fld) (ha' : Argument ks)
    (hf : Clear user fld) (hk : Clear user ks) :
    Gives (macros user) A [] (nConf f false :: lparen :: (commas comma [fld, ks] ++ [rparen])) (confStmt f false fld ks) := by
  refine Gives.of_table (A1 := A) (k := 2) (v := false) (pcs := confPieces f false) (vals := [fld, ks]) (full := [fld, ks]) (b := confStmt f false fld ks) (rest := [])
    (conf_mem f false) hA (by simp) (by simpa using ⟨ha, ha'⟩) (by simp [arrange]) rfl ?_ (fun y h => h) ?_ (clear_confStmt hu f false hf hk).ne ?_
  · intro e he
    have : e = (fld, fld) ∨ e = (ks, ks) := by simpa using he
    rcases this with rfl | rfl
    · exact hf.gives A
    · exact hk.gives A
  · cases f <;> simp [confPieces, confStmt, fill_append, fill_lits, fill, fillOne]
  · rw [List.append_nil]
    exact ((clear_confStmt hu f false hf hk).gives _).weaken (fun x h => h) (by simp)

theorem gives_conf (hu : Harmless user) (f o : Bool) {A : List Text} {fld ks : List Text} (hA : nConf f o ∈ A) (hA' : nConf f false ∈ A) (ha : Argument fld) (ha' : Argument ks)
    (hf : Clear user fld) (hk : Clear user ks) :
    Gives (macros user) A [] (nConf f o :: lparen :: (commas comma [fld, ks] ++ [rparen])) (confStmt f o fld ks) := by
  cases o with
  | false => exact gives_required hu f hA ha ha' hf hk
  | true =>
    have hreq := fun A h => gives_required hu f (A := A) h ha ha' hf hk
    have he : ∀ e ∈ [fld, ks].zip [fld, ks], Gives (macros user) A A e.1 e.2 := by
      intro e he
      have : e = (fld, fld) ∨ e = (ks, ks) := by simpa using he
      rcases this with rfl | rfl
      · exact hf.gives A
      · exact hk.gives A
    have hA2 : nConf f false ∈ A.filter (· ≠ nConf f true) := mem_filter_ne hA' (conf_ne f)
    have call : [] ∉ nConf f false :: lparen :: (commas comma [fld, ks] ++ [rparen]) := by
      have h1 := hf.ne
      have h2 := hk.ne
      simp only [commas, List.append_assoc, List.cons_append, List.mem_cons, List.mem_append, h1, h2, List.not_mem_nil, or_false, false_or, not_or]
      exact conf_nil f false
    cases f with
    | false =>
      have hpre := ((((clear_toks hu (toks! "if (v.") (by decide +kernel)).append hf).append (clear_toks hu (toks! "!= decltype(v.") (by decide +kernel))).append hf).append
        (clear_toks hu (toks! "){}) {") (by decide +kernel))
      have hpost := clear_toks hu (toks! "}") (by decide +kernel)
      refine Gives.of_table (A1 := A) (k := 2) (v := false) (pcs := confPieces false true) (vals := [fld, ks]) (full := [fld, ks])
        (b := (toks! "if (v." ++ fld ++ toks! "!= decltype(v." ++ fld ++ toks! "){}) {") ++
          ((nConf false false :: lparen :: (commas comma [fld, ks] ++ [rparen])) ++ toks! "}")) (rest := [])
        (by decide +kernel) hA (by simp) (by simpa using ⟨ha, ha'⟩) (by simp [arrange]) rfl he (fun y h => h) ?_ ?_ ?_
      · simp [confPieces, fill_append, fill_lits, fill, fillOne, commas, lp, rp, cm]
      · intro h
        rcases List.mem_append.1 h with h | h
        · exact hpre.ne h
        · rcases List.mem_append.1 h with h | h
          · exact call h
          · exact hpost.ne h
      · rw [List.append_nil]
        have e : confStmt false true fld ks = (toks! "if (v." ++ fld ++ toks! "!= decltype(v." ++ fld ++ toks! "){}) {") ++ (confStmt false false fld ks ++ toks! "}") := by
          simp [confStmt]
        rw [e]
        refine Gives.append ((hpre.gives _).weaken (fun x h => h) (by simp)) (fun y hy => (hpre y hy).1) ?_
        exact Gives.append (hreq _ hA2) (fun y hy => (clear_confStmt hu false false hf hk y hy).1) ((hpost.gives _).weaken (fun x h => h) (by simp))
    | true =>
      have hpre := ((clear_toks hu (toks! "if (c.count(") (by decide +kernel)).append hk).append (clear_toks hu (toks! ")) {") (by decide +kernel))
      have hpost := clear_toks hu (toks! "}") (by decide +kernel)
      refine Gives.of_table (A1 := A) (k := 2) (v := false) (pcs := confPieces true true) (vals := [fld, ks]) (full := [fld, ks])
        (b := (toks! "if (c.count(" ++ ks ++ toks! ")) {") ++
          ((nConf true false :: lparen :: (commas comma [fld, ks] ++ [rparen])) ++ toks! "}")) (rest := [])
        (by decide +kernel) hA (by simp) (by simpa using ⟨ha, ha'⟩) (by simp [arrange]) rfl he (fun y h => h) ?_ ?_ ?_
      · simp [confPieces, fill_append, fill_lits, fill, fillOne, commas, lp, rp, cm]
      · intro h
        rcases List.mem_append.1 h with h | h
        · exact hpre.ne h
        · rcases List.mem_append.1 h with h | h
          · exact call h
          · exact hpost.ne h
      · rw [List.append_nil]
        have e : confStmt true true fld ks = (toks! "if (c.count(" ++ ks ++ toks! ")) {") ++ (confStmt true false fld ks ++ toks! "}") := by
          simp [confStmt]
        rw [e]
        refine Gives.append ((hpre.gives _).weaken (fun x h => h) (by simp)) (fun y hy => (hpre y hy).1) ?_
        exact Gives.append (hreq _ hA2) (fun y hy => (clear_confStmt hu true false hf hk y hy).1) ((hpost.gives _).weaken (fun x h => h) (by simp))

/-- The arguments of `REQUIRED` or `OPTIONAL`. -/
def bArgs (b : Bound) : List (List Text) :=
  match b.name with
  | none => [b.field]
  | some n => [b.field, n]

theorem source_eq (b : Bound) : b.source = word b.optional :: lparen :: (commas comma (bArgs b) ++ [rparen]) := by
  unfold Bound.source bArgs word
  cases b.name <;> simp [commas]

/-- A field whose parts are no macros. -/
def Fine (user : Text → Option Macro) (b : Bound) : Prop := Plain user b.field ∧ ∀ n, b.name = some n → Plain user n

theorem Fine.args {b : Bound} (h : Fine user b) : ∀ a ∈ bArgs b, Argument a ∧ Clear user a := by
  intro a ha
  unfold bArgs at ha
  cases hn : b.name with
  | none =>
    rw [hn] at ha
    rw [List.mem_singleton.1 ha]
    exact ⟨h.1.argument, h.1.macros⟩
  | some n =>
    rw [hn] at ha
    have : a = b.field ∨ a = n := by simpa using ha
    rcases this with rfl | rfl
    · exact ⟨h.1.argument, h.1.macros⟩
    · exact ⟨(h.2 _ hn).argument, (h.2 _ hn).macros⟩

theorem Fine.key {b : Bound} (hu : Harmless user) (h : Fine user b) : Argument b.key ∧ Clear user b.key := by
  unfold Bound.key
  cases hn : b.name with
  | none => exact ⟨argument_stringize _, clear_stringize hu _⟩
  | some n => exact ⟨(h.2 _ hn).argument, (h.2 _ hn).macros⟩

/-- `__CONFIGOR_TO_CONF_REQUIRED1(field)`, `__CONFIGOR_TO_CONF_REQUIRED2(field, name)` and the like. -/
theorem gives_confN (hu : Harmless user) (f : Bool) {A : List Text} {b : Bound} (hb : Fine user b)
    (hA : ∀ x ∈ [nConf f b.optional ++ num 1, nConf f b.optional ++ num 2, nConf f b.optional, nConf f false], x ∈ A) :
    Gives (macros user) A [] ((nConf f b.optional ++ num (bArgs b).length) :: lparen :: (commas comma (bArgs b) ++ [rparen])) (confStmt f b.optional b.field b.key) := by
  have hk := hb.key hu
  have hf : Argument b.field ∧ Clear user b.field := ⟨hb.1.argument, hb.1.macros⟩
  have hne : [] ∉ nConf f b.optional :: lparen :: (commas comma [b.field, b.key] ++ [rparen]) := by
    have h1 := hf.2.ne
    have h2 := hk.2.ne
    simp only [commas, List.append_assoc, List.cons_append, List.mem_cons, List.mem_append, h1, h2, List.not_mem_nil, or_false, false_or, not_or]
    exact conf_nil f b.optional
  have hrest : ∀ k, (k = 1 ∨ k = 2) → Gives (macros user) (A.filter (· ≠ nConf f b.optional ++ num k)) [] (nConf f b.optional :: lparen :: (commas comma [b.field, b.key] ++ [rparen]))
      (confStmt f b.optional b.field b.key) := by
    intro k hk'
    have h1 : nConf f b.optional ≠ nConf f b.optional ++ num k ∧ nConf f false ≠ nConf f b.optional ++ num k := by
      rcases hk' with rfl | rfl
      · exact conf_ne1 f b.optional
      · exact conf_ne2 f b.optional
    exact gives_conf hu f b.optional (mem_filter_ne (hA _ (by simp)) h1.1) (mem_filter_ne (hA _ (by simp)) h1.2) hf.1 hk.1 hf.2 hk.2
  cases hn : b.name with
  | none =>
    have e : bArgs b = [b.field] := by unfold bArgs; rw [hn]
    have e' : b.key = [stringize b.field] := by unfold Bound.key; rw [hn]
    rw [e]
    refine Gives.of_table (A1 := A) (k := 1) (v := false) (pcs := [.lit (nConf f b.optional), lp, .par 0, cm, .str 0, rp]) (vals := [b.field]) (full := [b.field])
      (b := nConf f b.optional :: lparen :: (commas comma [b.field, b.key] ++ [rparen])) (rest := [])
      (conf1_mem f b.optional) (hA _ (by simp)) (by simp) (by simpa using hf.1) (by simp [arrange]) rfl
      (by simpa using hf.2.gives A) (fun y h => h) ?_ hne ?_
    · rw [e']; simp [fill, fillOne, lp, cm, rp, commas]
    · rw [List.append_nil]; exact hrest 1 (.inl rfl)
  | some n =>
    have e : bArgs b = [b.field, n] := by unfold bArgs; rw [hn]
    have e' : b.key = n := by unfold Bound.key; rw [hn]
    rw [e]
    refine Gives.of_table (A1 := A) (k := 2) (v := false) (pcs := [.lit (nConf f b.optional), lp, .par 0, cm, .par 1, rp]) (vals := [b.field, n]) (full := [b.field, n])
      (b := nConf f b.optional :: lparen :: (commas comma [b.field, b.key] ++ [rparen])) (rest := [])
      (conf2_mem f b.optional) (hA _ (by simp)) (by simp) (by rw [← e']; simpa using ⟨hf.1, hk.1⟩) (by simp [arrange]) rfl ?_ (fun y h => h) ?_ hne ?_
    · intro x hx
      have : x = (b.field, b.field) ∨ x = (n, n) := by simpa using hx
      rcases this with rfl | rfl
      · exact hf.2.gives A
      · rw [← e']; exact hk.2.gives A
    · rw [e']; simp [fill, fillOne, lp, cm, rp, commas]
    · rw [List.append_nil]; exact hrest 2 (.inr rfl)

end Configor.Preproc
