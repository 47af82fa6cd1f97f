import Verif.Proofs.BindMacro
/-!
# `CONFIGOR_BIND` with all its fields
-/
set_option autoImplicit false
set_option maxRecDepth 100000

namespace Configor.Preproc
open Spec

variable {user : Text → Option Macro}

theorem Gives2.of_table {C A A1 A2 : List Text} {x : Text} {k : Nat} {v : Bool} {pcs : List Piece} {as : List (List Text)}
    {rest : List Text} {vals full : List (List Text)} {b ys : List Text} (ht : (x, k, v, pcs) ∈ table) (hx : x ∈ C)
    (h0 : as ≠ []) (has : ∀ a ∈ as, Argument a) (hv : arrange comma k v as = some vals) (hl : vals.length = full.length)
    (hfull : ∀ e ∈ vals.zip full, Gives (macros user) A A1 e.1 e.2) (hA : ∀ y ∈ A1, y ∈ A) (hb : fill vals full pcs = some b) (hne : [] ∉ b)
    (hr : Gives (macros user) (A1.filter (· ≠ x)) A2 (b ++ rest) ys) :
    Gives2 (macros user) C A A2 x (lparen :: (commas comma as ++ rparen :: rest)) ys := by
  obtain ⟨m, h1, h2⟩ := known (user := user) ht
  exact Gives2.call hx h1 h2 (collectX_args as rest h0 has) hv hl hfull hA hb hne hr

theorem zip_self {α : Type} {l : List α} {e : α × α} (h : e ∈ l.zip l) : e.1 = e.2 ∧ e.1 ∈ l := by
  induction l with
  | nil => cases h
  | cons z l ih =>
    rw [List.zip_cons_cons] at h
    rcases List.mem_cons.1 h with rfl | h
    · exact ⟨rfl, List.mem_cons_self⟩
    · exact ⟨(ih h).1, List.mem_cons_of_mem _ (ih h).2⟩

/-- The macros that one field needs. -/
def itemNames (f : Bool) : List Text :=
  [nPaste1, nCallOver f ++ word false, nCallOver f ++ word true, nExpand, nOverload, nCombine, nCombineInner, nCount, nGetArg, nConf f false, nConf f true,
    nConf f false ++ num 1, nConf f true ++ num 1, nConf f false ++ num 2, nConf f true ++ num 2]

theorem callOver_mem : ∀ f o : Bool, (nCallOver f ++ word o, 0, true, [Piece.lit nExpand, lp, .lit nOverload, lp, .lit (nConf f o), cm, .par 0, rp, rp]) ∈ table := by
  decide +kernel

theorem names_facts : ∀ f o : Bool,
    (∀ x ∈ [nOverload, nExpand, nCombine, nCombineInner, nCount, nGetArg], x ∈ itemNames f ∧ x ≠ nPaste1 ∧ x ≠ nCallOver f ++ word o) ∧
    (∀ x ∈ [nConf f o ++ num 1, nConf f o ++ num 2, nConf f o, nConf f false], x ∈ itemNames f ∧ x ≠ nPaste1 ∧ x ≠ nCallOver f ++ word o ∧
      x ∉ [nOverload, nExpand, nCombine, nCombineInner, nCount, nGetArg]) ∧
    (nCallOver f ++ word o ∈ itemNames f ∧ nCallOver f ++ word o ≠ nPaste1) ∧
    (nConf f o ≠ lparen ∧ nConf f o ≠ rparen ∧ nConf f o ≠ comma ∧ (nConf f o).all wordChar = true ∧ nConf f o ≠ []) ∧
    (nCallOver f ++ word o ≠ lparen ∧ nCallOver f ++ word o ≠ [] ∧ (nCallOver f ++ word o).all wordChar = true ∧
      nCallOver f ≠ lparen ∧ nCallOver f ≠ rparen ∧ nCallOver f ≠ comma ∧ nCallOver f ≠ [] ∧ nCallOver f ∈ others) ∧
    (word o ≠ lparen ∧ word o ≠ rparen ∧ word o ≠ comma ∧ word o ∈ others ∧ word o ≠ []) := by
  intro f o
  refine ⟨?_, ?_, ?_, ?_, ?_, ?_⟩ <;> (revert f o; decide +kernel)

theorem bArgs_length (b : Bound) : (bArgs b).length = 1 ∨ (bArgs b).length = 2 := by
  unfold bArgs
  cases b.name <;> simp

theorem bArgs_ne (b : Bound) : bArgs b ≠ [] := by
  unfold bArgs
  cases b.name <;> simp

theorem Fine.source {b : Bound} (hu : Harmless user) (h : Fine user b) : Argument b.source ∧ Clear user b.source := by
  obtain ⟨h1, h2, h3, h4, h5⟩ := (names_facts false b.optional).2.2.2.2.2
  rw [source_eq]
  refine ⟨.call ⟨h1, h2, h3⟩ (.commas fun a ha => (h.args a ha).1) .nil, ?_⟩
  have hp : Clear user [word b.optional, lparen] := .of_others hu (by
    intro y hy
    have : y = word b.optional ∨ y = lparen := by simpa using hy
    rcases this with rfl | rfl
    · exact h4
    · decide +kernel) (by
    simp only [List.mem_cons, List.not_mem_nil, or_false, not_or]
    exact ⟨Ne.symm h5, by decide⟩)
  have hq : Clear user [rparen] := .of_others hu (by decide +kernel) (by decide)
  exact (hp.append (Clear.commas hu fun a ha => (h.args a ha).2)).append hq

theorem quiet_paste1 (A : List Text) : Gives (macros user) A A [nPaste1] [nPaste1] :=
  .quiet A (by
    intro x hx
    rw [List.mem_singleton.1 hx]
    exact .inr (known_params (x := nPaste1) (k := 3) (v := false) (pcs := [.cat 1 2]) (by decide +kernel))) (by decide)

/-- The statement for one field. -/
def stmt (f : Bool) (b : Bound) : List Text := confStmt f b.optional b.field b.key

theorem clear_stmt (hu : Harmless user) (f : Bool) {b : Bound} (hb : Fine user b) : Clear user (stmt f b) :=
  clear_confStmt hu f b.optional hb.1.macros (hb.key hu).2

/-- `__CONFIGOR_TO_CONF_CALL_OVERLOADREQUIRED(field, name)` and the like. -/
theorem gives_callOver (hu : Harmless user) (f : Bool) {A : List Text} {b : Bound} (hb : Fine user b) (hA : ∀ x ∈ itemNames f, x ≠ nPaste1 → x ∈ A) :
    Gives (macros user) A [] ((nCallOver f ++ word b.optional) :: lparen :: (commas comma (bArgs b) ++ [rparen])) (stmt f b) := by
  obtain ⟨f1, f2, f3, f4, f5, f6⟩ := names_facts f b.optional
  have hcl := Clear.commas hu fun a ha => (hb.args a ha).2
  have hlen : (bArgs b).length ≤ 50 := by rcases bArgs_length b with h | h <;> omega
  have hargs : ∀ a ∈ [nConf f b.optional] :: bArgs b, Argument a := by
    intro a ha
    rcases List.mem_cons.1 ha with rfl | ha
    · exact .word ⟨f4.1, f4.2.1, f4.2.2.1⟩
    · exact (hb.args a ha).1
  have hcm : commas comma ([nConf f b.optional] :: bArgs b) = nConf f b.optional :: comma :: commas comma (bArgs b) := by
    rw [commas]
    · rfl
    · exact bArgs_ne b
  refine Gives.of_table (A1 := A) (k := 0) (v := true) (pcs := [.lit nExpand, lp, .lit nOverload, lp, .lit (nConf f b.optional), cm, .par 0, rp, rp])
    (vals := [commas comma (bArgs b)]) (full := [commas comma (bArgs b)]) (rest := [])
    (b := nExpand :: lparen :: ((nOverload :: lparen :: (commas comma ([nConf f b.optional] :: bArgs b) ++ [rparen])) ++ [rparen]))
    (callOver_mem f b.optional) (hA _ f3.1 f3.2) (bArgs_ne b) (fun a ha => (hb.args a ha).1) (by simp [arrange]) rfl (by simpa using hcl.gives A) (fun y h => h) ?_ ?_ ?_
  · rw [hcm]; simp [fill, fillOne, lp, rp, cm]
  · rw [hcm]
    have h1 := hcl.ne
    have h2 := Ne.symm f4.2.2.2.2
    simp only [List.cons_append, List.mem_cons, List.mem_append, h1, List.not_mem_nil, or_false, h2, false_or, not_or]
    decide
  · rw [List.append_nil]
    have hmem : ∀ x ∈ [nOverload, nExpand, nCombine, nCombineInner, nCount, nGetArg], x ∈ A.filter (· ≠ nCallOver f ++ word b.optional) :=
      fun x hx => mem_filter_ne (hA x (f1 x hx).1 (f1 x hx).2.1) (f1 x hx).2.2
    refine (gives_expand (A1 := []) (hmem _ (by simp)) ?_ ?_ (by simp) (clear_stmt hu f hb)).weaken (fun x h => h) (by simp)
    · exact .call (by decide) (.commas hargs) .nil
    · refine gives_overload hu (B := [nConf f b.optional ++ num 1, nConf f b.optional ++ num 2, nConf f b.optional, nConf f false]) (bArgs_ne b) hlen
        (fun a ha => (hb.args a ha).1) (fun a ha => (hb.args a ha).2) hmem ?_ ⟨f4.1, f4.2.1, f4.2.2.1⟩ f4.2.2.2.1 f4.2.2.2.2
        (known_params (conf_mem f b.optional)) ?_ (clear_stmt hu f hb) (gives_confN hu f hb fun x h => h)
      · intro x hx
        obtain ⟨h1, h2, h3, h4⟩ := f2 x hx
        exact ⟨mem_filter_ne (hA x h1 h2) h3, h4⟩
      · rcases bArgs_length b with h | h <;> rw [h] <;> decide

/-- `__CONFIGOR_COMBINE_PASTE1(__CONFIGOR_COMBINE_PASTE1, func, REQUIRED(field, name))` and the like. -/
theorem gives_item (hu : Harmless user) (f : Bool) {C A : List Text} {b : Bound} (hb : Fine user b) (hC : nPaste1 ∈ C) (hA : ∀ x ∈ itemNames f, x ∈ A) :
    Gives2 (macros user) C A [] nPaste1 (lparen :: (commas comma [[nPaste1], [nCallOver f], b.source] ++ [rparen])) (stmt f b) := by
  obtain ⟨f1, f2, f3, f4, f5, f6⟩ := names_facts f b.optional
  have hs := hb.source hu
  have hover : Clear user [nCallOver f] := .of_others hu (by simpa using f5.2.2.2.2.2.2.2) (by simpa using Ne.symm f5.2.2.2.2.2.2.1)
  refine Gives2.of_table (A1 := A) (k := 3) (v := false) (pcs := [.cat 1 2]) (vals := [[nPaste1], [nCallOver f], b.source]) (full := [[nPaste1], [nCallOver f], b.source])
    (rest := []) (b := (nCallOver f ++ word b.optional) :: lparen :: (commas comma (bArgs b) ++ [rparen])) (by decide +kernel) hC (by simp) ?_ (by simp [arrange]) rfl ?_
    (fun y h => h) ?_ ?_ ?_
  · intro a ha
    have : a = [nPaste1] ∨ a = [nCallOver f] ∨ a = b.source := by simpa using ha
    rcases this with rfl | rfl | rfl
    · exact .word (by decide)
    · exact .word ⟨f5.2.2.2.1, f5.2.2.2.2.1, f5.2.2.2.2.2.1⟩
    · exact hs.1
  · intro e he
    obtain ⟨h1, h2⟩ := zip_self he
    rw [← h1]
    have : e.1 = [nPaste1] ∨ e.1 = [nCallOver f] ∨ e.1 = b.source := by simpa using h2
    rcases this with h | h | h <;> rw [h]
    · exact quiet_paste1 A
    · exact hover.gives A
    · exact hs.2.gives A
  · rw [source_eq]
    simp only [fill, fillOne, List.getElem?_cons_zero, List.getElem?_cons_succ, Option.bind_some, glueX, f5.2.2.1, if_true, Option.map_some, List.append_nil]
  · have h1 := hs.2.ne
    rw [source_eq] at h1
    have h2 := Ne.symm f5.2.1
    simp only [List.mem_cons, not_or] at h1 ⊢
    exact ⟨h2, h1.2⟩
  · rw [List.append_nil]
    exact gives_callOver hu f hb fun x hx hne => mem_filter_ne (hA x hx) hne

/-! ## All fields -/

theorem paste2_mem : (pasteN 2, 4, false, [Piece.par 0, lp, .par 0, cm, .par 1, cm, .par 2, rp, .par 0, lp, .par 0, cm, .par 1, cm, .par 3, rp]) ∈ table := by decide +kernel

theorem pasteN_mem {n : Nat} (h : 3 ≤ n) (h' : n ≤ 50) : (pasteN n, n + 2, false, pastePieces n) ∈ table := by
  unfold table
  refine List.mem_append_left _ (List.mem_append_right _ (List.mem_map.2 ⟨n - 3, List.mem_range.2 (by omega), ?_⟩))
  rw [show n - 3 + 3 = n by omega, show n - 3 + 5 = n + 2 by omega]

theorem fill_pars (raw full more : List (List Text)) : ∀ (as pre : List (List Text)), full = pre ++ as ++ more →
    fill raw full ((List.range as.length).flatMap fun i => [cm, .par (i + pre.length)]) = some (as.flatMap (comma :: ·)) := by
  intro as
  induction as with
  | nil => intro pre _; rfl
  | cons a as ih =>
    intro pre h
    have := ih (pre ++ [a]) (by rw [h]; simp)
    rw [List.length_cons, List.range_succ_eq_map, List.flatMap_cons, List.flatMap_map, fill_append]
    have e : (fun i => [cm, Piece.par (i + (pre ++ [a]).length)]) = (fun i => [cm, Piece.par (i.succ + pre.length)]) := by
      funext i; simp; omega
    rw [e] at this
    rw [this]
    have ha : full[pre.length]? = some a := by rw [h]; simp
    simp [fill, fillOne, cm, ha]

theorem paste_facts : ∀ n, n ≤ 50 → pasteN n ≠ lparen ∧ pasteN n ≠ rparen ∧ pasteN n ≠ comma ∧ pasteN n ≠ [] ∧ pasteN n ∉ itemNames false ∧ pasteN n ∉ itemNames true := by
  decide +kernel

theorem paste_inj : ∀ n, n ≤ 50 → ∀ m, m ≤ 50 → pasteN m = pasteN n → m = n := by decide +kernel

theorem source_args {f : Bool} (hu : Harmless user) {bs : List Bound} (hb : ∀ b ∈ bs, Fine user b) :
    ∀ a ∈ [nPaste1] :: [nCallOver f] :: bs.map Bound.source, Argument a ∧ (∀ A, Gives (macros user) A A a a) ∧ [] ∉ a := by
  obtain ⟨f1, f2, f3, f4, f5, f6⟩ := names_facts f false
  have hover : Clear user [nCallOver f] := .of_others hu (by simpa using f5.2.2.2.2.2.2.2) (by simpa using Ne.symm f5.2.2.2.2.2.2.1)
  intro a ha
  rcases List.mem_cons.1 ha with rfl | ha
  · exact ⟨.word (by decide), quiet_paste1, by decide⟩
  rcases List.mem_cons.1 ha with rfl | ha
  · exact ⟨.word ⟨f5.2.2.2.1, f5.2.2.2.2.1, f5.2.2.2.2.2.1⟩, hover.gives, hover.ne⟩
  obtain ⟨b, hb', rfl⟩ := List.mem_map.1 ha
  have := (hb b hb').source hu
  exact ⟨this.1, this.2.gives, this.2.ne⟩

theorem commas_nil {as : List (List Text)} (h : ∀ a ∈ as, [] ∉ a) : [] ∉ commas comma as := by
  intro hy
  rcases mem_commas hy with h' | ⟨a, ha, hy⟩
  · exact absurd h' (by decide)
  · exact h a ha hy

/-- `__CONFIGOR_PASTE…(__CONFIGOR_COMBINE_PASTE1, func, fields)` -/
theorem gives_pasteN (hu : Harmless user) (f : Bool) : ∀ (bs : List Bound) (C A : List Text), 2 ≤ bs.length → bs.length ≤ 50 → (∀ b ∈ bs, Fine user b) →
    pasteN bs.length ∈ C → (∀ x ∈ itemNames f, x ∈ A) → (∀ k, k < bs.length → pasteN k ∈ A) →
    Gives2 (macros user) C A [] (pasteN bs.length) (lparen :: (commas comma ([nPaste1] :: [nCallOver f] :: bs.map Bound.source) ++ [rparen])) (bs.flatMap (stmt f)) := by
  intro bs
  induction bs with
  | nil => intro C A h; simp at h
  | cons b bs ih =>
    intro C A h2 h50 hb hC hA hP
    have hargs := source_args (f := f) hu hb
    have hb1 := hb b List.mem_cons_self
    have hbs : ∀ x ∈ bs, Fine user x := fun x hx => hb x (List.mem_cons_of_mem _ hx)
    have hargs' := source_args (f := f) hu hbs
    have hA' : ∀ x ∈ itemNames f, x ∈ A.filter (· ≠ pasteN (b :: bs).length) := by
      intro x hx
      refine mem_filter_ne (hA x hx) fun e => ?_
      have := paste_facts _ h50
      rw [← e] at this
      cases f
      · exact this.2.2.2.2.1 hx
      · exact this.2.2.2.2.2 hx
    have hitem := (gives_item hu f (C := A.filter (· ≠ pasteN (b :: bs).length)) hb1 (hA' _ (by simp [itemNames])) hA').gives
    have hfull : ∀ e ∈ ([nPaste1] :: [nCallOver f] :: (b :: bs).map Bound.source).zip ([nPaste1] :: [nCallOver f] :: (b :: bs).map Bound.source),
        Gives (macros user) A A e.1 e.2 := by
      intro e he
      obtain ⟨h1, h2⟩ := zip_self he
      rw [← h1]
      exact (hargs _ h2).2.1 A
    have n1 := fun f b hb => (clear_stmt (user := user) (b := b) hu f hb)
    have e1 : ∀ b : Bound, nPaste1 :: lparen :: (commas comma [[nPaste1], [nCallOver f], b.source] ++ [rparen])
        = nPaste1 :: lparen :: nPaste1 :: comma :: nCallOver f :: comma :: (b.source ++ [rparen]) := by intro b; simp [commas]
    have hnil : ∀ b, Fine user b → [] ∉ nPaste1 :: lparen :: (commas comma [[nPaste1], [nCallOver f], b.source] ++ [rparen]) := by
      intro b hb
      have : [] ∉ commas comma [[nPaste1], [nCallOver f], b.source] := commas_nil fun a ha =>
        ((source_args (f := f) (bs := [b]) hu (by simpa using hb)) a ha).2.2
      simp only [List.mem_cons, List.mem_append, this, List.not_mem_nil, or_false, false_or, not_or]
      decide
    by_cases hn : bs.length = 1
    · obtain ⟨b', rfl⟩ := List.length_eq_one_iff.1 hn
      have hb2 := hbs b' List.mem_cons_self
      have hitem' := (gives_item hu f (C := A.filter (· ≠ pasteN [b, b'].length)) hb2 (hA' _ (by simp [itemNames])) hA').gives
      refine Gives2.of_table (A1 := A) (rest := []) (full := [nPaste1] :: [nCallOver f] :: [b, b'].map Bound.source)
        (b := nPaste1 :: lparen :: (commas comma [[nPaste1], [nCallOver f], b.source] ++ [rparen]) ++
          nPaste1 :: lparen :: (commas comma [[nPaste1], [nCallOver f], b'.source] ++ [rparen]))
        paste2_mem hC (by simp) (fun a ha => (hargs a ha).1) (by simp [arrange]) rfl hfull (fun y h => h) ?_ ?_ ?_
      · simp [fill, fillOne, lp, rp, cm, commas]
      · rw [List.mem_append, not_or]
        exact ⟨hnil b hb1, hnil b' hb2⟩
      · rw [List.append_nil]
        have e : [b, b'].flatMap (stmt f) = stmt f b ++ stmt f b' := by simp
        rw [e]
        exact Gives.append hitem (fun y hy => (n1 f b hb1 y hy).1) hitem'
    · have h2' : 2 ≤ bs.length := by simp only [List.length_cons] at h2; omega
      have h50' : bs.length ≤ 50 := by simp only [List.length_cons] at h50; omega
      have hP' : ∀ k, k < bs.length + 1 → pasteN k ∈ A.filter (· ≠ pasteN (b :: bs).length) := by
        intro k hk
        refine mem_filter_ne (hP k (by simpa using hk)) fun e => ?_
        have := paste_inj _ h50 k (by omega) e
        simp only [List.length_cons] at this
        omega
      have hrec := (ih (A.filter (· ≠ pasteN (b :: bs).length)) (A.filter (· ≠ pasteN (b :: bs).length)) h2' h50' hbs (hP' _ (by omega)) hA'
        fun k hk => hP' k (by omega)).gives
      refine Gives2.of_table (A1 := A) (rest := []) (full := [nPaste1] :: [nCallOver f] :: (b :: bs).map Bound.source)
        (b := nPaste1 :: lparen :: (commas comma [[nPaste1], [nCallOver f], b.source] ++ [rparen]) ++
          pasteN bs.length :: lparen :: (commas comma ([nPaste1] :: [nCallOver f] :: bs.map Bound.source) ++ [rparen]))
        (pasteN_mem (by simp only [List.length_cons]; omega) h50) hC (by simp) (fun a ha => (hargs a ha).1) (by simp [arrange]) rfl hfull (fun y h => h) ?_ ?_ ?_
      · have hpars := fill_pars ([nPaste1] :: [nCallOver f] :: (b :: bs).map Bound.source) ([nPaste1] :: [nCallOver f] :: (b :: bs).map Bound.source) []
          (bs.map Bound.source) [[nPaste1], [nCallOver f], b.source] (by simp)
        rw [List.length_map] at hpars
        unfold pastePieces
        rw [show (b :: bs).length - 1 = bs.length by simp, fill_append, fill_append]
        rw [show (fun i => [cm, Piece.par (i + 3)]) = (fun i => [cm, Piece.par (i + [[nPaste1], [nCallOver f], b.source].length)]) from rfl, hpars]
        simp [fill, fillOne, lp, rp, cm, commas_eq]
      · rw [List.mem_append, not_or]
        refine ⟨hnil b hb1, ?_⟩
        have : [] ∉ commas comma ([nPaste1] :: [nCallOver f] :: bs.map Bound.source) := commas_nil fun a ha => (hargs' a ha).2.2
        simp only [List.mem_cons, List.mem_append, this, List.not_mem_nil, or_false, false_or, not_or]
        exact ⟨Ne.symm (paste_facts _ h50').2.2.2.1, by decide⟩
      · rw [List.append_nil, List.flatMap_cons]
        exact Gives.append hitem (fun y hy => (n1 f b hb1 y hy).1) hrec

/-- `__CONFIGOR_GET_ARG_MAX50(...)`, when it leaves a name before the rest. -/
theorem gives_getArg1 {A : List Text} {as : List (List Text)} {y : Text} {rest ys A2 : List Text} (hx : nGetArg ∈ A) (hl : 51 ≤ as.length)
    (has : ∀ a ∈ as, Argument a) (hq : ∀ a ∈ as.take 51, Gives (macros user) A A a a) (hd : Gives (macros user) A A (commas comma (as.drop 51)) (commas comma (as.drop 51)))
    (ha : as[50]? = some [y]) (hne : y ≠ []) (hr : Gives2 (macros user) (A.filter (· ≠ nGetArg)) A A2 y rest ys) :
    Gives (macros user) A A2 (nGetArg :: lparen :: (commas comma as ++ rparen :: rest)) ys := by
  obtain ⟨m, h1, h2⟩ := known (user := user) (x := nGetArg) (k := 51) (v := true) (pcs := [.par 50]) (by decide +kernel)
  refine Gives.call1 (A1 := A) (vals := as.take 51 ++ [commas comma (as.drop 51)]) (full := as.take 51 ++ [commas comma (as.drop 51)]) hx h1 h2
    (collectX_args as rest (by intro h; rw [h] at hl; simp at hl) has) (by simp [arrange, hl]) rfl ?_ (fun y h => h) ?_ hne hr
  · intro e he
    obtain ⟨h1, h2⟩ := zip_self he
    rw [← h1]
    rcases List.mem_append.1 h2 with h | h
    · exact hq _ h
    · rw [List.mem_singleton.1 h]; exact hd
  · have : (as.take 51 ++ [commas comma (as.drop 51)])[50]? = some [y] := by
      rw [List.getElem?_append_left (by simp; omega), List.getElem?_take_of_lt (by decide), ha]
    simp [fill, fillOne, this]

theorem pastes_get {n : Nat} (h : 2 ≤ n) (h' : n ≤ 50) : pastes[50 - n]? = some (pasteN n) := by
  unfold pastes
  rw [List.getElem?_map, List.getElem?_range (by omega), Option.map_some, show 50 - (50 - n) = n by omega]

theorem pastes_mem {x : Text} (h : x ∈ pastes) : ∃ n, 2 ≤ n ∧ n ≤ 50 ∧ x = pasteN n := by
  obtain ⟨i, hi, rfl⟩ := List.mem_map.1 h
  have := List.mem_range.1 hi
  exact ⟨50 - i, by omega, by omega, rfl⟩

theorem pasteN_known {n : Nat} (h : 2 ≤ n) (h' : n ≤ 50) : ∃ m ps, macros user (pasteN n) = some m ∧ m.params = some ps := by
  by_cases h3 : n = 2
  · subst h3; exact known_params paste2_mem
  · exact known_params (pasteN_mem (by omega) h')

/-- The macros that the list of fields needs. -/
def listNames (f : Bool) : List Text := nPaste :: (itemNames f ++ (List.range 51).map pasteN)

theorem list_facts : ∀ f : Bool, (∀ x ∈ itemNames f, x ≠ nPaste) ∧ ∀ k, k ≤ 50 → pasteN k ≠ nPaste ∧ pasteN k ≠ nGetArg := by decide +kernel

theorem commas_map {α β : Type} (g : α → List β) (c : β) (a : α) (as : List α) : commas c ((a :: as).map g) = g a ++ as.flatMap fun x => c :: g x := by
  rw [List.map_cons, commas_eq, List.flatMap_map]

/-- The candidates for the macro that takes the fields. -/
theorem cand_facts : ∀ x ∈ pastes ++ [nPaste1], Argument [x] ∧ (∀ A, Gives (macros user) A A [x] [x]) ∧ x ≠ [] ∧ x ≠ lparen ∧
    ∃ m ps, macros user x = some m ∧ m.params = some ps := by
  intro x hx
  have key : x ≠ lparen ∧ x ≠ rparen ∧ x ≠ comma ∧ x ≠ [] ∧ ∃ m ps, macros user x = some m ∧ m.params = some ps := by
    rcases List.mem_append.1 hx with hx | hx
    · obtain ⟨n, h2, h50, rfl⟩ := pastes_mem hx
      have := paste_facts n h50
      exact ⟨this.1, this.2.1, this.2.2.1, this.2.2.2.1, pasteN_known h2 h50⟩
    · rw [List.mem_singleton.1 hx]
      exact ⟨by decide, by decide, by decide, by decide, known_params (x := nPaste1) (k := 3) (v := false) (pcs := [.cat 1 2]) (by decide +kernel)⟩
  refine ⟨.word ⟨key.1, key.2.1, key.2.2.1⟩, fun A => .quiet A (fun y hy => ?_) (by simpa using Ne.symm key.1), key.2.2.2.1, key.1, key.2.2.2.2⟩
  rw [List.mem_singleton.1 hy]
  exact .inr key.2.2.2.2

/-- The arguments from which one is picked. -/
def picks (bs : List Bound) : List (List Text) := bs.map Bound.source ++ (pastes ++ [nPaste1]).map ([·])

theorem picks_facts (hu : Harmless user) {bs : List Bound} (hb : ∀ b ∈ bs, Fine user b) :
    ∀ a ∈ picks bs, Argument a ∧ (∀ A, Gives (macros user) A A a a) ∧ [] ∉ a := by
  intro a ha
  rcases List.mem_append.1 ha with ha | ha
  · obtain ⟨b, hb', rfl⟩ := List.mem_map.1 ha
    have := (hb b hb').source hu
    exact ⟨this.1, this.2.gives, this.2.ne⟩
  · obtain ⟨x, hx, rfl⟩ := List.mem_map.1 ha
    have := cand_facts (user := user) x hx
    exact ⟨this.1, this.2.1, by simpa using Ne.symm this.2.2.1⟩

theorem picks_length (bs : List Bound) : (picks bs).length = bs.length + 50 := by simp [picks, pastes]

/-- The list of arguments of the macro that takes the fields. -/
def listArgs (f : Bool) (bs : List Bound) : List Text := commas comma ([nPaste1] :: [nCallOver f] :: bs.map Bound.source)

theorem listArgs_eq (f : Bool) {bs : List Bound} (h : 1 ≤ bs.length) : listArgs f bs = nPaste1 :: comma :: nCallOver f :: comma :: commas comma (bs.map Bound.source) := by
  unfold listArgs
  rw [commas, commas]
  · rfl
  · intro h'
    rw [List.map_eq_nil_iff] at h'
    rw [h'] at h
    simp at h
  · simp

/-- `__CONFIGOR_PASTE(__CONFIGOR_COMBINE_PASTE1, func, fields)`, by what becomes of the macro it picks. -/
theorem gives_paste' (hu : Harmless user) (f : Bool) {A : List Text} {bs : List Bound} {ys : List Text} (h1 : 1 ≤ bs.length) (hb : ∀ b ∈ bs, Fine user b)
    (hP : nPaste ∈ A) (hE : nExpand ∈ A) (hne : [] ∉ ys) (hy : ∀ A, Gives (macros user) A A ys ys)
    (h : Gives (macros user) (A.filter (· ≠ nPaste)) [] (nGetArg :: lparen :: (commas comma (picks bs) ++ rparen :: (lparen :: (listArgs f bs ++ [rparen])))) ys) :
    Gives (macros user) A [] (nPaste :: lparen :: (listArgs f bs ++ [rparen])) ys := by
  have hargs := source_args (f := f) hu hb
  have hall := picks_facts hu hb
  have hsc : Clear user (commas comma (bs.map Bound.source)) := Clear.commas hu fun a ha => by
    obtain ⟨b, hb', rfl⟩ := List.mem_map.1 ha
    exact ((hb b hb').source hu).2
  have hcm : commas comma (picks bs) = commas comma (bs.map Bound.source) ++ (pastes.flatMap fun k => [comma, k]) ++ [comma, nPaste1] := by
    unfold picks
    cases bs with
    | nil => simp at h1
    | cons a as => rw [List.map_cons, List.cons_append, commas_eq, commas_eq, List.flatMap_append, flatMap_single, List.flatMap_append]; simp
  refine Gives.of_table (A1 := A) (k := 2) (v := true) (rest := []) (pcs := [.lit nExpand, lp, .lit nGetArg, lp, .par 2] ++ pastes.flatMap (fun k => [cm, .lit k]) ++
     [cm, .par 0, rp, lp, .par 0, cm, .par 1, cm, .par 2, rp, rp]) (vals := [[nPaste1], [nCallOver f], commas comma (bs.map Bound.source)])
    (full := [[nPaste1], [nCallOver f], commas comma (bs.map Bound.source)])
    (b := nExpand :: lparen :: ((nGetArg :: lparen :: (commas comma (picks bs) ++ rparen :: (lparen :: (listArgs f bs ++ [rparen])))) ++ [rparen]))
    (by decide +kernel) hP (by simp) (fun a ha => (hargs a ha).1) (by simp [arrange]) rfl ?_ (fun y h => h) ?_ ?_ ?_
  · intro e he
    obtain ⟨h1, h2⟩ := zip_self he
    rw [← h1]
    have : e.1 = [nPaste1] ∨ e.1 = [nCallOver f] ∨ e.1 = commas comma (bs.map Bound.source) := by simpa using h2
    rcases this with h | h | h
    · rw [h]; exact (hargs _ List.mem_cons_self).2.1 A
    · rw [h]; exact (hargs _ (List.mem_cons_of_mem _ List.mem_cons_self)).2.1 A
    · rw [h]; exact hsc.gives A
  · rw [hcm, listArgs_eq f h1, fill_append, fill_append, fill_words]
    simp [fill, fillOne, lp, rp, cm]
  · have i1 := commas_nil fun a ha => (hall a ha).2.2
    have i2 : [] ∉ listArgs f bs := commas_nil fun a ha => (hargs a ha).2.2
    simp only [List.cons_append, List.append_assoc, List.mem_cons, List.mem_append, i1, i2, List.not_mem_nil, or_false, false_or, not_or]
    decide
  · rw [List.append_nil]
    refine (gives_expand' (A1 := []) (mem_filter_ne hE (by decide)) ?_ h (by simp) hne hy).weaken (fun x h => h) (by simp)
    exact .call (by decide) (.commas fun a ha => (hall a ha).1) (.group (.commas fun a ha => (hargs a ha).1) .nil)

/-- `__CONFIGOR_PASTE(__CONFIGOR_COMBINE_PASTE1, func, fields)` -/
theorem gives_paste (hu : Harmless user) (f : Bool) {A : List Text} {bs : List Bound} (h1 : 1 ≤ bs.length) (h50 : bs.length ≤ 50) (hb : ∀ b ∈ bs, Fine user b)
    (hA : ∀ x ∈ listNames f, x ∈ A) :
    Gives (macros user) A [] (nPaste :: lparen :: (listArgs f bs ++ [rparen])) (bs.flatMap (stmt f)) := by
  have hclear : Clear user (bs.flatMap (stmt f)) := by
    intro y hy
    obtain ⟨b, hb', hy⟩ := List.mem_flatMap.1 hy
    exact clear_stmt hu f (hb b hb') y hy
  have hA1 : ∀ x ∈ listNames f, x ≠ nPaste → x ∈ A.filter (· ≠ nPaste) := fun x hx hne => mem_filter_ne (hA x hx) hne
  have hItems : ∀ x ∈ itemNames f, x ∈ A.filter (· ≠ nPaste) := fun x hx =>
    hA1 x (List.mem_cons_of_mem _ (List.mem_append_left _ hx)) ((list_facts f).1 x hx)
  have hPastes : ∀ k, k ≤ 50 → pasteN k ∈ A.filter (· ≠ nPaste) := fun k hk =>
    hA1 _ (List.mem_cons_of_mem _ (List.mem_append_right _ (List.mem_map.2 ⟨k, List.mem_range.2 (by omega), rfl⟩))) ((list_facts f).2 k hk).1
  have hall := picks_facts hu hb
  have hlen := picks_length bs
  refine gives_paste' hu f h1 hb (hA _ List.mem_cons_self) (hA _ (by simp [listNames, itemNames])) hclear.ne hclear.gives ?_
  by_cases hn : bs.length = 1
  · obtain ⟨b, rfl⟩ := List.length_eq_one_iff.1 hn
    refine gives_getArg1 (y := nPaste1) (hItems _ (by simp [itemNames])) (by omega) (fun a ha => (hall a ha).1)
      (fun a ha => (hall a (List.mem_of_mem_take ha)).2.1 _) ?_ ?_ (by decide) ?_
    · rw [List.drop_eq_nil_of_le (by rw [hlen]; simp)]
      exact .nil _
    · simp [picks, pastes]
    · have := gives_item hu f (C := (A.filter (· ≠ nPaste)).filter (· ≠ nGetArg)) (A := A.filter (· ≠ nPaste)) (hb b List.mem_cons_self)
        (mem_filter_ne (hItems _ (by simp [itemNames])) (by decide)) hItems
      simpa [listArgs] using this
  · refine gives_getArg1 (y := pasteN bs.length) (hItems _ (by simp [itemNames])) (by omega) (fun a ha => (hall a ha).1)
      (fun a ha => (hall a (List.mem_of_mem_take ha)).2.1 _) ?_ ?_ (paste_facts _ h50).2.2.2.1 ?_
    · unfold picks
      rw [List.drop_append, List.drop_eq_nil_of_le (by rw [List.length_map]; omega), List.nil_append, ← List.map_drop]
      refine .quiet _ (fun x hx => ?_) fun hx => ?_
      · rcases mem_commas hx with rfl | ⟨a, ha, hx⟩
        · exact .inl (other hu (by decide +kernel))
        · obtain ⟨z, hz, rfl⟩ := List.mem_map.1 ha
          rw [List.mem_singleton.1 hx]
          exact .inr (cand_facts z (List.mem_of_mem_drop hz)).2.2.2.2
      · rcases mem_commas hx with h | ⟨a, ha, hx⟩
        · exact absurd h (by decide)
        · obtain ⟨z, hz, rfl⟩ := List.mem_map.1 ha
          exact (cand_facts (user := user) z (List.mem_of_mem_drop hz)).2.2.2.1 (List.mem_singleton.1 hx).symm
    · unfold picks
      rw [List.getElem?_append_right (by rw [List.length_map]; exact h50), List.length_map, List.getElem?_map,
        List.getElem?_append_left (by simp [pastes]; omega), pastes_get (by omega) h50]
      rfl
    · exact gives_pasteN hu f bs _ _ (by omega) h50 hb (mem_filter_ne (hPastes _ h50) ((list_facts f).2 _ h50).2) hItems fun k hk => hPastes k (by omega)

/-- What more than fifty fields become: the mark of the fifty-first, with the arguments that were meant for a macro. -/
def leftover (f : Bool) (bs : List Bound) (b : Bound) : List Text := b.source ++ lparen :: (listArgs f bs ++ [rparen])

theorem leftover_facts (hu : Harmless user) (f : Bool) {bs : List Bound} {b : Bound} (h1 : 1 ≤ bs.length) (hb : ∀ b ∈ bs, Fine user b) (hb' : Fine user b) :
    [] ∉ leftover f bs b ∧ (∀ A, Gives (macros user) A A (leftover f bs b) (leftover f bs b)) ∧ (∀ y ∈ (leftover f bs b).getLast?, macros user y = none) := by
  have hs := (hb'.source hu).2
  have hargs := source_args (f := f) hu hb
  have hsc : Clear user (commas comma (bs.map Bound.source)) := Clear.commas hu fun a ha => by
    obtain ⟨b, hb', rfl⟩ := List.mem_map.1 ha
    exact ((hb b hb').source hu).2
  have hover : Clear user [comma, nCallOver f, comma] := .of_others hu (by clear hargs; revert f; decide +kernel) (by clear hargs; revert f; decide +kernel)
  have hpar : Clear user [lparen] := .of_others hu (by decide +kernel) (by decide)
  have hpar' : Clear user [rparen] := .of_others hu (by decide +kernel) (by decide)
  have e : leftover f bs b = b.source ++ [lparen] ++ nPaste1 :: ([comma, nCallOver f, comma] ++ commas comma (bs.map Bound.source) ++ [rparen]) := by
    unfold leftover
    rw [listArgs_eq f h1]
    simp
  refine ⟨?_, fun A => ?_, ?_⟩
  · have i2 : [] ∉ listArgs f bs := commas_nil fun a ha => (hargs a ha).2.2
    unfold leftover
    simp only [List.mem_cons, List.mem_append, i2, hs.ne, List.not_mem_nil, or_false, false_or, not_or]
    decide
  · rw [e]
    refine ((hs.append hpar).gives A).append (fun y hy => (hs.append hpar y hy).1) ?_
    refine Gives.cons (.inr ⟨known_params (x := nPaste1) (k := 3) (v := false) (pcs := [.cat 1 2]) (by decide +kernel), ?_⟩) (((hover.append hsc).append hpar').gives A)
    simp only [List.cons_append, List.head?_cons]
    decide
  · intro y hy
    have : y = rparen := by
      have e' : leftover f bs b = (b.source ++ lparen :: listArgs f bs) ++ [rparen] := by simp [leftover]
      rw [e', List.getLast?_concat] at hy
      exact (Option.some.inj hy).symm
    rw [this]
    exact (hpar' rparen (by simp)).1

/-- More than fifty fields. -/
theorem gives_paste_many (hu : Harmless user) (f : Bool) {A : List Text} {bs : List Bound} {b : Bound} (h : bs[50]? = some b) (hb : ∀ b ∈ bs, Fine user b)
    (hA : ∀ x ∈ listNames f, x ∈ A) :
    Gives (macros user) A [] (nPaste :: lparen :: (listArgs f bs ++ [rparen])) (leftover f bs b) := by
  have h51 : 51 ≤ bs.length := (List.getElem?_eq_some_iff.1 h).1
  have hb' := hb b (List.mem_of_getElem? h)
  have hall := picks_facts hu hb
  have hlen := picks_length bs
  obtain ⟨l1, l2, l3⟩ := leftover_facts hu f (by omega) hb hb'
  refine gives_paste' hu f (by omega) hb (hA _ List.mem_cons_self) (hA _ (by simp [listNames, itemNames])) l1 l2 ?_
  refine gives_getArg (a := b.source) (mem_filter_ne (hA _ (by simp [listNames, itemNames])) (by decide)) (by omega) (fun a ha => (hall a ha).1)
    (fun a ha => (hall a (List.mem_of_mem_take ha)).2.1 _) ?_ ?_ ((hb'.source hu).2).ne ?_
  · have key : ∀ (as : List (List Text)), (∀ a ∈ as, Clear user a) → Gives (macros user) (A.filter (· ≠ nPaste)) (A.filter (· ≠ nPaste))
        (commas comma (as ++ (pastes ++ [nPaste1]).map ([·]))) (commas comma (as ++ (pastes ++ [nPaste1]).map ([·]))) := by
      have tail : Gives (macros user) (A.filter (· ≠ nPaste)) (A.filter (· ≠ nPaste)) (commas comma ((pastes ++ [nPaste1]).map ([·])))
          (commas comma ((pastes ++ [nPaste1]).map ([·]))) := by
        refine .quiet _ (fun x hx => ?_) fun hx => ?_
        · rcases mem_commas hx with rfl | ⟨a, ha, hx⟩
          · exact .inl (other hu (by decide +kernel))
          · obtain ⟨z, hz, rfl⟩ := List.mem_map.1 ha
            rw [List.mem_singleton.1 hx]
            exact .inr (cand_facts z hz).2.2.2.2
        · rcases mem_commas hx with h | ⟨a, ha, hx⟩
          · exact absurd h (by decide)
          · obtain ⟨z, hz, rfl⟩ := List.mem_map.1 ha
            exact (cand_facts (user := user) z hz).2.2.2.1 (List.mem_singleton.1 hx).symm
      have hcomma : Clear user [comma] := .of_others hu (by decide +kernel) (by decide)
      intro as has
      induction as with
      | nil => exact tail
      | cons a as ih =>
        rw [List.cons_append, commas]
        · have h1 := (has a List.mem_cons_self).append hcomma
          have := (h1.gives _).append (fun y hy => (h1 y hy).1) (ih fun x hx => has x (List.mem_cons_of_mem _ hx))
          simpa using this
        · simp
    unfold picks
    rw [List.drop_append, show 51 - (bs.map Bound.source).length = 0 by rw [List.length_map]; omega, List.drop_zero]
    refine key _ fun a ha => ?_
    obtain ⟨b, hb', rfl⟩ := List.mem_map.1 (List.mem_of_mem_drop ha)
    exact ((hb b hb').source hu).2
  · unfold picks
    rw [List.getElem?_append_left (by rw [List.length_map]; omega), List.getElem?_map, h]
    rfl
  · exact (l2 _).weaken (fun x h => h) (by simp)

/-! ## The two functions -/

theorem bind_names : ∀ f : Bool, ∀ x ∈ listNames f, x ≠ nBind := by decide +kernel

theorem gives_list (hu : Harmless user) (f : Bool) {A : List Text} {bs : List Bound} {ys : List Text} (hb : ∀ b ∈ bs, Fine user b) (hE : nExpand ∈ A)
    (hne : [] ∉ ys) (hy : ∀ A, Gives (macros user) A A ys ys) (h : Gives (macros user) A [] (nPaste :: lparen :: (listArgs f bs ++ [rparen])) ys) :
    Gives (macros user) A [] (nExpand :: lparen :: ((nPaste :: lparen :: (listArgs f bs ++ [rparen])) ++ [rparen])) ys := by
  refine (gives_expand' (A1 := []) hE ?_ h (by simp) hne hy).weaken (fun x h => h) (by simp)
  exact .call (by decide) (.commas fun a ha => (source_args (f := f) hu hb a ha).1) .nil

theorem stmt_store : stmt false = Bound.store := by
  funext b
  unfold stmt Bound.store
  cases b.optional <;> simp [confStmt]

theorem stmt_load : stmt true = Bound.load := by
  funext b
  unfold stmt Bound.load
  cases b.optional <;> simp [confStmt]

/-- The two functions, with these bodies. -/
def functions (vt ct body body' : List Text) : List Text :=
  (toks! "friend void to_value(" ++ vt ++ toks! "& c, const" ++ ct ++ toks! "& v) {") ++ (body ++
    ((toks! "} friend void from_value(const" ++ vt ++ toks! "& c," ++ ct ++ toks! "& v) {") ++ (body' ++ toks! "}")))

theorem gives_functions (hu : Harmless user) {A vt ct : List Text} {bs : List Bound} {ys : Bool → List Text} (h1 : 1 ≤ bs.length) (hvt : Plain user vt) (hct : Plain user ct)
    (hb : ∀ b ∈ bs, Fine user b) (hx : nBind ∈ A) (hE : nExpand ∈ A) (hne : ∀ f, [] ∉ ys f) (hy : ∀ f A, Gives (macros user) A A (ys f) (ys f))
    (hlast : ∀ f, ∀ y ∈ (ys f).getLast?, macros user y = none)
    (h : ∀ f, Gives (macros user) (A.filter (· ≠ nBind)) [] (nPaste :: lparen :: (listArgs f bs ++ [rparen])) (ys f)) :
    Gives (macros user) A [] (bindSource vt ct bs) (functions vt ct (ys false) (ys true)) := by
  have hsrc : ∀ a ∈ bs.map Bound.source, Argument a ∧ Clear user a := by
    intro a ha
    obtain ⟨b, hb', rfl⟩ := List.mem_map.1 ha
    exact (hb b hb').source hu
  have hsc := Clear.commas hu fun a ha => (hsrc a ha).2
  have hvt' : Clear user vt := hvt.macros
  have hct' : Clear user ct := hct.macros
  have hl := fun f => gives_list hu f hb (mem_filter_ne hE (by decide)) (hne f) (hy f) (h f)
  have n0 : ∀ f, [] ∉ nExpand :: lparen :: ((nPaste :: lparen :: (listArgs f bs ++ [rparen])) ++ [rparen]) := by
    intro f
    have : [] ∉ listArgs f bs := commas_nil fun a ha => (source_args (f := f) hu hb a ha).2.2
    simp only [List.cons_append, List.append_assoc, List.mem_cons, List.mem_append, this, List.not_mem_nil, or_false, false_or, not_or]
    decide
  have p1 := ((((clear_toks hu (toks! "friend void to_value(") (by decide +kernel)).append hvt').append (clear_toks hu (toks! "& c, const") (by decide +kernel))).append hct').append
    (clear_toks hu (toks! "& v) {") (by decide +kernel))
  have p2 := ((((clear_toks hu (toks! "} friend void from_value(const") (by decide +kernel)).append hvt').append (clear_toks hu (toks! "& c,") (by decide +kernel))).append hct').append
    (clear_toks hu (toks! "& v) {") (by decide +kernel))
  have p3 := clear_toks hu (toks! "}") (by decide +kernel)
  unfold bindSource
  refine Gives.of_table (A1 := A) (k := 2) (v := true) (pcs := bindPieces) (rest := []) (vals := [vt, ct, commas comma (bs.map Bound.source)])
    (full := [vt, ct, commas comma (bs.map Bound.source)])
    (b := functions vt ct (nExpand :: lparen :: ((nPaste :: lparen :: (listArgs false bs ++ [rparen])) ++ [rparen]))
      (nExpand :: lparen :: ((nPaste :: lparen :: (listArgs true bs ++ [rparen])) ++ [rparen])))
    (show (nBind, 2, true, bindPieces) ∈ table by decide +kernel) hx (by simp) ?_ (by simp [arrange]) rfl ?_ (fun y h => h) ?_ ?_ ?_
  · intro a ha
    rcases List.mem_cons.1 ha with rfl | ha
    · exact hvt.argument
    rcases List.mem_cons.1 ha with rfl | ha
    · exact hct.argument
    exact (hsrc a ha).1
  · intro e he
    obtain ⟨h1, h2⟩ := zip_self he
    rw [← h1]
    have : e.1 = vt ∨ e.1 = ct ∨ e.1 = commas comma (bs.map Bound.source) := by simpa using h2
    rcases this with h | h | h
    · rw [h]; exact hvt'.gives A
    · rw [h]; exact hct'.gives A
    · rw [h]; exact hsc.gives A
  · rw [listArgs_eq _ h1, listArgs_eq _ h1]
    simp [functions, bindPieces, fill_append, fill_lits, fill, fillOne, lp, rp, cm]
  · unfold functions
    simp only [List.mem_append, not_or]
    refine ⟨by simpa only [List.mem_append, not_or] using p1.ne, n0 false, by simpa only [List.mem_append, not_or] using p2.ne, n0 true, p3.ne⟩
  · rw [List.append_nil]
    have w : ∀ {xs : List Text}, Clear user xs → Gives (macros user) (A.filter (· ≠ nBind)) [] xs xs := fun h => (h.gives _).weaken (fun x h => h) (by simp)
    exact (w p1).append (fun y hy => (p1 y hy).1) ((hl false).append' (hlast false) ((w p2).append (fun y hy => (p2 y hy).1) ((hl true).append' (hlast true) (w p3))))

/-- The macros there are. -/
def allNames : List Text := nBind :: (listNames false ++ listNames true)

theorem allNames_list (f : Bool) : ∀ x ∈ listNames f, x ∈ allNames.filter (· ≠ nBind) := by
  intro x hx
  refine mem_filter_ne (List.mem_cons_of_mem _ ?_) (bind_names f x hx)
  cases f
  · exact List.mem_append_left _ hx
  · exact List.mem_append_right _ hx

theorem gives_bind (hu : Harmless user) {vt ct : List Text} {bs : List Bound} (h1 : 1 ≤ bs.length) (h50 : bs.length ≤ 50) (hvt : Plain user vt) (hct : Plain user ct)
    (hb : ∀ b ∈ bs, Fine user b) : Gives (macros user) allNames [] (bindSource vt ct bs) (bindResult vt ct bs) := by
  have hcl : ∀ f, Clear user (bs.flatMap (stmt f)) := by
    intro f y hy
    obtain ⟨b, hb', hy⟩ := List.mem_flatMap.1 hy
    exact clear_stmt hu f (hb b hb') y hy
  have e : bindResult vt ct bs = functions vt ct (bs.flatMap (stmt false)) (bs.flatMap (stmt true)) := by
    rw [stmt_store, stmt_load]
    simp [bindResult, functions]
  rw [e]
  exact gives_functions hu (ys := fun f => bs.flatMap (stmt f)) h1 hvt hct hb List.mem_cons_self (List.mem_filter.1 (allNames_list false nExpand (by simp [listNames, itemNames]))).1
    (fun f => (hcl f).ne) (fun f => (hcl f).gives) (fun f y hy => (hcl f y (List.mem_of_getLast? hy)).1) fun f => gives_paste hu f h1 h50 hb (allNames_list f)

theorem gives_bind_many (hu : Harmless user) {vt ct : List Text} {bs : List Bound} {b : Bound} (h : bs[50]? = some b) (hvt : Plain user vt) (hct : Plain user ct)
    (hb : ∀ b ∈ bs, Fine user b) : Gives (macros user) allNames [] (bindSource vt ct bs) (functions vt ct (leftover false bs b) (leftover true bs b)) := by
  have h51 : 51 ≤ bs.length := (List.getElem?_eq_some_iff.1 h).1
  have hl := fun f => leftover_facts hu f (bs := bs) (b := b) (by omega) hb (hb b (List.mem_of_getElem? h))
  exact gives_functions hu (ys := fun f => leftover f bs b) (by omega) hvt hct hb List.mem_cons_self
    (List.mem_filter.1 (allNames_list false nExpand (by simp [listNames, itemNames]))).1
    (fun f => (hl f).1) (fun f => (hl f).2.1) (fun f => (hl f).2.2) fun f => gives_paste_many hu f h hb (allNames_list f)

/-- From tokens to texts. -/
theorem Gives.preprocess {A : List Text} {xs ys : List Text} (h : Gives (macros user) A [] xs ys) : ∃ n, ∀ m, n ≤ m → Preproc.preprocess user m xs = some ys := by
  obtain ⟨n, out, h1, h2, _⟩ := h (xs.map fun t => ⟨t, []⟩) (by simp [spell, Function.comp_def]) (by
    intro t ht
    obtain ⟨x, _, rfl⟩ := List.mem_map.1 ht
    intro y hy
    cases hy)
  refine ⟨n, fun m hm => ?_⟩
  unfold Preproc.preprocess
  rw [expand_mono h1 hm]
  simpa [spell] using h2

end Configor.Preproc
