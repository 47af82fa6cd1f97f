import Verif.Proofs.ObjComplete
/-! # `json::parse` with any object type -/
namespace Configor
open Lexer Spec

variable {S F : Type}

/-! ## Trees and values of the grammar -/

mutual
theorem val_tree {D : Dialect F} {t : List Nat} {nx : Option Nat} {v : Value F} : Val D t nx v → ∃ r, Tree D t nx r
  | .vtrue h => ⟨_, .vtrue h⟩
  | .vfalse h => ⟨_, .vfalse h⟩
  | .vnull h => ⟨_, .vnull h⟩
  | .num h => ⟨_, .num h⟩
  | .str h => ⟨_, .str h⟩
  | .arr h => (elems_tree h).elim fun _ h => ⟨_, .arr h⟩
  | .obj h _ => (members_tree h).elim fun _ h => ⟨_, .obj h⟩

theorem elems_tree {D : Dialect F} {t : List Nat} {xs : List (Value F)} : Elems D t xs → ∃ ys, TreeElems D t ys
  | .close h => ⟨_, .close h⟩
  | .last h1 h2 h3 => (val_tree h2).elim fun _ h => ⟨_, .last h1 h h3⟩
  | .more h1 h2 h3 h4 => (val_tree h2).elim fun _ h => (elems_tree h4).elim fun _ h' => ⟨_, .more h1 h h3 h'⟩

theorem members_tree {D : Dialect F} {t : List Nat} {ms : List (List Nat × Value F)} : Members D t ms → ∃ ns, TreeMembers D t ns
  | .close h => ⟨_, .close h⟩
  | .keyOnly h1 h2 h3 => ⟨_, .keyOnly h1 h2 h3⟩
  | .last h1 h2 h3 h4 h5 h6 => (val_tree h5).elim fun _ h => ⟨_, .last h1 h2 h3 h4 h h6⟩
  | .more h1 h2 h3 h4 h5 h6 h7 => (val_tree h5).elim fun _ h => (members_tree h7).elim fun _ h' => ⟨_, .more h1 h2 h3 h4 h h6 h'⟩
end

theorem document_tree {D : Dialect F} {l : List (Option Nat)} {v : Value F} (h : Document D l v) : ∃ r, TreeDocument D l r := by
  obtain ⟨g, t, e, more, h1, h2, h3, h4⟩ := h
  obtain ⟨r, hr⟩ := val_tree h3
  exact ⟨r, g, t, e, more, h1, h2, hr, h4⟩

theorem tree_ne_nil {D : Dialect F} {t : List Nat} {nx : Option Nat} {v : Value F} (h : Tree D t nx v) : t ≠ [] := by
  cases h with
  | vtrue h => rintro rfl; simp [Keyword, kTrue] at h
  | vfalse h => rintro rfl; simp [Keyword, kFalse] at h
  | vnull h => rintro rfl; simp [Keyword, kNull] at h
  | num h => cases h <;> simp
  | str h => obtain ⟨_, _, rfl, _⟩ := h; simp
  | arr => simp
  | obj => simp

theorem treeDocument_ok {D : Dialect F} {l : List (Option Nat)} {v : Value F} (h : TreeDocument D l v) : Ok l := by
  obtain ⟨g, t, e, more, rfl, hg, hv, hf⟩ := h
  have := tree_ne_nil hv
  cases g with
  | cons => exact Ok.cons _ _
  | nil =>
    cases t with
    | cons => exact Ok.cons _ _
    | nil => exact absurd rfl this

/-! ## The whole parser -/

theorem parseO_map (C : Cfg S F) (n : Nat) (h : Option Handler) (c : Value F) (s : Lex S F) : parseO C Map.emplace n h c s = parse C n h c s := by
  have hb : ∀ s, parseBodyO C Map.emplace n c s = parseBody C n c s := by
    intro s; unfold parseBodyO parseBody; rw [(parser_map C n).1]; rfl
  unfold parseO parse
  simp only [hb]
  rfl

theorem jsonParseO_map (A : ParseArgs F) (h : Option Handler) (c : Value F) (str : List Nat) :
    jsonParseO A Map.emplace h c str = jsonParse A h c str := by
  unfold jsonParseO jsonParse parseFromO parseFrom
  simp only [parseO_map]

theorem bodyO_arranged (C : Cfg S F) (ins : Emplace F) (n : Nat) (c : Value F) (s : Lex S F) :
    (parseBodyO C ins n c s).1 = (parseBodyO C allMembers n c s).1 ∧ (parseBodyO C ins n c s).2.1 = (parseBodyO C allMembers n c s).2.1 ∧
    ((parseBodyO C ins n c s).1 = .ok () → (parseBodyO C ins n c s).2.2 = arranged (keepOf ins) (parseBodyO C allMembers n c s).2.2) := by
  obtain ⟨h1, h2, h3⟩ := (parser_arranged C ins n).1 c c none s
  unfold parseBodyO
  rcases hr : doParseO C ins n c none s with ⟨r, t, v⟩
  rcases hq : doParseO C allMembers n c none s with ⟨q, u, w⟩
  rw [hr, hq] at h1 h2 h3
  simp only at h1 h2 h3
  subst h1 h2
  cases r with
  | error e => simp
  | ok _ =>
    simp only
    have h3 : v = arranged (keepOf ins) w := by
      rcases h3 with h3 | ⟨h3, _⟩
      · exact h3
      · exact absurd rfl h3
    rcases scanned (scan C t) with ⟨e, s', hs⟩ | ⟨a, s', hs⟩
    · rw [hs]; simp
    · rw [hs]; simp only
      split <;> simp [h3]

theorem handled_none (r : PRes S F) : handled none r = r := by
  rcases r with ⟨e | _, s, v⟩
  · cases e <;> rfl
  · rfl

theorem parseO_ends (C : Cfg S F) (ins : Emplace F) (n : Nat) (h : Option Handler) (c : Value F) (s : Lex S F) :
    (parseO C ins n h c s).1 = (parseO C allMembers n h c s).1 := by
  unfold parseO
  rcases readNext C s with ⟨e | _, s'⟩
  · rfl
  · simp only
    have := (bodyO_arranged C ins n c s').1
    rcases hr : parseBodyO C ins n c s' with ⟨r, t, v⟩
    rcases hq : parseBodyO C allMembers n c s' with ⟨q, u, w⟩
    rw [hr, hq] at this
    simp only at this
    subst this
    cases h with
    | none => rw [handled_none, handled_none]
    | some h =>
      cases r with
      | ok => rfl
      | error e =>
        cases e with
        | exn e => simp only [handled]; split <;> rfl
        | _ => rfl

theorem parseO_value (C : Cfg S F) (ins : Emplace F) (n : Nat) (c : Value F) (s : Lex S F) (hok : (parseO C allMembers n none c s).1 = .ok ()) :
    (parseO C ins n none c s).2.2 = arranged (keepOf ins) (parseO C allMembers n none c s).2.2 := by
  have he := parseO_ends C ins n none c s
  rw [hok] at he
  unfold parseO at hok he ⊢
  rcases hn : readNext C s with ⟨e | _, s'⟩
  · rw [hn] at hok; cases hok
  · rw [hn] at hok he
    simp only at hok he ⊢
    rw [handled_none] at he hok
    rw [handled_none, handled_none]
    exact (bodyO_arranged C ins n c s').2.2 he

theorem parseO_start {A : ParseArgs F} {l : List (Option Nat)} (ins : Emplace F) (n m : Nat) (h : Option Handler) (c : Value F) (ho : Ok l) :
    parseO (A.canon n) ins m h c (Lex.init ⟨l, false, false⟩ (A.fo.ofInt 0)) =
      handled h (parseBodyO (A.canon n) ins m c (At l (data0 A))) := by
  unfold parseO
  have : readNext (A.canon n) (Lex.init ⟨l, false, false⟩ (A.fo.ofInt 0)) = (.ok (hd l), At l (data0 A)) := by
    cases l with
    | nil => rfl
    | cons x l =>
      cases x with
      | none => simp [Ok] at ho
      | some c => rfl
  rw [this]

theorem jsonParseO_tree {A : ParseArgs F} (hA : A.Usual) (c : Value F) {str : List Nat} {r : Value F}
    (hdoc : TreeDocument A.dialect (itemsOf A.se A.sw str) r) : jsonParseO A allMembers none c str = (.ok (), r) := by
  have hl := itemsOf_length A.se A.sw str
  obtain ⟨_, _, hs, _⟩ := treeBody_complete (canon_canon hA (2 * str.length + 4)) (A.te.sticky A.tw) (data0 A) c hdoc
    (n := 2 * str.length + 4) (show _ ≤ 2 * str.length + 4 by omega) (by omega)
  have hp := parseO_start (A := A) (allMembers) (2 * str.length + 4) (2 * str.length + 4) none c (treeDocument_ok hdoc)
  rw [hs] at hp
  obtain ⟨R, V, hb⟩ := str_view_start A.sw str
  have H : CfgSim (A.canon (2 * str.length + 4)) (A.cfg (strSBuf A.sw) (2 * str.length + 4))
      (fun c s => CanonRel R (A.se.step A.sw) s c) :=
    ⟨(canon_src V).symm, rfl, rfl, rfl, rfl, Nat.le_refl _⟩
  have := parse_simO allMembers H (Nat.le_refl _) none c (s := Lex.init ⟨itemsOf A.se A.sw str, false, false⟩ (A.fo.ofInt 0))
    (t := Lex.init (.ofBuf (.ofString str)) (A.fo.ofInt 0))
    ⟨Or.inr ⟨rfl, rfl, rfl, rfl, _, hb, rfl⟩, rfl, rfl, rfl, rfl, rfl⟩ (by rw [hp]; simp [handled])
  unfold jsonParseO parseFromO
  rw [hp] at this
  exact Prod.ext this.1.symm this.2.symm

theorem jsonParseO_ends (A : ParseArgs F) (ins : Emplace F) (h : Option Handler) (c : Value F) (str : List Nat) :
    (jsonParseO A ins h c str).1 = (jsonParse A h c str).1 := by
  rw [← jsonParseO_map]
  show (parseO _ ins _ h c _).1 = (parseO _ Map.emplace _ h c _).1
  rw [parseO_ends, parseO_ends _ Map.emplace]

theorem jsonParseO_iff {A : ParseArgs F} (hA : A.Usual) (ins : Emplace F) (c v : Value F) (str : List Nat) :
    jsonParseO A ins none c str = (.ok (), v) ↔
      ∃ r, TreeDocument A.dialect (itemsOf A.se A.sw str) r ∧ v = arranged (keepOf ins) r := by
  have back : ∀ r, TreeDocument A.dialect (itemsOf A.se A.sw str) r → jsonParseO A ins none c str = (.ok (), arranged (keepOf ins) r) := by
    intro r hr
    have h1 := jsonParseO_tree hA c hr
    have hok : (parseO (A.cfg (strSBuf A.sw) (2 * str.length + 4)) allMembers (2 * str.length + 4) none c
        (Lex.init (.ofBuf (.ofString str)) (A.fo.ofInt 0))).1 = .ok () := congrArg Prod.fst h1
    have h2 := parseO_value _ ins _ c _ hok
    have h3 := parseO_ends (A.cfg (strSBuf A.sw) (2 * str.length + 4)) ins (2 * str.length + 4) none c
      (Lex.init (.ofBuf (.ofString str)) (A.fo.ofInt 0))
    refine Prod.ext (h3.trans hok) (h2.trans ?_)
    exact congrArg (arranged (keepOf ins)) (congrArg Prod.snd h1)
  constructor
  · intro h
    have he := jsonParseO_ends A ins none c str
    rw [h] at he
    rcases hp : jsonParse A none c str with ⟨r, w⟩
    rw [hp] at he
    simp only at he
    subst he
    rw [jsonParse_items hA] at hp
    have hle := itemsOf_length A.se A.sw str
    have := parseItems_sound hA c (l := itemsOf A.se A.sw str) (n := 2 * str.length + 4) (by omega)
    rw [hp] at this
    obtain ⟨r, hr⟩ := document_tree this
    refine ⟨r, hr, ?_⟩
    rw [back r hr] at h
    simpa using h.symm
  · rintro ⟨r, hr, rfl⟩
    exact back r hr

/-! ## What the object types keep -/

theorem any_key {ms : MemberList F} {k : List Nat} : ms.any (fun m => m.1 == k) = true ↔ k ∈ ms.map Prod.fst := by
  simp

theorem firsts_keys (ms : MemberList F) : ∀ k, k ∈ (firsts ms).map Prod.fst ↔ k ∈ ms.map Prod.fst := by
  induction ms with
  | nil => simp [firsts]
  | cons m ms ih =>
    intro k
    have := ih k
    simp only [firsts, List.map_cons, List.mem_cons]
    by_cases h : k = m.1
    · simp [h]
    · simp only [h, false_or]
      rw [← this]
      simp only [List.mem_map, List.mem_filter]
      constructor
      · rintro ⟨a, ⟨h1, _⟩, h3⟩; exact ⟨a, h1, h3⟩
      · rintro ⟨a, h1, h3⟩; exact ⟨a, ⟨h1, by simpa [h3] using h⟩, h3⟩

theorem firsts_snoc (ms : MemberList F) (k : List Nat) (v : Value F) :
    firsts (ms ++ [(k, v)]) = if k ∈ ms.map Prod.fst then firsts ms else firsts ms ++ [(k, v)] := by
  induction ms with
  | nil => simp [firsts]
  | cons m ms ih =>
    simp only [List.cons_append, firsts, ih, List.map_cons, List.mem_cons]
    by_cases h : k ∈ ms.map Prod.fst
    · simp [h]
    · by_cases hk : k = m.1
      · subst hk; rw [if_neg h, List.filter_append]; simp
      · simp [h, hk]

theorem keepOf_fifo (ms : MemberList F) : keepOf fifoEmplace ms = firsts ms := by
  have : ∀ n (ms : MemberList F), ms.length = n → keepOf fifoEmplace ms = firsts ms := by
    intro n
    induction n with
    | zero => intro ms h; rw [List.length_eq_zero_iff.1 h]; rfl
    | succ n ih =>
      intro ms h
      rcases List.eq_nil_or_concat ms with rfl | ⟨ms, ⟨k, v⟩, rfl⟩
      · rfl
      · simp at h
        rw [List.concat_eq_append, keepOf_snoc, firsts_snoc, ih ms h, fifoEmplace]
        have := firsts_keys ms k
        by_cases hk : k ∈ ms.map Prod.fst
        · rw [if_pos (any_key.2 (this.2 hk)), if_pos hk]
        · rw [if_neg (fun h => hk (this.1 (any_key.1 h))), if_neg hk]
  exact this _ ms rfl

theorem keepOf_hash {arrange : MemberList F → MemberList F} (ha : ∀ ms, (arrange ms).Perm ms) (ms : MemberList F) :
    (keepOf (hashEmplace arrange) ms).Perm (firsts ms) := by
  have : ∀ n (ms : MemberList F), ms.length = n → (keepOf (hashEmplace arrange) ms).Perm (firsts ms) := by
    intro n
    induction n with
    | zero => intro ms h; rw [List.length_eq_zero_iff.1 h]; exact .nil
    | succ n ih =>
      intro ms h
      rcases List.eq_nil_or_concat ms with rfl | ⟨ms, ⟨k, v⟩, rfl⟩
      · exact .nil
      · simp at h
        rw [List.concat_eq_append, keepOf_snoc, firsts_snoc, hashEmplace]
        have hp := ih ms h
        have := ((hp.map Prod.fst).mem_iff (a := k)).trans (firsts_keys ms k)
        by_cases hk : k ∈ ms.map Prod.fst
        · rw [if_pos (any_key.2 (this.2 hk)), if_pos hk]; exact hp
        · rw [if_neg (fun h => hk (this.1 (any_key.1 h))), if_neg hk]
          exact (ha _).trans ((hp.cons _).trans (List.perm_append_singleton _ _).symm)
  exact this _ ms rfl

theorem firsts_nodup {ms : MemberList F} (h : (ms.map Prod.fst).Nodup) : firsts ms = ms := by
  induction ms with
  | nil => rfl
  | cons m ms ih =>
    rw [List.map_cons, List.nodup_cons] at h
    rw [firsts, ih h.2]
    congr 1
    rw [List.filter_eq_self]
    intro x hx
    simp only [decide_eq_true_eq]
    intro he
    exact h.1 (he ▸ List.mem_map_of_mem hx)

theorem arrangedMembers_keys (keep : MemberList F → MemberList F) (ms : MemberList F) :
    (arrangedMembers keep ms).map Prod.fst = ms.map Prod.fst := by
  induction ms with
  | nil => rfl
  | cons m ms ih => obtain ⟨k, v⟩ := m; simp only [arrangedMembers, List.map_cons, ih]

end Configor
