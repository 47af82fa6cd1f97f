import Verif.Proofs.ParseMemory
/-!
# The parser in memory does what the parser on trees does
-/
namespace Spec
open Configor Lexer

variable {S F α : Type} {C : Cfg S F}

/-! ## The scanner does not depend on what was parsed -/

theorem parseArray_lex (n : Nat) : ∀ (xs ys : List (Value F)) (s : Lex S F),
    (parseArray C n xs s).1 = (parseArray C n ys s).1 ∧ (parseArray C n xs s).2.1 = (parseArray C n ys s).2.1 := by
  induction n with
  | zero => intro xs ys s; simp [parseArray]
  | succ n ih =>
    intro xs ys s
    simp only [parseArray]
    rcases scan C s with ⟨e | t, s1⟩
    · exact ⟨rfl, rfl⟩
    · simp only
      split
      · rcases doParse C n .null (some t) s1 with ⟨e | _, s2, v⟩
        · exact ⟨rfl, rfl⟩
        · simp only
          rcases scan C s2 with ⟨e | t2, s3⟩
          · exact ⟨rfl, rfl⟩
          · simp only
            split
            · exact ih _ _ _
            · split <;> exact ⟨rfl, rfl⟩
      · split <;> exact ⟨rfl, rfl⟩

theorem parseObject_lex (n : Nat) : ∀ (xs ys : Map.T (Value F)) (s : Lex S F),
    (parseObject C n xs s).1 = (parseObject C n ys s).1 ∧ (parseObject C n xs s).2.1 = (parseObject C n ys s).2.1 := by
  induction n with
  | zero => intro xs ys s; simp [parseObject]
  | succ n ih =>
    intro xs ys s
    simp only [parseObject]
    rcases scan C s with ⟨e | t, s1⟩
    · exact ⟨rfl, rfl⟩
    · simp only
      split
      · rcases scanString C s1 with ⟨e | _, s2⟩
        · exact ⟨rfl, rfl⟩
        · simp only
          rcases scan C s2 with ⟨e | t2, s3⟩
          · exact ⟨rfl, rfl⟩
          · simp only
            split
            · rcases doParse C n .null none s3 with ⟨e | _, s4, v⟩
              · exact ⟨rfl, rfl⟩
              · simp only
                rcases scan C s4 with ⟨e | t3, s5⟩
                · exact ⟨rfl, rfl⟩
                · simp only
                  split
                  · exact ih _ _ _
                  · split <;> exact ⟨rfl, rfl⟩
            · split <;> exact ⟨rfl, rfl⟩
      · split <;> exact ⟨rfl, rfl⟩

/-! ## What is compared -/

/-- From states with `I` on, a string that cannot grow is always noticed. -/
structure Calm (C : Cfg S F) (I : Lex S F → Prop) : Prop where
  next : ∀ s a s', I s → readNext C s = (.ok a, s') → I s'
  scan : ∀ s a s', I s → scan C s = (.ok a, s') → I s'
  string : ∀ s a s', I s → scanString C s = (.ok a, s') → I s'
  exact : ∀ s k, I s → (scanStringIn C (some k) s).1 = .error (.exn .deserialization) ∨ scanStringIn C (some k) s = scanString C s

/-- Variables from number `k` on are not in use, nor are those that only operations use. -/
structure Free (V : Var → Option (Value F)) (k : Nat) : Prop where
  quiet : Quiet V
  user : ∀ j, k ≤ j → V (.user j) = none

theorem vset_none {V : Var → Option (Value F)} {t : Var} (ht : V t = none) (x : Var) (p : List Nat) (w : Value F) : vset V x p w t = none := by
  simp only [vset, upd]
  split
  · next e => subst e; simp [ht]
  · exact ht

theorem Free.vset {V : Var → Option (Value F)} {k} (h : Free V k) (x : Var) (p : List Nat) (w : Value F) : Free (vset V x p w) k :=
  ⟨h.quiet.vset x p w, fun j hj => vset_none (h.user j hj) x p w⟩

theorem Free.declare {V : Var → Option (Value F)} {k} (h : Free V k) (o : Option (Value F)) : Free (upd V (.user k) o) (k + 1) := by
  refine ⟨⟨?_, ?_, ?_⟩, fun j hj => ?_⟩
  · rw [upd_ne _ _ (by simp)]; exact h.quiet.tmp
  · rw [upd_ne _ _ (by simp)]; exact h.quiet.arg
  · rw [upd_ne _ _ (by simp)]; exact h.quiet.ghost
  · rw [upd_ne _ _ (by intro e; injection e; omega)]; exact h.user j (by omega)

/-- The memory changed from `st` to `st1`, where now `v1` is what should be `w1`: no allocation failed, or one did and then
`v1` is only known to be right if `I`. -/
def Moves (I : Prop) (v1 w1 : Value F) (st : State F) (fp : Var → List Nat) (st1 : State F) (fp1 : Var → List Nat) : Prop :=
  (Well st fp st1 fp1 ∧ v1 = w1) ∨ (Ill st fp st1 fp1 ∧ (I → v1 = w1))

/-- What is thrown after a failed allocation. -/
def Oom (e : Err) : Prop := e = .badAlloc ∨ e = .deserialization

/-- Parsing into the place `x.p` ended with `r`, where parsing to a tree ends with `q1`, `q2`, `qv`. The place then has a content with `P`. -/
def GoesP (P : Value F → Prop) (I : Prop) (V : Var → Option (Value F)) (x : Var) (p : List Nat) (st : State F) (fp : Var → List Nat) (r : HRes S F α)
    (q1 : Except Stop α) (q2 : Lex S F) (qv : Value F) : Prop :=
  ∃ u' fp', P u' ∧ Owns r.2.2 (vset V x p u') fp' ∧
    ((Ill st fp r.2.2 fp' ∧ ∃ e, Oom e ∧ r.1 = .error (.exn e)) ∨
     (Moves I u' qv st fp r.2.2 fp' ∧ r.1 = q1 ∧ Like r.2.1 q2 ∧ KeepsOut st r.2.2 x p))

abbrev Goes (I : Prop) (V : Var → Option (Value F)) (x : Var) (p : List Nat) (st : State F) (fp : Var → List Nat) (r : HRes S F α)
    (q1 : Except Stop α) (q2 : Lex S F) (qv : Value F) : Prop := GoesP (fun _ => True) I V x p st fp r q1 q2 qv

theorem Moves.ill {I : Prop} {v1 w1 : Value F} {st st1 st2 : State F} {fp fp1 fp2} (m : Moves I v1 w1 st fp st1 fp1) (i : Ill st1 fp1 st2 fp2) :
    Ill st fp st2 fp2 := by
  rcases m with ⟨w, _⟩ | ⟨j, _⟩
  · exact w.ill i
  · exact j.trans i

theorem Moves.trans {I I' : Prop} {v1 w1 v2 w2 w2' : Value F} {st st1 st2 : State F} {fp fp1 fp2} (m : Moves I v1 w1 st fp st1 fp1)
    (m' : Moves I' v2 w2' st1 fp1 st2 fp2) (hI : I → I') (h : v1 = w1 → w2' = w2) : Moves I v2 w2 st fp st2 fp2 := by
  rcases m with ⟨w, e⟩ | ⟨j, e⟩
  · rcases m' with ⟨w', e'⟩ | ⟨j', e'⟩
    · exact .inl ⟨w.trans w', e'.trans (h e)⟩
    · exact .inr ⟨w.ill j', fun i => (e' (hI i)).trans (h e)⟩
  · rcases m' with ⟨w', e'⟩ | ⟨j', e'⟩
    · exact .inr ⟨j.well w', fun i => e'.trans (h (e i))⟩
    · exact .inr ⟨j.trans j', fun i => (e' (hI i)).trans (h (e i))⟩

theorem Moves.well {I : Prop} {v : Value F} {st st1 : State F} {fp fp1} (w : Well st fp st1 fp1) : Moves I v v st fp st1 fp1 := .inl ⟨w, rfl⟩

/-- Nothing happened to the memory. -/
theorem Goes.here {I : Prop} {V : Var → Option (Value F)} {x p st fp} (h : Owns st V fp) {u : Value F} (hu : vget V x p = some u)
    {r1 : Except Stop α} {s t : Lex S F} (hl : Like s t) : Goes I V x p st fp (r1, s, st) r1 t u :=
  ⟨u, fp, trivial, by rw [vset_self hu]; exact h, .inr ⟨.well (.refl st fp), rfl, hl, .refl st x p⟩⟩

/-- An allocation failed. -/
theorem GoesP.bad {P : Value F → Prop} {I : Prop} {V : Var → Option (Value F)} {x p st fp} {u : Value F} (hu : vget V x p = some u) (hP : P u)
    {st1 : State F} {fp1 e s q1 q2 qv} (he : Oom e) (h : Owns st1 V fp1) (i : Ill st fp st1 fp1) :
    GoesP (S := S) (α := α) P I V x p st fp (.error (.exn e), s, st1) q1 q2 qv :=
  ⟨u, fp1, hP, by rw [vset_self hu]; exact h, .inl ⟨i, e, he, rfl⟩⟩

theorem Goes.bad {I : Prop} {V : Var → Option (Value F)} {x p st fp} {u : Value F} (hu : vget V x p = some u) {st1 : State F} {fp1 e s q1 q2 qv}
    (he : Oom e) (h : Owns st1 V fp1) (i : Ill st fp st1 fp1) : Goes (S := S) (α := α) I V x p st fp (.error (.exn e), s, st1) q1 q2 qv :=
  GoesP.bad hu trivial he h i

theorem GoesP.after {P : Value F → Prop} {I I' : Prop} {V : Var → Option (Value F)} {x p st fp st1 fp1} {u v1 w1 : Value F} (hu : vget V x p = some u)
    (m : Moves I v1 w1 st fp st1 fp1) (k : KeepsOut st st1 x p) (hI : I → I') {r : HRes S F α} {q1 q2 qv qv'}
    (g : GoesP P I' (vset V x p v1) x p st1 fp1 r q1 q2 qv') (h : v1 = w1 → qv' = qv) : GoesP P I V x p st fp r q1 q2 qv := by
  obtain ⟨u', fp', hP, o, g⟩ := g
  rw [vset_vset hu] at o
  refine ⟨u', fp', hP, o, ?_⟩
  rcases g with ⟨i, e⟩ | ⟨m', e1, e2, e3⟩
  · exact .inl ⟨m.ill i, e⟩
  · exact .inr ⟨m.trans m' hI h, e1, e2, k.trans e3⟩

/-- The memory changed, and the content of the place stayed as it was. -/
theorem GoesP.within {P : Value F → Prop} {I I' : Prop} {V : Var → Option (Value F)} {x p st fp st1 fp1} {u v1 w1 : Value F}
    (m : Moves I v1 w1 st fp st1 fp1) (k : KeepsOut st st1 x p) (hI : I → I') {r : HRes S F α} {q1 q2 qv qv'}
    (_ : vget V x p = some u) (g : GoesP P I' V x p st1 fp1 r q1 q2 qv') (h : v1 = w1 → qv' = qv) : GoesP P I V x p st fp r q1 q2 qv := by
  obtain ⟨u', fp', hP, o, g⟩ := g
  refine ⟨u', fp', hP, o, ?_⟩
  rcases g with ⟨i, e⟩ | ⟨m', e1, e2, e3⟩
  · exact .inl ⟨m.ill i, e⟩
  · exact .inr ⟨m.trans m' hI h, e1, e2, k.trans e3⟩

theorem KeepsOut.same {st : State F} {h' : Heap F} (g : Grew st.heap h') (hf : Fresh st.heap) (x p) : KeepsOut st { st with heap := h' } x p :=
  fun _ _ _ d h _ => ⟨d, h.grew g hf⟩

theorem vset_child {V : Var → Option (Value F)} {x p} {u : Value F} (hu : vget V x p = some u) (us : List (Value F)) (w w' : Value F) :
    vset (vset V x p (.arr (us ++ [w]))) x (p ++ [us.length]) w' = vset V x p (.arr (us ++ [w'])) := by
  obtain ⟨v, hv, hp⟩ : ∃ v, V x = some v ∧ part v p = some u := by
    simp only [vget, Option.bind_eq_some_iff] at hu
    exact hu
  simp only [vset, upd_same, upd_eq, hv, Option.map_some]
  congr 2
  clear hu hv
  induction p generalizing v with
  | nil => simp [replace, kids, withKids]
  | cons i p ih =>
    simp only [part, Option.bind_eq_some_iff] at hp
    obtain ⟨y, hy, hp⟩ := hp
    have k1 : (kids (replace v (i :: p) (.arr (us ++ [w]))))[i]? = some (replace y p (.arr (us ++ [w]))) := by
      rw [kids_replace_cons hy]; simp [lt_of_getElem? hy]
    rw [List.cons_append, replace_cons k1, kids_replace_cons hy, replace_cons hy, replace_cons hy, withKids_withKids _ _ _ (by simp), List.set_set,
      ih y hp]

theorem vget_child {V : Var → Option (Value F)} {x p} {u : Value F} (hu : vget V x p = some u) (us : List (Value F)) (w : Value F) :
    vget (vset V x p (.arr (us ++ [w]))) x (p ++ [us.length]) = some w := by
  have := vget_vset hu (.arr (us ++ [w]))
  simp only [vget] at this ⊢
  obtain ⟨v, hv, hp⟩ := Option.bind_eq_some_iff.1 this
  rw [hv]
  simp [part_append, hp, part, kids]

/-! ## Strings -/

theorem nextRoom_cases (room : Nat → Nat) {st : State F} {V : Var → Option (Value F)} {fp} (h : Owns st V fp) :
    (∃ h', nextRoom room st.heap = (none, h') ∧ Grew st.heap h' ∧ Owns { st with heap := h' } V fp ∧ Well st fp { st with heap := h' } fp) ∨
    (∃ k h', nextRoom room st.heap = (some k, h') ∧ Grew st.heap h' ∧ Owns { st with heap := h' } V fp ∧ Ill st fp { st with heap := h' } fp) := by
  have g : Grew st.heap { st.heap with tick := st.heap.tick + 1 } := ⟨Nat.le_refl _, fun _ _ => rfl, h.fresh, rfl, by simp⟩
  by_cases hp : st.heap.plan st.heap.tick = true
  · refine .inl ⟨_, by simp only [nextRoom, hp]; rfl, g, h.grew g, Owns.tick_well g ?_ rfl⟩
    intro t h1 h2
    have : t = st.heap.tick := by simp only at h2; omega
    rw [this, hp]
  · simp only [Bool.not_eq_true] at hp
    refine .inr ⟨room st.heap.tick, _, by simp only [nextRoom, hp]; rfl, g, h.grew g, Owns.tick_ill g ?_ rfl⟩
    exact ⟨st.heap.tick, Nat.le_refl _, by simp, hp⟩

theorem like_string {s t : Lex S F} (h : Like s t) : scanString C s = scanString C t := by
  obtain ⟨o, rfl⟩ := h
  exact scanString_out t o

theorem like_stringIn {s t : Lex S F} (h : Like s t) (room : Option Nat) : scanStringIn C room s = scanStringIn C room t := by
  obtain ⟨o, rfl⟩ := h
  exact scanStringIn_out room t o

/-- A string is read, with or without enough memory: the text is right, or there is an error, or the memory was not enough
and `I` does not hold. -/
theorem string_cases {I : Lex S F → Prop} (hC : Calm C I) (hs : Sticky C.enc) (room : Nat → Nat) {st : State F} {V : Var → Option (Value F)} {fp}
    (h : Owns st V fp) {s t : Lex S F} (hl : Like s t) :
    ∃ w h' r, nextRoom room st.heap = (w, h') ∧ Grew st.heap h' ∧ Owns { st with heap := h' } V fp ∧ scanStringIn C w s = r ∧
      ((Ill st fp { st with heap := h' } fp ∧ ∃ e, Oom e ∧ r.1 = .error (.exn e)) ∨
       (Moves (I t) (.str r.2.out.out) (.str (scanString C t).2.out.out) st fp { st with heap := h' } fp ∧ r.1 = (scanString C t).1 ∧
        Like r.2 (scanString C t).2)) := by
  rcases nextRoom_cases room h with ⟨h', e, g, o, w⟩ | ⟨k, h', e, g, o, i⟩
  · refine ⟨none, h', _, e, g, o, rfl, .inr ?_⟩
    rw [scanStringIn_none, like_string hl]
    exact ⟨.well w, rfl, .refl _⟩
  · refine ⟨some k, h', _, e, g, o, rfl, ?_⟩
    rw [like_stringIn hl]
    rcases scanStringIn_short hs (some k) t with h1 | ⟨h1, h2, h3⟩
    · exact .inl ⟨i, _, .inr rfl, h1⟩
    · by_cases he : (scanStringIn C (some k) t).1 = .error (.exn .deserialization)
      · exact .inl ⟨i, _, .inr rfl, he⟩
      · refine .inr ⟨.inr ⟨i, fun hi => ?_⟩, h1, h2⟩
        rcases hC.exact t k hi with h4 | h4
        · exact absurd h4 he
        · rw [h4]

theorem scan_like {I : Lex S F → Prop} (hC : Calm C I) {s t : Lex S F} (hl : Like s t) :
    ∃ r s1 t1, scan C s = (r, s1) ∧ scan C t = (r, t1) ∧ Like s1 t1 ∧ (∀ a, r = .ok a → I t → I t1) := by
  obtain ⟨e1, e2⟩ := (Blind.scan (C := C)).like hl
  exact ⟨(scan C s).1, (scan C s).2, (scan C t).2, rfl, by rw [e1], e2, fun a h hi => hC.scan t a _ hi (Prod.ext (e1.symm.trans h) rfl)⟩

theorem doParse_none (n : Nat) (u : Value F) (s : Lex S F) : doParse C (n + 1) u none s =
    match scan C s with | (.error e, s1) => (.error e, s1, u) | (.ok t, s1) => doParse C (n + 1) u (some t) s1 := by
  rcases e : scan C s with ⟨_ | _, _⟩ <;> simp only [doParse, e]

theorem doParseH_none (room : Nat → Nat) (n k : Nat) (l : Loc) (s : Lex S F) (st : State F) : doParseH C room (n + 1) k l none s st =
    match scan C s with | (.error e, s1) => (.error e, s1, st) | (.ok t, s1) => doParseH C room (n + 1) k l (some t) s1 st := by
  rcases e : scan C s with ⟨_ | _, _⟩ <;> simp only [doParseH, e]

/-- `I` goes on holding while parsing. -/
theorem calm_all {I : Lex S F → Prop} (hC : Calm C I) (n : Nat) :
    (∀ u tok s a, I s → (doParse C n u tok s).1 = .ok a → I (doParse C n u tok s).2.1) ∧
    (∀ us s a, I s → (parseArray C n us s).1 = .ok a → I (parseArray C n us s).2.1) ∧
    (∀ ms s a, I s → (parseObject C n ms s).1 = .ok a → I (parseObject C n ms s).2.1) := by
  induction n with
  | zero => exact ⟨fun _ _ _ _ _ h => by simp [doParse] at h, fun _ _ _ _ h => by simp [parseArray] at h, fun _ _ _ _ h => by simp [parseObject] at h⟩
  | succ n ih =>
    obtain ⟨ih1, ih2, ih3⟩ := ih
    refine ⟨fun u tok s a h => ?_, fun us s a h => ?_, fun ms s a h => ?_⟩
    · have some1 : ∀ t s, I s → (doParse C (n + 1) u (some t) s).1 = .ok a → I (doParse C (n + 1) u (some t) s).2.1 := by
        intro t s h
        simp only [doParse]
        cases t with
        | valueString => exact fun e => hC.string s a _ h (Prod.ext e rfl)
        | beginArray => exact ih2 _ _ _ h
        | beginObject => exact ih3 _ _ _ h
        | _ => first | exact fun _ => h | (intro e; simp at e)
      cases tok with
      | some t => exact some1 t s h
      | none =>
        rw [doParse_none]
        rcases e1 : scan C s with ⟨e | t, s1⟩
        · intro e; simp at e
        · exact some1 t s1 (hC.scan s _ _ h e1)
    · simp only [parseArray]
      rcases e1 : scan C s with ⟨e | t, s1⟩
      · intro e; simp at e
      · have h1 := hC.scan s _ _ h e1
        simp only
        split
        · rcases e2 : doParse C n .null (some t) s1 with ⟨e | _, s2, v⟩
          · intro e; simp at e
          · have h2 := ih1 .null (some t) s1 () h1 (by rw [e2])
            rw [e2] at h2
            simp only at h2 ⊢
            rcases e3 : scan C s2 with ⟨e | t2, s3⟩
            · intro e; simp at e
            · have h3 := hC.scan s2 _ _ h2 e3
              simp only
              split
              · exact ih2 _ _ _ h3
              · split <;> exact fun _ => h3
        · split <;> exact fun _ => h1
    · simp only [parseObject]
      rcases e1 : scan C s with ⟨e | t, s1⟩
      · intro e; simp at e
      · have h1 := hC.scan s _ _ h e1
        simp only
        split
        · rcases e2 : scanString C s1 with ⟨e | _, s2⟩
          · intro e; simp at e
          · have h2 := hC.string s1 _ _ h1 e2
            simp only
            rcases e3 : scan C s2 with ⟨e | t2, s3⟩
            · intro e; simp at e
            · have h3 := hC.scan s2 _ _ h2 e3
              simp only
              split
              · rcases e4 : doParse C n .null none s3 with ⟨e | _, s4, v⟩
                · intro e; simp at e
                · have h4 := ih1 .null none s3 () h3 (by rw [e4])
                  rw [e4] at h4
                  simp only at h4 ⊢
                  rcases e5 : scan C s4 with ⟨e | t3, s5⟩
                  · intro e; simp at e
                  · have h5 := hC.scan s4 _ _ h4 e5
                    simp only
                    split
                    · exact ih3 _ _ _ h5
                    · split <;> exact fun _ => h5
              · split <;> exact fun _ => h3
        · split <;> exact fun _ => h1

/-! ## The parts of the parser -/

/-- `get_string` into a string value. -/
theorem getStringH_goes {I : Lex S F → Prop} (hC : Calm C I) (hs : Sticky C.enc) (room : Nat → Nat) {st : State F} {V : Var → Option (Value F)} {fp}
    (h : Owns st V fp) {s t : Lex S F} (hl : Like s t) {x p l c} (hat : At st x p l c) {w : List Nat} (hu : vget V x p = some (.str w)) :
    Goes (I t) V x p st fp (getStringH C room l s st) (scanString C t).1 (scanString C t).2 (.str (scanString C t).2.out.out) := by
  obtain ⟨wr, h', r, e1, g, o, e2, hr⟩ := string_cases hC hs room h hl
  obtain ⟨a, st2, fp2, rfl, e3, o3, w3, k3⟩ := o.text (hat.grew g h.fresh) hu r.2.out.out
  have er : State.read l st = (.ok (.str a), st) := hat.read
  have ee : getStringH C room l s st = (r.1, r.2, st2) := by
    simp only [getStringH, er, e1, e2, e3]
  rw [ee]
  refine ⟨_, fp2, trivial, o3, ?_⟩
  rcases hr with ⟨i, e⟩ | ⟨m, e4, e5⟩
  · exact .inl ⟨i.well w3, e⟩
  · exact .inr ⟨m.trans (I' := True) (.well w3) (fun _ => trivial) id, e4, e5, (KeepsOut.same g h.fresh x p).trans k3⟩

/-- Numbers. -/
theorem numberH_goes {I : Prop} {st : State F} {V : Var → Option (Value F)} {fp k}
    (h : Owns st V fp) (hf : Free V k) {x p l c} (hat : At st x p l c) {u v v' : Value F} {c' : Cell F} (hu : vget V x p = some u)
    (hv : (∃ i, v = .int i) ∨ ∃ f, v = .flt f) (hc : ∀ mem, Flat mem c' v' []) {s t : Lex S F} (hl : Like s t) :
    Goes I V x p st fp (.of s (numberH l v c' st)) (.ok ()) t v' := by
  have hk : kids v = [] := by rcases hv with ⟨i, rfl⟩ | ⟨i, rfl⟩ <;> rfl
  rcases h.become hf.quiet.tmp hf.quiet.ghost hf.quiet.arg hat hu hk with ⟨st1, fp1, e1, o1, w1, k1⟩ | ⟨st1, e1, o1, i1⟩
  · obtain ⟨c1, a1⟩ := k1 _ _ _ _ hat (by simp)
    obtain ⟨st2, fp2, e2, o2, w2, k2⟩ := o1.scalar a1 (vget_vset hu v) hv hc
    simp only [HRes.of, numberH, M.bind_ok e1, e2]
    rw [vset_vset hu] at o2
    exact ⟨v', fp2, trivial, o2, .inr ⟨.well (w1.trans w2), rfl, hl, KeepsOut.trans k1 k2⟩⟩
  · simp only [HRes.of, numberH, M.bind_error e1]
    exact .bad hu (.inl rfl) o1 i1

/-- `true`, `false` and `null`. -/
theorem become_goes {I : Prop} {st : State F} {V : Var → Option (Value F)} {fp k}
    (h : Owns st V fp) (hf : Free V k) {x p l c} (hat : At st x p l c) {u v : Value F} (hu : vget V x p = some u)
    (hk : kids v = []) {s t : Lex S F} (hl : Like s t) :
    Goes I V x p st fp (.of s (State.become l v st)) (.ok ()) t v := by
  rcases h.become hf.quiet.tmp hf.quiet.ghost hf.quiet.arg hat hu hk with ⟨st1, fp1, e1, o1, w1, k1⟩ | ⟨st1, e1, o1, i1⟩
  · simp only [HRes.of, e1]
    exact ⟨v, fp1, trivial, o1, .inr ⟨.well w1, rfl, hl, k1⟩⟩
  · simp only [HRes.of, e1]
    exact .bad hu (.inl rfl) o1 i1

/-- Strings, arrays and objects: first the place is made an empty one. -/
theorem become_then {I : Prop} {st : State F} {V : Var → Option (Value F)} {fp k}
    (h : Owns st V fp) (hf : Free V k) {x p l c} (hat : At st x p l c) {u v : Value F} (hu : vget V x p = some u)
    (hk : kids v = []) {s : Lex S F} {f : State F → HRes S F Unit} {q1 q2 qv}
    (g : ∀ st1 fp1 c1, Owns st1 (vset V x p v) fp1 → At st1 x p l c1 → Goes I (vset V x p v) x p st1 fp1 (f st1) q1 q2 qv) :
    Goes I V x p st fp (match State.become l v st with | (.error e, st) => (.error e, s, st) | (.ok _, st) => f st) q1 q2 qv := by
  rcases h.become hf.quiet.tmp hf.quiet.ghost hf.quiet.arg hat hu hk with ⟨st1, fp1, e1, o1, w1, k1⟩ | ⟨st1, e1, o1, i1⟩
  · obtain ⟨c1, a1⟩ := k1 _ _ _ _ hat (by simp)
    simp only [e1]
    exact GoesP.after hu (v1 := v) (w1 := v) (.well w1) k1 id (g st1 fp1 c1 o1 a1) (fun _ => rfl)
  · simp only [e1]
    exact .bad hu (.inl rfl) o1 i1

/-- The block of `parseObject` with the local value. -/
theorem member_goes {I : Lex S F → Prop} (hC : Calm C I) {st : State F} {V : Var → Option (Value F)} {fp k}
    (h : Owns st V fp) (hf : Free V k) {x p l c} (hat : At st x p l c) {us : List (List Nat × Value F)} (hu : vget V x p = some (.obj us))
    {t : Lex S F} (key : List Nat) {r : HRes S F Unit} {q : PRes S F}
    (hr : Goes (I t) (upd V (.user k) (some .null)) (.user k) [] { st with vars := upd st.vars (.user k) (some .null) } fp r q.1 q.2.1 q.2.2) :
    GoesP (fun v => ∃ ms, v = .obj ms) (I t) V x p st fp (leaving k (afterMember C l key k r))
      (match q.1 with | .error e => .error e | .ok _ => (scan C q.2.1).1)
      (match q.1 with | .error _ => q.2.1 | .ok _ => (scan C q.2.1).2)
      (match q.1 with | .error _ => .obj us | .ok _ => .obj (Map.emplace key q.2.2 us)) := by
  have hk := hf.user k (Nat.le_refl k)
  have hkx : Var.user k ≠ x := h.ne hk hat
  have w0 : Well st fp { st with vars := upd st.vars (.user k) (some .null) } fp := .same (fun _ => .rfl) (fun _ => .rfl) rfl rfl rfl (fun _ h => h)
  obtain ⟨u', fp', _, o, hr⟩ := hr
  rw [vset_here] at o
  obtain ⟨r1, s1, st1⟩ := r
  obtain ⟨q1, t1, qv⟩ := q
  -- leaving the block
  have leave : ∀ {st2 : State F} {fp2} {W : Var → Option (Value F)} {w : Value F}, Owns st2 (upd W (.user k) (some w)) fp2 → W (.user k) = none →
      ∃ st3, State.destruct (.user k) st2 = (.ok (), st3) ∧ Owns st3 W (upd fp2 (.user k) []) ∧ Well st2 fp2 st3 (upd fp2 (.user k) []) ∧
        ∀ z r l d, At st2 z r l d → z ≠ .user k → At st3 z r l d := by
    intro st2 fp2 W w o2 hW
    obtain ⟨st3, e3, o3, w3⟩ := o2.destruct_well (t := .user k) (w := w) (upd_eq _ _ _)
    refine ⟨st3, e3, ?_, w3, fun z r l d h hz => o2.at_destruct (upd_eq _ _ _) e3 h hz⟩
    rw [upd_same, ← hW, upd_self] at o3
    exact o3
  simp only at hr o ⊢
  rcases hr with ⟨i, e, he, rfl⟩ | ⟨m, rfl, hl, kk⟩
  · obtain ⟨st3, e3, o3, w3, _⟩ := leave o hk
    simp only [afterMember, leaving, e3]
    exact GoesP.bad hu ⟨_, rfl⟩ he o3 ((w0.ill i).well w3)
  · have kx : ∀ z r l d, At st z r l d → ∃ d', At st1 z r l d' ∧ z ≠ .user k := by
      intro z r l d h1
      have hz := h.ne hk h1
      obtain ⟨d', h2⟩ := kk z r l d (h1.vars hz _) (fun e => hz e.1)
      exact ⟨d', h2, hz.symm⟩
    have m' : Moves (I t) u' qv st fp st1 fp' := Moves.trans (v1 := u') (w1 := u') (.well w0) m id (fun _ => rfl)
    cases r1 with
    | error e =>
      obtain ⟨st3, e3, o3, w3, k3⟩ := leave o hk
      simp only [afterMember, leaving, e3]
      refine ⟨.obj us, _, ⟨_, rfl⟩, by rw [vset_self hu]; exact o3, .inr ⟨?_, rfl, hl, ?_⟩⟩
      · rcases m' with ⟨m', _⟩ | ⟨m', _⟩
        · exact .inl ⟨m'.trans w3, rfl⟩
        · exact .inr ⟨m'.well w3, fun _ => rfl⟩
      · intro z r l d h1 _
        obtain ⟨d', h2, hz⟩ := kx z r l d h1
        exact ⟨d', k3 _ _ _ _ h2 hz⟩
    | ok _ =>
      obtain ⟨c1, a1, _⟩ := kx _ _ _ _ hat
      obtain ⟨cy, hy⟩ : ∃ cy, At st1 (.user k) [] (.var (.user k)) cy := by
        obtain ⟨ly, cy, hy⟩ := o.vat (x := .user k) (p := []) (u := u') (by simp [vget, upd_eq, part])
        obtain ⟨cc, h1, h2⟩ := hy
        exact ⟨cc, cc, h1, rfl⟩
      rcases o.emplace (by rw [upd_ne _ _ (by simp)]; exact hf.quiet.ghost) a1 (us := us) (by rw [vget_upd hkx]; exact hu) hy (w := u') (upd_eq _ _ _) key with
        ⟨st2, fp2, e2, o2, w2, k2⟩ | ⟨st2, e2, o2, i2⟩
      · rw [vset_upd hkx] at o2
        obtain ⟨st3, e3, o3, w3, k3⟩ := leave o2 (vset_none hk _ _ _)
        obtain ⟨r5, s5, t5, e5, e5', hl5, _⟩ := scan_like hC hl
        have eq : leaving k (afterMember C l key k ((.ok (), s1, st1) : HRes S F Unit)) = (r5, s5, st3) := by
          simp only [afterMember, e2, e5]
          cases r5 <;> simp only [leaving, e3]
        rw [eq, e5']
        refine ⟨_, _, ⟨_, rfl⟩, o3, .inr ⟨?_, rfl, hl5, ?_⟩⟩
        · rcases m' with ⟨m', e⟩ | ⟨m', e⟩
          · exact .inl ⟨(m'.trans w2).trans w3, by rw [e]⟩
          · exact .inr ⟨(m'.well w2).well w3, fun i => by rw [e i]⟩
        · intro z r l d h1 hn
          obtain ⟨d', h2, hz⟩ := kx z r l d h1
          obtain ⟨d2, h3⟩ := k2 z r l d' h2 hn
          exact ⟨d2, k3 _ _ _ _ h3 hz⟩
      · obtain ⟨st3, e3, o3, w3, k3⟩ := leave o2 hk
        simp only [afterMember, e2, leaving, e3]
        exact GoesP.bad hu ⟨_, rfl⟩ (.inl rfl) o3 ((m'.ill i2).well w3)

/-- A result about an element is one about the array. -/
theorem Goes.up {I : Prop} {V : Var → Option (Value F)} {x p st fp} {u : Value F} (hu : vget V x p = some u) {us : List (Value F)} {w : Value F}
    {r : HRes S F α} {q1 q2 qv}
    (g : Goes I (vset V x p (.arr (us ++ [w]))) x (p ++ [us.length]) st fp r q1 q2 qv) :
    GoesP (fun v => ∃ xs, v = .arr xs) I (vset V x p (.arr (us ++ [w]))) x p st fp r q1 q2 (.arr (us ++ [qv])) := by
  obtain ⟨u', fp', _, o, g⟩ := g
  rw [vset_child hu] at o
  refine ⟨.arr (us ++ [u']), fp', ⟨_, rfl⟩, by rw [vset_vset hu]; exact o, ?_⟩
  rcases g with g | ⟨m, e1, e2, e3⟩
  · exact .inl g
  · refine .inr ⟨?_, e1, e2, e3.inside⟩
    rcases m with ⟨m, e⟩ | ⟨m, e⟩
    · exact .inl ⟨m, by rw [e]⟩
    · exact .inr ⟨m, fun i => by rw [e i]⟩

/-- One element of an array: `push_back(_ValTy())` and then `do_parse`. -/
theorem element_goes {I : Prop} {st : State F} {V : Var → Option (Value F)} {fp}
    (h : Owns st V fp) {x p l c} (hat : At st x p l c) {us : List (Value F)} (hu : vget V x p = some (.arr us))
    {s : Lex S F} {f : Loc → State F → HRes S F Unit} {q1 q2 qv}
    (g : ∀ st1 fp1 l1 c1, Owns st1 (vset V x p (.arr (us ++ [.null]))) fp1 → At st1 x (p ++ [us.length]) l1 c1 →
      Goes I (vset V x p (.arr (us ++ [.null]))) x (p ++ [us.length]) st1 fp1 (f l1 st1) q1 q2 qv) :
    GoesP (fun v => ∃ xs, v = .arr xs) I V x p st fp (match State.grow l st with | (.error e, st) => (.error e, s, st) | (.ok l', st) => f l' st) q1 q2 (.arr (us ++ [qv])) := by
  rcases h.push hat hu with ⟨st1, fp1, l1, e1, o1, w1, k1, a1⟩ | ⟨st1, e1, o1, i1⟩
  · simp only [e1]
    exact GoesP.after hu (v1 := .arr (us ++ [.null])) (w1 := .arr (us ++ [.null])) (.well w1) k1 id (Goes.up hu (g st1 fp1 l1 _ o1 a1)) (fun _ => rfl)
  · simp only [e1]
    exact GoesP.bad hu ⟨_, rfl⟩ (.inl rfl) o1 i1

/-- What follows a part of the parser. -/
theorem GoesP.bind {β : Type} {P : Value F → Prop} {I I' : Prop} {V : Var → Option (Value F)} {x p st fp} {u : Value F} (hu : vget V x p = some u) {r : HRes S F α} {q1 q2 qv}
    (g : GoesP P I V x p st fp r q1 q2 qv) {l c} (hat : At st x p l c) (hI : ∀ a, q1 = .ok a → I → I') {f : α → Lex S F → State F → HRes S F β}
    {q1' : Except Stop β} {q2' qv'}
    (herr : ∀ e, q1 = .error e → q1' = .error e ∧ q2' = q2 ∧ qv' = qv)
    (hok : ∀ a v1 s1 st1 fp1 c1, q1 = .ok a → P v1 → Like s1 q2 → Owns st1 (vset V x p v1) fp1 → At st1 x p l c1 →
      ∃ qv2, Goes I' (vset V x p v1) x p st1 fp1 (f a s1 st1) q1' q2' qv2 ∧ (v1 = qv → qv2 = qv')) :
    Goes I V x p st fp (match r with | (.error e, s, st) => (.error e, s, st) | (.ok a, s, st) => f a s st) q1' q2' qv' := by
  obtain ⟨u', fp', hP, o, g⟩ := g
  obtain ⟨r1, s1, st1⟩ := r
  rcases g with ⟨i, e, he, rfl⟩ | ⟨m, rfl, hl, hk⟩
  · exact ⟨u', fp', trivial, o, .inl ⟨i, e, he, rfl⟩⟩
  · cases r1 with
    | error e =>
      obtain ⟨rfl, rfl, rfl⟩ := herr e rfl
      exact ⟨u', fp', trivial, o, .inr ⟨m, rfl, hl, hk⟩⟩
    | ok a =>
      obtain ⟨c1, a1⟩ := hk _ _ _ _ hat (by simp)
      obtain ⟨qv2, g2, hv⟩ := hok a u' s1 st1 fp' c1 rfl hP hl o a1
      exact GoesP.after hu m hk (hI a rfl) g2 hv

/-- The statement about `do_parse`. -/
def DoParse (C : Cfg S F) (I : Lex S F → Prop) (room : Nat → Nat) (n : Nat) : Prop :=
  ∀ k l tok s t st V fp x p c u, Owns st V fp → Free V k → At st x p l c → vget V x p = some u → Like s t →
    Goes (I t) V x p st fp (doParseH C room n k l tok s st) (doParse C n u tok t).1 (doParse C n u tok t).2.1 (doParse C n u tok t).2.2

def ParseArray (C : Cfg S F) (I : Lex S F → Prop) (room : Nat → Nat) (n : Nat) : Prop :=
  ∀ k l s t st V fp x p c us, Owns st V fp → Free V k → At st x p l c → vget V x p = some (.arr us) → Like s t →
    Goes (I t) V x p st fp (parseArrayH C room n k l s st) (parseArray C n us t).1 (parseArray C n us t).2.1 (parseArray C n us t).2.2

def ParseObject (C : Cfg S F) (I : Lex S F → Prop) (room : Nat → Nat) (n : Nat) : Prop :=
  ∀ k l s t st V fp x p c us, Owns st V fp → Free V k → At st x p l c → vget V x p = some (.obj us) → Like s t →
    Goes (I t) V x p st fp (parseObjectH C room n k l s st) (parseObject C n us t).1 (parseObject C n us t).2.1 (parseObject C n us t).2.2

theorem doParse_step {I : Lex S F → Prop} (hC : Calm C I) (hs : Sticky C.enc) (room : Nat → Nat) {n : Nat} (ia : ParseArray C I room n)
    (io : ParseObject C I room n) : DoParse C I room (n + 1) := by
  have some1 : ∀ k l tok s t st V fp x p c u, Owns st V fp → Free V k → At st x p l c → vget V x p = some u → Like s t →
      Goes (I t) V x p st fp (doParseH C room (n + 1) k l (some tok) s st) (doParse C (n + 1) u (some tok) t).1
        (doParse C (n + 1) u (some tok) t).2.1 (doParse C (n + 1) u (some tok) t).2.2 := by
    intro k l tok s t st V fp x p c u h hf hat hu hl
    simp only [doParseH, doParse]
    cases tok with
    | literalTrue => exact become_goes h hf hat hu rfl hl
    | literalFalse => exact become_goes h hf hat hu rfl hl
    | literalNull => exact become_goes h hf hat hu rfl hl
    | valueString =>
      refine become_then h hf hat hu rfl ?_
      intro st1 fp1 c1 o1 a1
      exact getStringH_goes hC hs room o1 hl a1 (vget_vset hu _)
    | valueInteger =>
      have : getInteger s = getInteger t := by obtain ⟨o, rfl⟩ := hl; rfl
      rw [this]
      exact numberH_goes h hf hat hu (.inl ⟨_, rfl⟩) (fun _ => by simp [Flat]) hl
    | valueFloat =>
      have : getFloat C s = getFloat C t := by obtain ⟨o, rfl⟩ := hl; rfl
      rw [this]
      exact numberH_goes h hf hat hu (.inr ⟨_, rfl⟩) (fun _ => by simp [Flat]) hl
    | beginArray =>
      refine become_then h hf hat hu rfl ?_
      intro st1 fp1 c1 o1 a1
      exact ia _ _ _ _ _ _ _ _ _ _ _ o1 (hf.vset _ _ _) a1 (vget_vset hu _) hl
    | beginObject =>
      refine become_then h hf hat hu rfl ?_
      intro st1 fp1 c1 o1 a1
      exact io _ _ _ _ _ _ _ _ _ _ _ o1 (hf.vset _ _ _) a1 (vget_vset hu _) hl
    | _ => exact Goes.here h hu hl
  intro k l tok s t st V fp x p c u h hf hat hu hl
  cases tok with
  | some tok => exact some1 _ _ _ _ _ _ _ _ _ _ _ _ h hf hat hu hl
  | none =>
    obtain ⟨r, s1, t1, e1, e2, hl1, hI⟩ := scan_like hC hl
    rw [doParseH_none, doParse_none, e1, e2]
    cases r with
    | error e => exact Goes.here h hu hl1
    | ok tok =>
      exact GoesP.within (v1 := u) (w1 := u) (.well (.refl st fp)) (.refl st x p) (hI _ rfl) hu (some1 _ _ _ _ _ _ _ _ _ _ _ _ h hf hat hu hl1) (fun _ => rfl)

/-- The rest of the array loop after an element. -/
def arrayRest (C : Cfg S F) (n : Nat) (us : List (Value F)) (q : PRes S F) : PRes S F :=
  match q with
  | (.error e, s, v) => (.error e, s, .arr (us ++ [v]))
  | (.ok _, s, v) =>
    match scan C s with
    | (.error e, s) => (.error e, s, .arr (us ++ [v]))
    | (.ok t, s) =>
      if t = .valueSeparator then parseArray C n (us ++ [v]) s
      else if t = .endArray then (.ok (), s, .arr (us ++ [v]))
      else (.error (.exn .deserialization), s, .arr (us ++ [v]))

theorem parseArray_step {I : Lex S F → Prop} (hC : Calm C I) (room : Nat → Nat) {n : Nat} (id' : DoParse C I room n) (ia : ParseArray C I room n) :
    ParseArray C I room (n + 1) := by
  intro k l s t st V fp x p c us h hf hat hu hl
  obtain ⟨r, s1, t1, e1, e2, hl1, hI⟩ := scan_like hC hl
  simp only [parseArrayH, parseArray, e1, e2]
  cases r with
  | error e => exact Goes.here h hu hl1
  | ok tok =>
    simp only
    by_cases hv : tok.startsValue = true
    · simp only [hv, if_true]
      refine GoesP.within (v1 := .arr us) (w1 := .arr us) (.well (.refl st fp)) (.refl st x p) (hI _ rfl) hu (qv' := _) ?_ (fun _ => rfl)
      change Goes (I t1) V x p st fp _ (arrayRest C n us (doParse C n .null (some tok) t1)).1 (arrayRest C n us (doParse C n .null (some tok) t1)).2.1
        (arrayRest C n us (doParse C n .null (some tok) t1)).2.2
      rcases hq : doParse C n .null (some tok) t1 with ⟨q1, q2, qv⟩
      have hI2 : ∀ a, q1 = .ok a → I t1 → I q2 := by
        intro a ha hi
        have := (calm_all hC n).1 .null (some tok) t1 a hi
        rw [hq] at this
        exact this ha
      have g : GoesP (fun v => ∃ xs, v = .arr xs) (I t1) V x p st fp
          (match State.grow l st with | (.error e, st) => (.error e, s1, st) | (.ok l', st) => doParseH C room n k l' (some tok) s1 st)
          q1 q2 (.arr (us ++ [qv])) := by
        refine element_goes h hat hu ?_
        intro st1 fp1 l1 c1 o1 a1
        have := id' k l1 (some tok) s1 t1 st1 _ fp1 x (p ++ [us.length]) c1 .null o1 (hf.vset _ _ _) a1 (vget_child hu us .null) hl1
        rw [hq] at this
        exact this
      have g2 := g.bind (I' := I q2) hu hat hI2 (β := Unit)
        (f := fun _ s st => match scan C s with
          | (.error e, s) => (.error e, s, st)
          | (.ok t, s) => if t = .valueSeparator then parseArrayH C room n k l s st
              else if t = .endArray then (.ok (), s, st) else (.error (.exn .deserialization), s, st))
        (q1' := (arrayRest C n us (q1, q2, qv)).1)
        (q2' := (arrayRest C n us (q1, q2, qv)).2.1)
        (qv' := (arrayRest C n us (q1, q2, qv)).2.2)
        (by rintro e rfl; exact ⟨rfl, rfl, rfl⟩)
        (by
          rintro a v1 s2 st2 fp2 c2 rfl ⟨xs, rfl⟩ hl2 o2 a2
          obtain ⟨r3, s3, t3, e3, e3', hl3, hI3⟩ := scan_like hC hl2
          simp only [arrayRest, e3, e3']
          have hx := vget_vset hu (.arr xs)
          cases r3 with
          | error e => exact ⟨_, Goes.here o2 hx hl3, fun h => h⟩
          | ok t4 =>
            simp only
            by_cases h1 : t4 = .valueSeparator
            · simp only [h1, if_true]
              refine ⟨(parseArray C n xs t3).2.2, ?_, ?_⟩
              · rw [(parseArray_lex n (us ++ [qv]) xs t3).1, (parseArray_lex n (us ++ [qv]) xs t3).2]
                exact GoesP.within (v1 := .arr us) (w1 := .arr us) (.well (.refl st2 fp2)) (.refl st2 x p) (hI3 _ rfl) hx
                  (ia k l s3 t3 st2 _ fp2 x p c2 xs o2 (hf.vset _ _ _) a2 hx hl3) (fun _ => rfl)
              · intro h
                injection h with h
                rw [h]
            · simp only [h1, if_false]
              split
              · exact ⟨_, Goes.here o2 hx hl3, fun h => h⟩
              · exact ⟨_, Goes.here o2 hx hl3, fun h => h⟩)
      revert g2
      rcases State.grow l st with ⟨_ | l1, st1⟩
      · exact id
      · simp only
        rcases doParseH C room n k l1 (some tok) s1 st1 with ⟨_ | _, _, _⟩ <;> exact id
    · simp only [hv, Bool.false_eq_true, if_false]
      split
      · exact Goes.here h hu hl1
      · exact Goes.here h hu hl1

/-- The rest of the object loop after a member. -/
def objectRest (C : Cfg S F) (n : Nat) (ms : Map.T (Value F)) (key : List Nat) (q : PRes S F) : PRes S F :=
  match q with
  | (.error e, s, _) => (.error e, s, .obj ms)
  | (.ok _, s, v) =>
    match scan C s with
    | (.error e, s) => (.error e, s, .obj (Map.emplace key v ms))
    | (.ok t, s) =>
      if t = .valueSeparator then parseObject C n (Map.emplace key v ms) s
      else if t = .endObject then (.ok (), s, .obj (Map.emplace key v ms))
      else (.error (.exn .deserialization), s, .obj (Map.emplace key v ms))

theorem objectRest_lex (n : Nat) (ms : Map.T (Value F)) (key key' : List Nat) (q : PRes S F) :
    (objectRest C n ms key q).1 = (objectRest C n ms key' q).1 ∧ (objectRest C n ms key q).2.1 = (objectRest C n ms key' q).2.1 := by
  rcases q with ⟨e | _, s, v⟩
  · exact ⟨rfl, rfl⟩
  · simp only [objectRest]
    rcases scan C s with ⟨e | t, s1⟩
    · exact ⟨rfl, rfl⟩
    · simp only
      split
      · exact parseObject_lex _ _ _ _
      · split <;> exact ⟨rfl, rfl⟩

theorem parseObject_step {I : Lex S F → Prop} (hC : Calm C I) (hs : Sticky C.enc) (room : Nat → Nat) {n : Nat} (id' : DoParse C I room n)
    (io : ParseObject C I room n) : ParseObject C I room (n + 1) := by
  intro k l s t st V fp x p c us h hf hat hu hl
  obtain ⟨r, s1, t1, e1, e2, hl1, hI⟩ := scan_like hC hl
  simp only [parseObjectH, parseObject, e1, e2]
  cases r with
  | error e => exact Goes.here h hu hl1
  | ok tok =>
    simp only
    by_cases hv : tok = .valueString
    · simp only [hv, if_true]
      refine GoesP.within (v1 := .obj us) (w1 := .obj us) (.well (.refl st fp)) (.refl st x p) (hI _ rfl) hu (qv' := _) ?_ (fun _ => rfl)
      obtain ⟨wr, h', ⟨r3, s3⟩, e3, g3, o3, e4, hr⟩ := string_cases hC hs room h hl1
      have ek : getKeyH C room s1 st = (r3, s3, { st with heap := h' }) := by simp only [getKeyH, e3, e4]
      have hI3 := fun a s' hi => hC.string t1 a s' hi
      rw [ek]
      rcases hq : scanString C t1 with ⟨q3, t3⟩
      rw [hq] at hr hI3
      rcases hr with ⟨i, e, he, rfl⟩ | ⟨m, rfl, hl3⟩
      · exact Goes.bad hu he o3 i
      · have k3 := KeepsOut.same g3 h.fresh x p
        have a3 := hat.grew g3 h.fresh
        refine GoesP.within (I' := match r3 with | .error _ => True | .ok _ => I t3) (qv' := (match r3 with
              | .error e => .obj us
              | .ok _ => match scan C t3 with
                | (.error e, _) => .obj us
                | (.ok t, s) => if t = .nameSeparator then (objectRest C n us s3.out.out (doParse C n .null none s)).2.2 else .obj us)) m k3 (by
          cases r3 with
          | error e => exact fun _ => trivial
          | ok _ => exact fun hi => hI3 _ _ hi rfl) hu ?_ ?_
        · cases r3 with
          | error e => exact Goes.here o3 hu hl3
          | ok _ =>
            obtain ⟨r5, s5, t5, e5, e5', hl5, hI5⟩ := scan_like hC hl3
            simp only [e5, e5']
            cases r5 with
            | error e => exact Goes.here o3 hu hl5
            | ok t6 =>
              refine GoesP.within (v1 := .obj us) (w1 := .obj us) (.well (.refl _ fp)) (.refl _ x p) (hI5 _ rfl) hu (qv' := _) ?_ (fun _ => rfl)
              simp only
              by_cases h6 : t6 = .nameSeparator
              · simp only [h6, if_true]
                change Goes (I t5) V x p _ fp _ (objectRest C n us t3.out.out (doParse C n .null none t5)).1
                  (objectRest C n us t3.out.out (doParse C n .null none t5)).2.1 _
                rw [(objectRest_lex n us t3.out.out s3.out.out _).1, (objectRest_lex n us t3.out.out s3.out.out _).2]
                have gm := id' (k + 1) (.var (.user k)) none s5 t5 { heap := h', vars := upd st.vars (.user k) (some .null) } (upd V (.user k) (some .null)) fp
                  (.user k) [] .null .null (o3.null (hf.user k (Nat.le_refl k))) (hf.declare _) ⟨.null, upd_eq _ _ _, rfl⟩ (by simp [vget, upd_eq, part]) hl5
                have hI7 := (calm_all hC n).1 .null none t5
                generalize doParse C n .null none t5 = q at gm hI7 ⊢
                have g := member_goes hC o3 hf a3 hu s3.out.out gm
                rcases q with ⟨q1, q2, qv⟩
                have g2 := g.bind (I' := I (match q1 with | .error _ => q2 | .ok _ => (scan C q2).2)) hu a3
                  (by
                    intro a ha hi
                    cases q1 with
                    | error e => simp at ha
                    | ok _ => exact hC.scan _ a _ (hI7 () hi rfl) (Prod.ext ha rfl)) (β := Unit)
                  (f := fun t s st => if t = .valueSeparator then parseObjectH C room n k l s st
                      else if t = .endObject then (.ok (), s, st) else (.error (.exn .deserialization), s, st))
                  (q1' := (objectRest C n us s3.out.out (q1, q2, qv)).1)
                  (q2' := (objectRest C n us s3.out.out (q1, q2, qv)).2.1)
                  (qv' := (objectRest C n us s3.out.out (q1, q2, qv)).2.2)
                  (by
                    intro e he
                    simp only [objectRest] at he ⊢
                    cases q1 with
                    | error e' => simp only at he; injection he with he; subst he; simp
                    | ok _ =>
                      simp only at he ⊢
                      rcases hsc : scan C q2 with ⟨e' | _, _⟩
                      · rw [hsc] at he; simp only at he; injection he with he; subst he; simp
                      · rw [hsc] at he; simp at he)
                  (by
                    rintro a v1 s6 st6 fp6 c6 ha ⟨ms, rfl⟩ hl6 o6 a6
                    cases q1 with
                    | error e' => simp at ha
                    | ok _ =>
                      have hx := vget_vset hu (.obj ms)
                      simp only [objectRest] at ha hl6 ⊢
                      rcases hsc : scan C q2 with ⟨e' | t7, s7⟩
                      · rw [hsc] at ha; simp at ha
                      · rw [hsc] at ha hl6
                        simp only at ha hl6 ⊢
                        injection ha with ha
                        subst ha
                        by_cases h1 : t7 = .valueSeparator
                        · simp only [h1, if_true]
                          refine ⟨(parseObject C n ms s7).2.2, ?_, ?_⟩
                          · rw [(parseObject_lex n _ ms s7).1, (parseObject_lex n _ ms s7).2]
                            exact io k l s6 s7 st6 _ fp6 x p c6 ms o6 (hf.vset _ _ _) a6 hx hl6
                          · intro h
                            injection h with h
                            rw [h]
                        · simp only [h1, if_false]
                          split
                          · exact ⟨_, Goes.here o6 hx hl6, fun h => h⟩
                          · exact ⟨_, Goes.here o6 hx hl6, fun h => h⟩)
                revert g2
                generalize leaving k _ = r9
                rcases r9 with ⟨_ | _, _, _⟩ <;> exact id
              · simp only [h6, if_false]
                split
                · exact Goes.here o3 hu hl5
                · exact Goes.here o3 hu hl5
        · intro h
          injection h with h
          rw [h]
          cases r3 with
          | error e => rfl
          | ok _ =>
            simp only
            rcases scan C t3 with ⟨e | t6, s6⟩
            · rfl
            · simp only
              by_cases h6 : t6 = .nameSeparator
              · simp only [h6, if_true]; rfl
              · simp only [h6, if_false]; split <;> rfl
    · simp only [hv, if_false]
      split
      · exact Goes.here h hu hl1
      · exact Goes.here h hu hl1

theorem parse_all {I : Lex S F → Prop} (hC : Calm C I) (hs : Sticky C.enc) (room : Nat → Nat) (n : Nat) :
    DoParse C I room n ∧ ParseArray C I room n ∧ ParseObject C I room n := by
  induction n with
  | zero =>
    refine ⟨?_, ?_, ?_⟩
    · intro k l tok s t st V fp x p c u h hf hat hu hl
      exact Goes.here h hu hl
    · intro k l s t st V fp x p c u h hf hat hu hl
      exact Goes.here h hu hl
    · intro k l s t st V fp x p c u h hf hat hu hl
      exact Goes.here h hu hl
  | succ n ih => exact ⟨doParse_step hC hs room ih.2.1 ih.2.2, parseArray_step hC room ih.1 ih.2.1, parseObject_step hC hs room ih.1 ih.2.2⟩

/-! ## Calls -/

/-- `parseBody` without its last check. -/
def bodyRest (C : Cfg S F) (q : PRes S F) : PRes S F :=
  match q with
  | (.error e, s, v) => (.error e, s, v)
  | (.ok _, s, v) =>
    match scan C s with
    | (.error e, s) => (.error e, s, v)
    | (.ok t, s) => if t = .endOfInput then (.ok (), s, v) else (.error (.exn .deserialization), s, v)

theorem parseBodyH_goes {I : Lex S F → Prop} (hC : Calm C I) (hs : Sticky C.enc) (room : Nat → Nat) (n k : Nat) {l : Loc} {s t : Lex S F} {st V fp}
    (h : Owns st V fp) (hf : Free V k) {x p c} (hat : At st x p l c) {u : Value F} (hu : vget V x p = some u) (hl : Like s t) :
    Goes (I t) V x p st fp (parseBodyH C room n k l s st) (parseBody C n u t).1 (parseBody C n u t).2.1 (parseBody C n u t).2.2 := by
  have g := (parse_all hC hs room n).1 k l none s t st V fp x p c u h hf hat hu hl
  change Goes (I t) V x p st fp _ (bodyRest C (doParse C n u none t)).1 (bodyRest C (doParse C n u none t)).2.1 (bodyRest C (doParse C n u none t)).2.2
  have hI := (calm_all hC n).1 u none t
  simp only [parseBodyH]
  generalize doParse C n u none t = q at g hI ⊢
  rcases q with ⟨q1, q2, qv⟩
  have g2 := g.bind (I' := True) hu hat (fun _ _ _ => trivial) (β := Unit)
    (f := fun _ s st => match scan C s with
      | (.error e, s) => (.error e, s, st)
      | (.ok t, s) => if t = .endOfInput then (.ok (), s, st) else (.error (.exn .deserialization), s, st))
    (q1' := (bodyRest C (q1, q2, qv)).1) (q2' := (bodyRest C (q1, q2, qv)).2.1) (qv' := (bodyRest C (q1, q2, qv)).2.2)
    (by rintro e rfl; exact ⟨rfl, rfl, rfl⟩)
    (by
      rintro a v1 s2 st2 fp2 c2 rfl - hl2 o2 a2
      obtain ⟨r3, s3, t3, e3, e3', hl3, hI3⟩ := scan_like hC hl2
      have hx := vget_vset hu v1
      simp only [bodyRest, e3, e3']
      cases r3 with
      | error e => exact ⟨_, Goes.here o2 hx hl3, fun h => h⟩
      | ok t4 =>
        simp only
        split
        · exact ⟨_, Goes.here o2 hx hl3, fun h => h⟩
        · exact ⟨_, Goes.here o2 hx hl3, fun h => h⟩)
  revert g2
  generalize doParseH C room n k l none s st = r9
  rcases r9 with ⟨_ | _, _, _⟩ <;> exact id

/-- What the caller sees of an exception. -/
def seen (h : Option Handler) (e : Err) : Except Stop Unit :=
  match h with
  | some h => if h.swallows e then .ok () else .error (.exn e)
  | none => .error (.exn e)

theorem handledH_exn (h : Option Handler) (e : Err) (s : Lex S F) (st : State F) : handledH h (.error (.exn e), s, st) = (seen h e, s, st) := by
  cases h with
  | none => rfl
  | some h => simp only [handledH, seen]; split <;> rfl

theorem handled_one (h : Option Handler) (q : PRes S F) : (handled h q).2.2 = q.2.2 := by
  obtain ⟨r, s, v⟩ := q
  cases h with
  | none => rcases r with (_ | _ | _ | _) | _ <;> rfl
  | some h => cases r with
    | ok _ => rfl
    | error e => cases e with
      | exn e => simp only [handled]; split <;> rfl
      | _ => rfl

theorem handled_res (h : Option Handler) (r1 : Except Stop Unit) (s : Lex S F) (st : State F) (t : Lex S F) (v : Value F) :
    (handledH h (r1, s, st)).1 = (handled h (r1, t, v)).1 ∧ (handledH h (r1, s, st)).2.2 = st := by
  cases h with
  | none => rcases r1 with (_ | _ | _ | _) | _ <;> exact ⟨rfl, rfl⟩
  | some h => cases r1 with
    | ok _ => exact ⟨rfl, rfl⟩
    | error e => cases e with
      | exn e => simp only [handledH, handled]; split <;> exact ⟨rfl, rfl⟩
      | _ => exact ⟨rfl, rfl⟩

/-- A whole call. -/
theorem parseH_goes {I : Lex S F → Prop} (hC : Calm C I) (hs : Sticky C.enc) (room : Nat → Nat) (n k : Nat) (hd : Option Handler) {l : Loc} (s : Lex S F)
    {st V fp} (h : Owns st V fp) (hf : Free V k) {x p c} (hat : At st x p l c) {u : Value F} (hu : vget V x p = some u) :
    ∃ u' fp', Owns (parseH C room n k hd l s st).2.2 (vset V x p u') fp' ∧
      ((Ill st fp (parseH C room n k hd l s st).2.2 fp' ∧ ∃ e, Oom e ∧ (parseH C room n k hd l s st).1 = seen hd e) ∨
       (Moves (I s) u' (parse C n hd u s).2.2 st fp (parseH C room n k hd l s st).2.2 fp' ∧ (parseH C room n k hd l s st).1 = (parse C n hd u s).1)) := by
  simp only [parseH, parse]
  rcases e1 : readNext C s with ⟨e | a, s1⟩
  · exact ⟨u, fp, by rw [vset_self hu]; exact h, .inr ⟨.well (.refl st fp), rfl⟩⟩
  · simp only
    obtain ⟨u', fp', _, o, g⟩ := parseBodyH_goes hC hs room n k h hf hat hu (.refl s1)
    rcases eb : parseBodyH C room n k l s1 st with ⟨r1, s2, st2⟩
    rw [eb] at o g
    simp only at o g
    rcases g with ⟨i, e, he, rfl⟩ | ⟨m, e2, _, _⟩
    · rw [handledH_exn]
      exact ⟨u', fp', o, .inl ⟨i, e, he, rfl⟩⟩
    · rcases ep : parseBody C n u s1 with ⟨q1, t2, qv⟩
      rw [ep] at m e2
      simp only at m e2
      subst e2
      obtain ⟨h1, h2⟩ := handled_res hd r1 s2 st2 t2 qv
      rw [h1, h2, handled_one]
      refine ⟨u', fp', o, .inr ⟨?_, rfl⟩⟩
      rcases m with m | ⟨m, hv⟩
      · exact .inl m
      · exact .inr ⟨m, fun hi => hv (hC.next _ _ _ hi e1)⟩

/-- Nothing is known of the source. -/
theorem calm_false : Calm C (fun _ => False) := ⟨fun _ _ _ h => h.elim, fun _ _ _ h => h.elim, fun _ _ _ h => h.elim, fun _ _ h => h.elim⟩

end Spec
