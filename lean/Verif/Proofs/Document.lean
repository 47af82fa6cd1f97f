import Verif.Proofs.ParseComplete
/-! The parser as a whole: `parse` succeeds exactly on the documents of the grammar. -/
namespace Configor
open Lexer Spec

variable {F : Type} {A : ParseArgs F} {l : List (Option Nat)}

/-- The character types have at least 8 bits. -/
structure ParseArgs.Usual (A : ParseArgs F) : Prop where
  sw : 8 ≤ A.sw
  tw : 8 ≤ A.tw

/-- The language of a call. -/
def ParseArgs.dialect (A : ParseArgs F) : Dialect F := ⟨A.sw, A.debug, A.fo, storeWith (A.te.encode A.tw)⟩

theorem Enc.encode_ascii (e : Enc) {w : Nat} (hw : 8 ≤ w) (o : OStream) (c : Nat) (hc : c < 128) :
    e.encode w o c = o.put c := by
  have hm : asPut w c = c := by
    have : 2 ^ 8 ≤ 2 ^ w := Nat.pow_le_pow_right (by decide) hw
    have e : toChar w c = c := by
      unfold toChar
      apply Nat.mod_eq_of_lt
      simp only [Nat.reducePow] at this; omega
    unfold asPut
    rw [e, if_neg (by omega)]
  cases e
  · simp [Enc.encode, ignoreEncode, hm]
  · simp only [Enc.encode, utf8Encode]
    rw [if_pos (by omega), hm]
  · simp only [Enc.encode, utf16Encode]
    rw [if_pos (by omega), hm]
  · simp only [Enc.encode, utf32Encode]
    rw [if_neg (by omega), hm]

theorem canon_canon (hA : A.Usual) (n : Nat) : Canon (A.canon n) :=
  ⟨rfl, hA.sw, fun o c _ hc => A.te.encode_ascii hA.tw o c hc⟩

/-- The data of a new parser. -/
def data0 (A : ParseArgs F) : Data F := ⟨false, 0, A.fo.ofInt 0, .ofString []⟩

theorem parse_start (n m : Nat) (h : Option Handler) (c : Value F) (ho : Ok l) :
    parse (A.canon n) m h c (Lex.init ⟨l, false, false⟩ (A.fo.ofInt 0)) =
      handled h (parseBody (A.canon n) m c (At l (data0 A))) := by
  unfold parse
  have : readNext (A.canon n) (Lex.init ⟨l, false, false⟩ (A.fo.ofInt 0)) = (.ok (hd l), At l (data0 A)) := by
    cases l with
    | nil => rfl
    | cons x l =>
      cases x with
      | none => simp [Ok] at ho
      | some c => rfl
  rw [this]

theorem parse_bad (n m : Nat) (h : Option Handler) (c : Value F) (ho : ¬ Ok l) :
    (parse (A.canon n) m h c (Lex.init ⟨l, false, false⟩ (A.fo.ofInt 0))).1 = .error (.exn .deserialization) ∧
    (parse (A.canon n) m h c (Lex.init ⟨l, false, false⟩ (A.fo.ofInt 0))).2.2 = c := by
  unfold parse
  cases l with
  | nil => exact absurd Ok.nil ho
  | cons x l =>
    cases x with
    | none => exact ⟨rfl, rfl⟩
    | some c => exact absurd (Ok.cons _ _) ho

theorem body_sound {C : Cfg CpS F} (H : Canon C) (d : Data F) (c : Value F) {n : Nat} (ho : Ok l)
    (hb : l.length + 1 ≤ C.bound) (hn : 2 * l.length + 2 ≤ n) :
    match parseBody C n c (At l d) with
    | (.ok _, _, v) => Document C.dialect l v
    | (.error e, _, _) => Fault C l e := by
  obtain ⟨n, rfl⟩ : ∃ m, n = m + 1 := ⟨n - 1, by omega⟩
  unfold parseBody
  rw [doParse_none]
  have h1 := post_scan (d := d) (E := Fault C l) H (fun _ h => h) ho hb
  unfold Post at h1
  rcases hs : scan C (At l d) with ⟨e | a, s⟩
  · rw [hs] at h1; exact h1
  · rw [hs] at h1
    obtain ⟨t0, l1, d1, rfl, ho1, hl1, hr⟩ := h1
    have hlen := len_of hl1
    have h2 := ((parser_sound (E := Fault C l) H (n + 1)).2.2 l1 d1 c a t0 ho1 (by omega)
      ⟨by omega, fun _ => by omega⟩ hr (fun e he => by rw [hl1]; exact he.suffix))
    unfold PPost at h2
    simp only
    rcases hd : doParse C (n + 1) c (some a) (At l1 d1) with ⟨e | _, s, v⟩
    · rw [hd] at h2; exact h2
    · rw [hd] at h2
      obtain ⟨t1, l2, d2, rfl, ho2, hl2, g, u, hgu, hg, hv⟩ := h2
      have hlen2 := len_of hl2
      have h3 := post_scan (d := d2) (E := Fault C l) H
        (fun e he => by rw [hl1, hl2, ← List.append_assoc]; exact he.suffix) ho2 (by omega)
      unfold Post at h3
      simp only
      rcases hs2 : scan C (At l2 d2) with ⟨e | a, s⟩
      · rw [hs2] at h3; exact h3
      · rw [hs2] at h3
        obtain ⟨t2, l3, d3, rfl, ho3, hl3, hr2⟩ := h3
        simp only
        by_cases ha : a = .endOfInput
        · subst ha
          simp only [if_true]
          refine ⟨g, u, t2, l3, ?_, hg, ?_, hr2⟩
          · rw [hl1, hl2, hl3, ← hgu]; simp
          · rw [← hl3]; exact hv
        · simp only [ha, if_false]
          exact Or.inl rfl

theorem body_complete {C : Cfg CpS F} (H : Canon C) (hst : Sticky C.enc) (d : Data F) (c : Value F) {n : Nat}
    {v : Value F} (hdoc : Document C.dialect l v)
    (hb : l.length + 1 ≤ C.bound) (hn : 2 * l.length + 2 ≤ n) :
    ∃ l' d', parseBody C n c (At l d) = (.ok (), At l' d', v) ∧ (some 0 ∉ l → l' = []) := by
  obtain ⟨n, rfl⟩ : ∃ m, n = m + 1 := ⟨n - 1, by omega⟩
  obtain ⟨g, t, e, more, rfl, hg, hv, hf⟩ := hdoc
  have hl : ((g ++ t ++ e).map some ++ more).length = g.length + t.length + e.length + more.length := by
    simp; omega
  rw [hl] at hb hn
  have ho : Ok (txt e more) := by
    cases hf with
    | eof => exact Ok.nil.txt _
    | eofInLine => exact Ok.nil.txt _
    | nul => exact (Ok.cons _ _).txt _
  obtain ⟨a, l1, d1, h1, h2, h3⟩ := (parser_complete H hst (n + 1)).1 t _ v hv g (txt e more) d hg ho rfl
    (by rw [txt_length]; omega) (by omega)
  obtain ⟨d2, h4⟩ := h3 c
  obtain ⟨_, l3, d3, h5, rfl, hl3⟩ := run_scan_end (d := d2) H hf (by omega)
  have htx : (g ++ t ++ e).map some ++ more = txt g (txt t (txt e more)) := by simp [txt]
  unfold parseBody
  rw [doParse_none, htx, h1]
  simp only
  rw [h4]
  simp only
  rw [h5]
  refine ⟨_, _, rfl, fun h0 => ?_⟩
  rw [hl3]
  cases hf with
  | eof => rfl
  | eofInLine => rfl
  | nul => exact (h0 (by simp [txt])).elim

theorem document_ok {D : Dialect F} {v : Value F} (h : Document D l v) : Ok l := by
  obtain ⟨g, t, e, more, rfl, hg, hv, hf⟩ := h
  have := val_ne_nil hv
  cases g with
  | cons => exact Ok.cons _ _
  | nil =>
    cases t with
    | cons => exact Ok.cons _ _
    | nil => exact absurd rfl this

/-- What parsing delivers, without a handler. -/
theorem parseItems_sound (hA : A.Usual) (c : Value F) {n : Nat} (hn : 2 * l.length + 2 ≤ n) :
    match parseItems A n none c l with
    | (.ok _, v) => Document A.dialect l v
    | (.error e, _) => Fault (A.canon n) l e := by
  unfold parseItems
  by_cases ho : Ok l
  · have := body_sound (canon_canon hA n) (data0 A) c ho (show l.length + 1 ≤ n by omega) hn
    rw [parse_start n n none c ho]
    rcases hr : parseBody (A.canon n) n c (At l (data0 A)) with ⟨e | _, s, v⟩
    · rw [hr] at this
      cases e <;> exact this
    · rw [hr] at this
      exact this
  · have := parse_bad (A := A) (l := l) n n none c ho
    rcases hr : parse (A.canon n) n none c (Lex.init ⟨l, false, false⟩ (A.fo.ofInt 0)) with ⟨e, s, v⟩
    rw [hr] at this
    simp only at this
    obtain ⟨rfl, rfl⟩ := this
    exact Or.inl rfl

theorem parseItems_complete (hA : A.Usual) (h : Option Handler) (c : Value F) {n : Nat} {v : Value F}
    (hdoc : Document A.dialect l v) (hn : 2 * l.length + 2 ≤ n) : parseItems A n h c l = (.ok (), v) := by
  unfold parseItems
  rw [parse_start n n h c (document_ok hdoc)]
  obtain ⟨_, _, hs, _⟩ := body_complete (canon_canon hA n) (A.te.sticky A.tw) (data0 A) c hdoc
    (show l.length + 1 ≤ n by omega) hn
  rw [hs]
  rfl

/-- What a handler makes of the result of a call without handler. -/
def withHandler (h : Option Handler) (ok : Bool) (r : Outcome F) : Outcome F :=
  match r, h with
  | (.error (.exn e), v), some h => if ok && h.swallows e then (.ok (), v) else (.error (.exn e), v)
  | r, _ => r

theorem parseItems_handler (n : Nat) (h : Option Handler) (c : Value F) (l : List (Option Nat)) :
    parseItems A n h c l = withHandler h (l.head? != some none) (parseItems A n none c l) := by
  unfold parseItems
  by_cases ho : Ok l
  · rw [parse_start n n h c ho, parse_start n n none c ho]
    have hb : (l.head? != some none) = true := by simpa [Ok] using ho
    rw [hb]
    rcases hr : parseBody (A.canon n) n c (At l (data0 A)) with ⟨e | _, s, v⟩
    · cases h with
      | none => cases e <;> rfl
      | some h =>
        cases e with
        | exn e =>
          simp only [handled, withHandler, Bool.true_and]
          split <;> rfl
        | abort => rfl
        | ub => rfl
        | fuel => rfl
    · cases h <;> rfl
  · have hb : (l.head? != some none) = false := by simpa [Ok] using ho
    have h1 := parse_bad (A := A) (l := l) n n h c ho
    have h2 := parse_bad (A := A) (l := l) n n none c ho
    simp only [h1.1, h1.2, h2.1, h2.2, hb, withHandler, Bool.false_and]
    cases h <;> rfl

theorem parseItems_nofuel (hA : A.Usual) (h : Option Handler) (c : Value F) {n : Nat} (hn : 2 * l.length + 2 ≤ n) :
    (parseItems A n h c l).1 ≠ .error .fuel := by
  have h1 := parseItems_sound hA c hn
  rw [parseItems_handler]
  rcases hr : parseItems A n none c l with ⟨e | _, v⟩
  · rw [hr] at h1
    cases e with
    | exn e =>
      cases h with
      | none => simp [withHandler]
      | some h => simp only [withHandler]; split <;> simp
    | abort => simp [withHandler]
    | ub => simp [withHandler]
    | fuel => simp [Fault] at h1
  · cases h <;> simp [withHandler]

/-- Parsing a string is parsing its code points, with any sufficient bound. -/
theorem parseFrom_string (hA : A.Usual) (h : Option Handler) (c : Value F) (str : List Nat) {n m : Nat}
    (hn : 2 * (itemsOf A.se A.sw str).length + 2 ≤ n) (hm : 2 * (itemsOf A.se A.sw str).length + 2 ≤ m) :
    parseFrom A (strSBuf A.sw) m h c (.ofString str) = parseItems A n h c (itemsOf A.se A.sw str) := by
  have h1 := parseItems_nofuel hA h c (Nat.le_refl (2 * (itemsOf A.se A.sw str).length + 2))
  rw [parseString_items hm h c h1, ← parseItems_mono hn h c h1]

theorem jsonParse_items (hA : A.Usual) (h : Option Handler) (c : Value F) (str : List Nat) :
    jsonParse A h c str = parseItems A (2 * str.length + 4) h c (itemsOf A.se A.sw str) := by
  have := itemsOf_length A.se A.sw str
  exact parseFrom_string hA h c str (by omega) (by omega)

/-! ## What the decoder delivers -/

theorem delivers_unique {σ : Type} {dec : IStream σ → Decoded σ} {s : IStream σ} {a b : List (Option Nat)}
    (ha : Delivers dec s a) (hb : Delivers dec s b) : a = b := by
  induction ha generalizing b with
  | done h =>
    cases hb with
    | done => rfl
    | bad h' => rw [h] at h'; cases h'
    | more h' _ _ => rw [h'] at h; cases h
  | bad h hg =>
    cases hb with
    | done h' => rw [h] at h'; cases h'
    | bad => rfl
    | more h' hg' _ => rw [h'] at hg; simp only at hg; rw [hg] at hg'; cases hg'
  | more h hg _ ih =>
    cases hb with
    | done h' => rw [h] at h'; cases h'
    | bad h' hg' => rw [h] at hg'; simp only at hg'; rw [hg] at hg'; cases hg'
    | more h' _ hr =>
      rw [h] at h'
      simp only [Prod.mk.injEq, true_and] at h'
      obtain ⟨rfl, rfl⟩ := h'
      rw [ih hr]

theorem items_delivers {σ : Type} {B : SBuf σ} {R : σ → List Int → Prop} (e : Enc) (w : Nat) (V : View B R)
    {b : σ} {u : List Int} (hb : R b u) : Delivers (e.decode w B) (.ofBuf b) (items (e.step w) u) := by
  have F := e.follows w V
  have hs := e.shrinks w
  generalize hn : u.length = n
  induction n using Nat.strongRecOn generalizing u b with
  | ind n ih =>
    subst hn
    cases hst : e.step w u with
    | none =>
      have : u = [] := by
        cases u with
        | nil => rfl
        | cons u us => exact absurd hst (F.stepcons u us)
      subst this
      rw [items_nil F.stepnil]
      exact .done (F.nil hb).1
    | some p =>
      obtain ⟨o, r⟩ := p
      cases o with
      | none =>
        rw [items_bad F.stepnil hst]
        exact .bad (F.bad hb hst).1 (F.bad hb hst).2
      | some cp =>
        rw [items_cons hs F.stepnil hst]
        obtain ⟨s', h1, h2⟩ := F.good hb hst
        exact .more h1 rfl (ih _ (hs _ _ _ hst) h2 rfl)

theorem str_view_start (w : Nat) (str : List Nat) : ∃ R, ∃ _ : View (strSBuf w) R, R (.ofString str) (unitsOf w str) := by
  refine ⟨_, strView w, ?_⟩
  refine ⟨?_, (str.map (toIntType w)).dropWhile (· ≠ -1), ?_, ?_⟩
  · unfold unitsOf
    rw [List.all_takeWhile]
  · simp [StrBuf.ofString, unitsOf, List.takeWhile_append_dropWhile]
  · cases hd : (str.map (toIntType w)).dropWhile (· ≠ -1) with
    | nil => exact Or.inl rfl
    | cons a as =>
      right
      have := List.head_dropWhile_not (fun x : Int => decide (x ≠ -1)) (l := str.map (toIntType w)) (by rw [hd]; simp)
      simp only [hd, List.head_cons] at this
      simpa using this

theorem itemsOf_delivers (e : Enc) (w : Nat) (str : List Nat) :
    Delivers (e.decode w (strSBuf w)) (onString str) (itemsOf e w str) := by
  obtain ⟨R, V, h⟩ := str_view_start w str
  exact items_delivers e w V h

theorem delivers_iff (e : Enc) (w : Nat) (str : List Nat) (l : List (Option Nat)) :
    Delivers (e.decode w (strSBuf w)) (onString str) l ↔ l = itemsOf e w str :=
  ⟨fun h => delivers_unique h (itemsOf_delivers e w str), fun h => h ▸ itemsOf_delivers e w str⟩

theorem delivers_of_reads {σ : Type} {dec : IStream σ → Decoded σ} {s : IStream σ} {cps : List Nat}
    (h : ReadsAs dec s cps) : Delivers dec s (cps.map some) := by
  induction h with
  | done h => exact .done h
  | more h hg _ ih => exact .more h hg ih

theorem itemsOf_reads {e : Enc} {w : Nat} {str cps : List Nat}
    (h : ReadsAs (e.decode w (strSBuf w)) (onString str) cps) : itemsOf e w str = cps.map some :=
  ((delivers_iff e w str _).mp (delivers_of_reads h)).symm

end Configor
