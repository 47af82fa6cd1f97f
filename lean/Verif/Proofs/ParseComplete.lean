import Verif.Proofs.NumRun
/-! Completeness of the parser: it accepts the texts of the grammar. -/
namespace Configor
open Lexer Spec

variable {F α β : Type} {C : Cfg CpS F} {l k : List (Option Nat)} {d : Data F}

/-- The structural characters. -/
inductive Punct : Nat → Token → Prop where
  | beginArray : Punct 0x5B .beginArray
  | endArray : Punct 0x5D .endArray
  | beginObject : Punct 0x7B .beginObject
  | endObject : Punct 0x7D .endObject
  | colon : Punct 0x3A .nameSeparator
  | comma : Punct 0x2C .valueSeparator

theorem run_scan_punct (H : Canon C) {ch : Nat} {tok : Token} (hp : Punct ch tok) {g : List Nat} (hg : Gap g) (ho : Ok k)
    (hb : g.length + k.length + 2 ≤ C.bound) :
    Runs (scan C) (txt g (some ch :: k)) d fun a l' d' => a = tok ∧ l' = k ∧ d' = d := by
  have hsg : Runs (single C tok) (some ch :: k) d fun a l' d' => a = tok ∧ l' = k ∧ d' = d := by
    unfold single
    exact .bind (.next H ho (.pure ⟨rfl, rfl, rfl⟩))
  have hbe : Behind (some ch :: k) (some ch :: k) := by
    left; cases hp <;> simp [IsBlank]
  unfold scan
  refine .bind ((run_skipSpaces H C.bound hg (.cons _ _) hbe (by omega) (by simp; omega)).imp ?_)
  rintro _ _ _ ⟨rfl, rfl⟩
  refine .bind (.eof H (.no (by simp) (.bind (.cur ?_))))
  cases hp <;> exact hsg

theorem run_scan_literal (H : Canon C) {c : Nat} {kw t : List Nat} {tok : Token}
    (hp : (c = 0x74 ∧ kw = kTrue ∧ tok = .literalTrue) ∨ (c = 0x66 ∧ kw = kFalse ∧ tok = .literalFalse) ∨
      (c = 0x6E ∧ kw = kNull ∧ tok = .literalNull))
    (ht : Keyword C.w kw (c :: t)) {g : List Nat} (hg : Gap g) (ho : Ok k)
    (hb : g.length + (c :: t).length + k.length + 1 ≤ C.bound) :
    Runs (scan C) (txt g (txt (c :: t) k)) d fun a l' d' => a = tok ∧ l' = k ∧ d' = d := by
  have hsg := run_scanLiteral (d := d) H (c :: t) kw tok ho ht.2
  have hbe : Behind (txt (c :: t) k) (txt (c :: t) k) := by
    left
    rcases hp with ⟨rfl, _⟩ | ⟨rfl, _⟩ | ⟨rfl, _⟩ <;> simp [IsBlank]
  unfold scan
  refine .bind ((run_skipSpaces H C.bound hg (ho.txt _) hbe (by omega) (by rw [txt_length]; omega)).imp ?_)
  rintro _ _ _ ⟨rfl, rfl⟩
  refine .bind (.eof H (.no (by simp) (.bind (.cur ?_))))
  rcases hp with ⟨rfl, rfl, rfl⟩ | ⟨rfl, rfl, rfl⟩ | ⟨rfl, rfl, rfl⟩ <;> exact hsg

theorem run_scan_string (H : Canon C) {g : List Nat} (hg : Gap g)
    (hb : g.length + k.length + 2 ≤ C.bound) :
    Runs (scan C) (txt g (some 0x22 :: k)) d fun a l' d' => a = .valueString ∧ l' = some 0x22 :: k ∧ d' = d := by
  have hbe : Behind (some 0x22 :: k) (some 0x22 :: k) := by left; simp [IsBlank]
  unfold scan
  refine .bind ((run_skipSpaces H C.bound hg (.cons _ _) hbe (by omega) (by simp; omega)).imp ?_)
  rintro _ _ _ ⟨rfl, rfl⟩
  refine .bind (.eof H (.no (by simp) (.bind (.cur ?_))))
  exact .pure ⟨rfl, rfl, rfl⟩

theorem run_scan_number (H : Canon C) {t : List Nat} {v : Value F} (ht : Number C.dialect t (look k) v)
    {g : List Nat} (hg : Gap g) (ho : Ok k) (hb : g.length + t.length + k.length + 1 ≤ C.bound) :
    Runs (scan C) (txt g (txt t k)) d fun a l' d' => l' = k ∧ NumVal C a d' v := by
  have hsg := run_scanNumber (d := d) H ht ho (by omega)
  obtain ⟨c, t, rfl, hc⟩ : ∃ c t', t = c :: t' ∧ ((c = 0x2D ∨ c = 0x2B) ∨ (0x30 ≤ c ∧ c ≤ 0x39)) := by
    generalize look k = nx at ht
    cases ht with
    | plain h1 h2 => exact ⟨_, _, rfl, Or.inr ⟨h1, h2⟩⟩
    | signed h => exact ⟨_, _, rfl, Or.inl h.symm⟩
  have hbe : Behind (txt (c :: t) k) (txt (c :: t) k) := by
    left; simp [IsBlank]; omega
  unfold scan
  refine .bind ((run_skipSpaces H C.bound hg (ho.txt _) hbe (by omega) (by rw [txt_length]; omega)).imp ?_)
  rintro _ _ _ ⟨rfl, rfl⟩
  refine .bind (.eof H (.no (by simp) (.bind (.cur ?_))))
  refine .no (by simp; omega) (.no (by simp; omega) (.no (by simp; omega) (.no (by simp; omega) (.no (by simp; omega)
    (.no (by simp; omega) (.no (by simp; omega) (.no (by simp; omega) (.no (by simp; omega) (.no (by simp; omega)
    (.yes (by simp; exact hc.imp id fun h => ⟨decide_eq_true h.1, decide_eq_true h.2⟩) hsg))))))))))

theorem run_scan_end (H : Canon C) {e : List Nat} (he : Finish e k) (hb : e.length + k.length + 1 ≤ C.bound) :
    Runs (scan C) (txt e k) d fun a l _ => a = .endOfInput ∧ l = k := by
  unfold scan
  cases he with
  | eof hg =>
    refine .bind ((run_skipSpaces H C.bound hg Ok.nil (Or.inl ⟨by simp [hd, IsBlank], by simp [hd], rfl⟩) (by omega) (by simpa using hb)).imp ?_)
    rintro _ _ _ ⟨rfl, rfl⟩
    exact .bind (.eof H (.yes (by simp) (.pure ⟨rfl, rfl⟩)))
  | @eofInLine g t hg ht =>
    rw [txt_append]
    simp at hb
    refine .bind ((run_skipSpaces H C.bound hg (Ok.nil.txt _) (Or.inr ⟨t, ht, rfl, rfl⟩) (by omega) (by rw [txt_length]; simp; omega)).imp ?_)
    rintro _ _ _ ⟨rfl, rfl⟩
    exact .bind (.eof H (.yes (by simp) (.pure ⟨rfl, rfl⟩)))
  | @nul g more hg =>
    refine .bind ((run_skipSpaces H C.bound hg (.cons _ _) (Or.inl ⟨by simp [hd, IsBlank], by simp [hd], rfl⟩) (by omega) (by omega)).imp ?_)
    rintro _ _ _ ⟨rfl, rfl⟩
    exact .bind (.eof H (.no (by simp) (.bind (.cur (.pure ⟨rfl, rfl⟩)))))

theorem val_ne_nil {D : Dialect F} {t : List Nat} {nx : Option Nat} {v : Value F} (h : Val D t nx v) : t ≠ [] := by
  cases h with
  | vtrue h => rintro rfl; simp [Keyword, kTrue] at h
  | vfalse h => rintro rfl; simp [Keyword, kFalse] at h
  | vnull h => rintro rfl; simp [Keyword, kNull] at h
  | num h => cases h <;> simp
  | str h => obtain ⟨_, _, rfl, _⟩ := h; simp
  | arr => simp
  | obj => simp

theorem keyword_cons {w c : Nat} {kw t : List Nat} (h : Keyword w (c :: kw) t) : ∃ t', t = c :: t' := by
  cases t with
  | nil => simp [Keyword] at h
  | cons x t => have := h.1; simp at this; exact ⟨t, by rw [this]⟩

theorem look_txt {t : List Nat} (h : t ≠ []) : look (txt t k) = t.head? := look_append h k

theorem parser_complete (H : Canon C) (hst : Sticky C.enc) (n : Nat) :
    (∀ t nx v, Val C.dialect t nx v → ∀ g k d, Gap g → Ok k → look k = nx →
      g.length + t.length + k.length + 1 ≤ C.bound → 2 * t.length + 1 ≤ n →
      Runs (scan C) (txt g (txt t k)) d fun a l1 d1 => a.startsValue = true ∧
        ∀ c, ∃ d2, doParse C n c (some a) (At l1 d1) = (.ok (), At k d2, v)) ∧
    (∀ t ys, Elems C.dialect t ys → ∀ xs k d, Ok k → t.length + k.length + 1 ≤ C.bound → 2 * t.length + 1 ≤ n →
      ∃ d', parseArray C n xs (At (txt t k) d) = (.ok (), At k d', .arr (xs ++ ys))) ∧
    (∀ t ms', Members C.dialect t ms' → ∀ ms k d, Ok k → t.length + k.length + 1 ≤ C.bound → 2 * t.length + 1 ≤ n →
      ∃ d', parseObject C n ms (At (txt t k) d) = (.ok (), At k d', .obj (addAll ms ms'))) := by
  induction n with
  | zero => refine ⟨?_, ?_, ?_⟩ <;> intros <;> omega
  | succ n ih =>
    obtain ⟨ihV, ihE, ihM⟩ := ih
    refine ⟨?_, ?_, ?_⟩
    · intro t nx v hv g k d hg ho hlk hb hn
      cases hv with
      | vtrue h =>
        obtain ⟨t, rfl⟩ := keyword_cons h
        refine (run_scan_literal H (Or.inl ⟨rfl, rfl, rfl⟩) h hg ho hb).imp ?_
        rintro _ _ d1 ⟨rfl, rfl, rfl⟩
        exact ⟨rfl, fun c => ⟨d1, by simp only [doParse]⟩⟩
      | vfalse h =>
        obtain ⟨t, rfl⟩ := keyword_cons h
        refine (run_scan_literal H (Or.inr (Or.inl ⟨rfl, rfl, rfl⟩)) h hg ho hb).imp ?_
        rintro _ _ d1 ⟨rfl, rfl, rfl⟩
        exact ⟨rfl, fun c => ⟨d1, by simp only [doParse]⟩⟩
      | vnull h =>
        obtain ⟨t, rfl⟩ := keyword_cons h
        refine (run_scan_literal H (Or.inr (Or.inr ⟨rfl, rfl, rfl⟩)) h hg ho hb).imp ?_
        rintro _ _ d1 ⟨rfl, rfl, rfl⟩
        exact ⟨rfl, fun c => ⟨d1, by simp only [doParse]⟩⟩
      | num h =>
        subst hlk
        refine (run_scan_number H h hg ho hb).imp ?_
        rintro a _ d1 ⟨rfl, ⟨rfl, rfl⟩ | ⟨rfl, rfl⟩⟩
        · exact ⟨rfl, fun c => ⟨d1, by simp only [doParse]; rfl⟩⟩
        · exact ⟨rfl, fun c => ⟨d1, by simp only [doParse]; rfl⟩⟩
      | @str t nx s h =>
        obtain ⟨u, cps, rfl, _⟩ := id h
        refine (run_scan_string (k := txt u k) H hg (by rw [txt_length]; simp at hb; omega)).imp ?_
        rintro a _ d1 ⟨rfl, rfl, rfl⟩
        refine ⟨rfl, fun c => ?_⟩
        obtain ⟨_, _, d2, h1, rfl, h2⟩ := run_scanString (k := k) (d := d1) H hst h ho (by omega)
        refine ⟨d2, ?_⟩
        simp only [doParse]
        rw [← txt_cons, h1]
        simp only [At, h2]
      | @arr t nx xs h =>
        simp only [List.length_cons] at hb hn
        refine (run_scan_punct (k := txt t k) H .beginArray hg (ho.txt _) (by rw [txt_length]; omega)).imp ?_
        rintro a _ d1 ⟨rfl, rfl, rfl⟩
        refine ⟨rfl, fun c => ?_⟩
        obtain ⟨d2, h2⟩ := ihE t xs h [] k d1 ho (by omega) (by omega)
        exact ⟨d2, by simp only [doParse]; exact h2⟩
      | @obj t nx ms r h hr =>
        simp only [List.length_cons] at hb hn
        refine (run_scan_punct (k := txt t k) H .beginObject hg (ho.txt _) (by rw [txt_length]; omega)).imp ?_
        rintro a _ d1 ⟨rfl, rfl, rfl⟩
        refine ⟨rfl, fun c => ?_⟩
        obtain ⟨d2, h2⟩ := ihM t ms h [] k d1 ho (by omega) (by omega)
        rw [firstWins_unique hr (addAll_firstWins ms)]
        exact ⟨d2, by simp only [doParse]; exact h2⟩
    · intro t ys he xs k d ho hb hn
      rw [parseArray]
      cases he with
      | @close g hg =>
        simp only [List.length_append, List.length_cons, List.length_nil] at hb hn
        rw [txt_append, txt_cons, txt_nil]
        obtain ⟨_, _, d1, h1, rfl, rfl, rfl⟩ := run_scan_punct (k := k) (d := d) H .endArray hg ho (by omega)
        rw [h1]
        exact ⟨d1, by simp [Token.startsValue]⟩
      | @last g t v g' hg hv hg' =>
        simp only [List.length_append, List.length_cons, List.length_nil] at hb hn
        simp only [txt_append]
        obtain ⟨a, l1, d1, h1, h2, h3⟩ := ihV t _ v hv g (txt (g' ++ [0x5D]) k) d hg (Ok.txt _ ho)
          (look_txt (by simp)) (by rw [txt_length]; simp; omega) (by omega)
        rw [txt_append] at h1 h3
        obtain ⟨d2, h4⟩ := h3 .null
        obtain ⟨_, _, d3, h5, rfl, rfl, rfl⟩ := run_scan_punct (k := k) (d := d2) H .endArray hg' ho (by omega)
        rw [h1]
        simp only [h2, if_true]
        rw [h4]
        simp only [txt_cons, txt_nil]
        rw [h5]
        exact ⟨d3, by simp⟩
      | @more g t v g' u xs' hg hv hg' hu =>
        simp only [List.length_append, List.length_cons] at hb hn
        simp only [txt_append]
        obtain ⟨a, l1, d1, h1, h2, h3⟩ := ihV t _ v hv g (txt (g' ++ [0x2C]) (txt u k)) d hg (Ok.txt _ (ho.txt _))
          (look_txt (by simp)) (by rw [txt_length, txt_length]; simp; omega) (by omega)
        rw [txt_append] at h1 h3
        obtain ⟨d2, h4⟩ := h3 .null
        obtain ⟨_, _, d3, h5, rfl, rfl, rfl⟩ := run_scan_punct (k := txt u k) (d := d2) H .comma hg' (ho.txt _) (by rw [txt_length]; omega)
        obtain ⟨d4, h6⟩ := ihE u xs' hu (xs ++ [v]) k d3 ho (by omega) (by omega)
        simp only [txt_cons, txt_nil] at h1 h4 ⊢
        rw [h1]
        simp only [h2, if_true]
        rw [h4]
        simp only
        rw [h5]
        simp only [if_true]
        exact ⟨d4, by rw [h6]; simp⟩
    · intro t ms' he ms k d ho hb hn
      rw [parseObject]
      cases he with
      | @close g hg =>
        simp only [List.length_append, List.length_cons, List.length_nil] at hb hn
        rw [txt_append, txt_cons, txt_nil]
        obtain ⟨_, _, d1, h1, rfl, rfl, rfl⟩ := run_scan_punct (k := k) (d := d) H .endObject hg ho (by omega)
        rw [h1]
        exact ⟨d1, by simp [addAll]⟩
      | @keyOnly g key s g' hg hkey hg' =>
        obtain ⟨u, cps, rfl, _⟩ := id hkey
        simp only [List.length_append, List.length_cons, List.length_nil] at hb hn
        simp only [txt_append]
        obtain ⟨_, _, d1, h1, rfl, rfl, rfl⟩ := run_scan_string (k := txt u (txt g' (txt [0x7D] k))) (d := d) H hg
          (by simp only [txt_length]; simp; omega)
        obtain ⟨_, _, d2, h2, rfl, h3⟩ := run_scanString (k := txt g' (txt [0x7D] k)) (d := d1) H hst hkey
          (Ok.txt _ (ho.txt _)) (by simp; omega)
        obtain ⟨_, _, d3, h4, rfl, rfl, rfl⟩ := run_scan_punct (k := k) (d := d2) H .endObject hg' ho (by omega)
        simp only [txt_cons, txt_nil] at h1 h2 ⊢
        rw [h1]
        simp only [if_true]
        rw [h2]
        simp only
        rw [h4]
        exact ⟨d3, by simp [addAll]⟩
      | @last g key s g1 g2 t v g' hg hkey hg1 hg2 hv hg' =>
        obtain ⟨u, cps, rfl, _⟩ := id hkey
        have hlen : (g ++ 0x22 :: u ++ g1 ++ 0x3A :: g2 ++ t ++ g' ++ [0x7D]).length =
            g.length + u.length + g1.length + g2.length + t.length + g'.length + 3 := by simp; omega
        rw [hlen] at hb hn
        have htx : txt (g ++ 0x22 :: u ++ g1 ++ 0x3A :: g2 ++ t ++ g' ++ [0x7D]) k =
            txt g (some 0x22 :: txt u (txt g1 (some 0x3A :: txt g2 (txt t (txt g' (some 0x7D :: k)))))) := by
          simp
        rw [htx]
        have hq : Ok (some 0x7D :: k) := .cons _ _
        obtain ⟨_, _, d1, h1, rfl, rfl, rfl⟩ := run_scan_string (d := d)
          (k := txt u (txt g1 (some 0x3A :: txt g2 (txt t (txt g' (some 0x7D :: k)))))) H hg
          (by simp only [txt_length, List.length_cons]; omega)
        obtain ⟨_, _, d2, h2, rfl, h3⟩ := run_scanString (d := d1)
          (k := txt g1 (some 0x3A :: txt g2 (txt t (txt g' (some 0x7D :: k))))) H hst hkey
          (Ok.txt _ (.cons _ _)) (by simp; omega)
        obtain ⟨_, _, d3, h4, rfl, rfl, rfl⟩ := run_scan_punct (d := d2) (k := txt g2 (txt t (txt g' (some 0x7D :: k)))) H .colon hg1
          (((hq.txt _).txt _).txt _) (by simp only [txt_length, List.length_cons]; omega)
        obtain ⟨a, l1, d4, h5, h6, h7⟩ := ihV t _ v hv g2 (txt g' (some 0x7D :: k)) d3 hg2 (hq.txt _)
          (by rw [show txt g' (some 0x7D :: k) = txt (g' ++ [0x7D]) k by simp]; exact look_txt (by simp)) (by simp only [txt_length, List.length_cons]; omega) (by omega)
        obtain ⟨d5, h8⟩ := h7 .null
        obtain ⟨_, _, d6, h9, rfl, rfl, rfl⟩ := run_scan_punct (k := k) (d := d5) H .endObject hg' ho (by omega)
        rw [txt_cons] at h2
        cases n with
        | zero => omega
        | succ n =>
        rw [h1]
        simp only [if_true]
        rw [h2]
        simp only
        rw [h4]
        simp only [if_true]
        rw [doParse_none, h5]
        simp only
        rw [h8]
        simp only
        rw [h9]
        refine ⟨d6, ?_⟩
        simp [addAll, At, h3]
      | @more g key s g1 g2 t v g' w ms' hg hkey hg1 hg2 hv hg' hw =>
        obtain ⟨u, cps, rfl, _⟩ := id hkey
        have hlen : (g ++ 0x22 :: u ++ g1 ++ 0x3A :: g2 ++ t ++ g' ++ 0x2C :: w).length =
            g.length + u.length + g1.length + g2.length + t.length + g'.length + w.length + 3 := by simp; omega
        rw [hlen] at hb hn
        have htx : txt (g ++ 0x22 :: u ++ g1 ++ 0x3A :: g2 ++ t ++ g' ++ 0x2C :: w) k =
            txt g (some 0x22 :: txt u (txt g1 (some 0x3A :: txt g2 (txt t (txt g' (some 0x2C :: txt w k)))))) := by
          simp
        rw [htx]
        have hq : Ok (some 0x2C :: txt w k) := .cons _ _
        obtain ⟨_, _, d1, h1, rfl, rfl, rfl⟩ := run_scan_string (d := d)
          (k := txt u (txt g1 (some 0x3A :: txt g2 (txt t (txt g' (some 0x2C :: txt w k)))))) H hg
          (by simp only [txt_length, List.length_cons]; omega)
        obtain ⟨_, _, d2, h2, rfl, h3⟩ := run_scanString (d := d1)
          (k := txt g1 (some 0x3A :: txt g2 (txt t (txt g' (some 0x2C :: txt w k))))) H hst hkey
          (Ok.txt _ (.cons _ _)) (by simp; omega)
        obtain ⟨_, _, d3, h4, rfl, rfl, rfl⟩ := run_scan_punct (d := d2) (k := txt g2 (txt t (txt g' (some 0x2C :: txt w k)))) H .colon hg1
          (((hq.txt _).txt _).txt _) (by simp only [txt_length, List.length_cons]; omega)
        obtain ⟨a, l1, d4, h5, h6, h7⟩ := ihV t _ v hv g2 (txt g' (some 0x2C :: txt w k)) d3 hg2 (hq.txt _)
          (by rw [show txt g' (some 0x2C :: txt w k) = txt (g' ++ [0x2C]) (txt w k) by simp]; exact look_txt (by simp)) (by simp only [txt_length, List.length_cons]; omega) (by omega)
        obtain ⟨d5, h8⟩ := h7 .null
        obtain ⟨_, _, d6, h9, rfl, rfl, rfl⟩ := run_scan_punct (k := txt w k) (d := d5) H .comma hg' (ho.txt _) (by rw [txt_length]; omega)
        obtain ⟨d7, h10⟩ := ihM w ms' hw (Map.emplace s v ms) k d6 ho (by omega) (by omega)
        rw [txt_cons] at h2
        cases n with
        | zero => omega
        | succ n =>
        rw [h1]
        simp only [if_true]
        rw [h2]
        simp only
        rw [h4]
        simp only [if_true]
        rw [doParse_none, h5]
        simp only
        rw [h8]
        simp only
        rw [h9]
        refine ⟨d7, ?_⟩
        simp only [if_true, At, h3] at h10 ⊢
        rw [h10]
        rfl

end Configor
