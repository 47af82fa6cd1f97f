import Verif.Proofs.Leftover
/-! What a failed parse leaves in its argument: the parser. -/
namespace Configor
open Lexer Spec

variable {F : Type} {C : Cfg CpS F} {l k : List (Option Nat)} {d : Data F}

/-! ## Tokens -/

theorem map_txt (t : List Nat) (k : List (Option Nat)) : t.map some ++ k = txt t k := rfl

theorem begins_scan (H : Canon C) (h : BeginsValue C.dialect l) (hb : l.length + 1 ≤ C.bound) (d : Data F) :
    ∃ a l1 d1, scan C (At l d) = (.ok a, At l1 d1) ∧ a.startsValue = true := by
  obtain ⟨g, t, k, hg, rfl, h⟩ := h
  rw [map_txt, txt_append, txt_length, txt_length] at hb
  rw [map_txt, txt_append]
  rcases h with rfl | ⟨ho, h⟩
  · obtain ⟨a, l1, d1, h1, rfl, _⟩ := run_scan_string (k := k) (d := d) H hg (by simp at hb; omega)
    exact ⟨_, _, _, h1, rfl⟩
  rw [readable_iff] at ho
  rcases h with rfl | rfl | h | h | h | ⟨v, h⟩
  · obtain ⟨a, l1, d1, h1, rfl, _⟩ := run_scan_punct (k := k) (d := d) H .beginArray hg ho (by simp at hb; omega)
    exact ⟨_, _, _, h1, rfl⟩
  · obtain ⟨a, l1, d1, h1, rfl, _⟩ := run_scan_punct (k := k) (d := d) H .beginObject hg ho (by simp at hb; omega)
    exact ⟨_, _, _, h1, rfl⟩
  · obtain ⟨t, rfl⟩ := keyword_cons h
    obtain ⟨a, l1, d1, h1, rfl, _⟩ := run_scan_literal (k := k) (d := d) H (Or.inl ⟨rfl, rfl, rfl⟩) h hg ho (by omega)
    exact ⟨_, _, _, h1, rfl⟩
  · obtain ⟨t, rfl⟩ := keyword_cons h
    obtain ⟨a, l1, d1, h1, rfl, _⟩ := run_scan_literal (k := k) (d := d) H (Or.inr (Or.inl ⟨rfl, rfl, rfl⟩)) h hg ho (by omega)
    exact ⟨_, _, _, h1, rfl⟩
  · obtain ⟨t, rfl⟩ := keyword_cons h
    obtain ⟨a, l1, d1, h1, rfl, _⟩ := run_scan_literal (k := k) (d := d) H (Or.inr (Or.inr ⟨rfl, rfl, rfl⟩)) h hg ho (by omega)
    exact ⟨_, _, _, h1, rfl⟩
  · obtain ⟨a, l1, d1, h1, rfl, h2 | h2⟩ := run_scan_number (k := k) (d := d) H h hg ho (by omega)
    · exact ⟨_, _, _, h1, by rw [h2.1]; rfl⟩
    · exact ⟨_, _, _, h1, by rw [h2.1]; rfl⟩

theorem begins_pos {D : Dialect F} (h : BeginsValue D l) : 1 ≤ l.length := by
  obtain ⟨g, t, k, hg, rfl, h⟩ := h
  have : t ≠ [] := by
    rintro rfl
    rcases h with h | ⟨_, h | h | h | h | h | ⟨v, h⟩⟩
    · cases h
    · cases h
    · cases h
    · simp [Keyword, kTrue] at h
    · simp [Keyword, kFalse] at h
    · simp [Keyword, kNull] at h
    · cases h
  have := List.length_pos_iff.mpr this
  simp
  omega

/-- What a successful scan tells. -/
theorem scan_res (H : Canon C) (ho : Ok l) (hb : l.length + 1 ≤ C.bound) {a : Token} {s : Lex CpS F}
    (h : scan C (At l d) = (.ok a, s)) :
    ∃ t l1 d1, s = At l1 d1 ∧ Ok l1 ∧ l = txt t l1 ∧ ScanRes C a t l1 d1 := by
  have := post_scan (d := d) (E := fun _ => True) H (fun _ _ => trivial) ho hb
  unfold Post at this
  rw [h] at this
  exact this

theorem scan_begins (H : Canon C) (ho : Ok l) (hb : l.length + 1 ≤ C.bound) {a : Token} {s : Lex CpS F}
    (h : scan C (At l d) = (.ok a, s)) (ha : a.startsValue = true) : BeginsValue C.dialect l := by
  obtain ⟨t, l1, d1, rfl, ho1, rfl, hr⟩ := scan_res H ho hb h
  cases a <;> simp only [Token.startsValue, Bool.false_eq_true] at ha
  case literalTrue =>
    obtain ⟨g, k, hg, rfl, hk⟩ := hr
    exact ⟨g, k, l1, hg, rfl, Or.inr ⟨ho1, Or.inr (Or.inr (Or.inl hk))⟩⟩
  case literalFalse =>
    obtain ⟨g, k, hg, rfl, hk⟩ := hr
    exact ⟨g, k, l1, hg, rfl, Or.inr ⟨ho1, Or.inr (Or.inr (Or.inr (Or.inl hk)))⟩⟩
  case literalNull =>
    obtain ⟨g, k, hg, rfl, hk⟩ := hr
    exact ⟨g, k, l1, hg, rfl, Or.inr ⟨ho1, Or.inr (Or.inr (Or.inr (Or.inr (Or.inl hk))))⟩⟩
  case valueString =>
    obtain ⟨r, hr'⟩ := cons_of_hd (l := l1) (by rw [hr.2]; decide)
    rw [hr.2] at hr'
    exact ⟨t, [0x22], r, hr.1, by rw [hr', map_txt, txt_append]; rfl, Or.inl rfl⟩
  case valueInteger =>
    obtain ⟨g, k, hg, rfl, hk⟩ := hr
    exact ⟨g, k, l1, hg, rfl, Or.inr ⟨ho1, Or.inr (Or.inr (Or.inr (Or.inr (Or.inr ⟨_, hk⟩))))⟩⟩
  case valueFloat =>
    obtain ⟨g, k, hg, rfl, hk⟩ := hr
    exact ⟨g, k, l1, hg, rfl, Or.inr ⟨ho1, Or.inr (Or.inr (Or.inr (Or.inr (Or.inr ⟨_, hk⟩))))⟩⟩
  case beginArray =>
    obtain ⟨g, hg, rfl⟩ := hr
    exact ⟨g, _, l1, hg, rfl, Or.inr ⟨ho1, Or.inl rfl⟩⟩
  case beginObject =>
    obtain ⟨g, hg, rfl⟩ := hr
    exact ⟨g, _, l1, hg, rfl, Or.inr ⟨ho1, Or.inr (Or.inl rfl)⟩⟩

theorem next_scan (H : Canon C) {ch : Nat} {tok : Token} (hp : Punct ch tok) (h : Next ch l k)
    (hb : l.length + 1 ≤ C.bound) (d : Data F) : scan C (At l d) = (.ok tok, At k d) := by
  obtain ⟨g, hg, rfl, ho⟩ := h
  rw [map_txt, txt_append, txt_length, txt_length] at hb
  simp at hb
  obtain ⟨_, _, _, h1, rfl, rfl, rfl⟩ := run_scan_punct (k := k) (d := d) H hp hg ho (by omega)
  rw [map_txt, txt_append]
  exact h1

theorem scan_next (H : Canon C) {ch : Nat} {tok : Token} (hp : Punct ch tok) (ho : Ok l)
    (hb : l.length + 1 ≤ C.bound) {s : Lex CpS F}
    (h : scan C (At l d) = (.ok tok, s)) : ∃ k d', s = At k d' ∧ Next ch l k := by
  obtain ⟨t, l1, d1, rfl, ho1, rfl, hr⟩ := scan_res H ho hb h
  cases hp <;> obtain ⟨g, hg, rfl⟩ := hr <;> exact ⟨l1, d1, rfl, g, hg, rfl, ho1⟩

theorem _root_.Spec.Next.length {ch : Nat} (h : Next ch l k) : k.length + 1 ≤ l.length := by
  obtain ⟨g, _, rfl, _⟩ := h
  simp

theorem _root_.Spec.Next.ok {ch : Nat} (h : Next ch l k) : Ok k := by
  obtain ⟨g, _, _, h⟩ := h
  exact h

theorem _root_.Spec.Complete.length {D : Dialect F} {v : Value F} (h : Complete D l v k) : k.length + 1 ≤ l.length := by
  obtain ⟨g, t, _, rfl, _, hv⟩ := h
  have := List.length_pos_iff.mpr (val_ne_nil hv)
  simp
  omega

theorem _root_.Spec.Complete.ok {D : Dialect F} {v : Value F} (h : Complete D l v k) : Ok k := by
  obtain ⟨g, t, _, _, h, _⟩ := h
  exact h

theorem _root_.Spec.Key.length {D : Dialect F} {s : List Nat} (h : Key D l s k) : k.length + 1 ≤ l.length := by
  obtain ⟨g, t, _, rfl, _, u, _, rfl, _⟩ := h
  simp
  omega

theorem _root_.Spec.Key.ok {D : Dialect F} {s : List Nat} (h : Key D l s k) : Ok k := by
  obtain ⟨g, t, _, _, h, _⟩ := h
  exact h

theorem complete_parse (H : Canon C) (hst : Sticky C.enc) {v : Value F} (h : Complete C.dialect l v k)
    (hb : l.length + 1 ≤ C.bound) {n : Nat} (hn : 2 * l.length + 1 ≤ n + 2 * k.length) (d : Data F) :
    ∃ a l1 d1, scan C (At l d) = (.ok a, At l1 d1) ∧ a.startsValue = true ∧
      ∀ c, ∃ d2, doParse C n c (some a) (At l1 d1) = (.ok (), At k d2, v) := by
  obtain ⟨g, t, hg, rfl, ho, hv⟩ := h
  rw [map_txt, txt_append, txt_length, txt_length] at hb hn
  rw [map_txt, txt_append]
  obtain ⟨a, l1, d1, h1, h2, h3⟩ := (parser_complete H hst n).1 t _ v hv g k d hg ho rfl (by omega) (by omega)
  exact ⟨a, l1, d1, h1, h2, h3⟩

theorem parse_complete (H : Canon C) (ho : Ok l) (hb : l.length + 1 ≤ C.bound) {a : Token} {l1 : List (Option Nat)}
    {d1 : Data F} (h : scan C (At l d) = (.ok a, At l1 d1)) {n : Nat} (hn1 : 1 ≤ n) (hn : 2 * l.length ≤ n) {c v : Value F}
    {s : Lex CpS F} (hp : doParse C n c (some a) (At l1 d1) = (.ok (), s, v)) :
    ∃ k d2, s = At k d2 ∧ Complete C.dialect l v k := by
  obtain ⟨t, l1', d1', he, ho1, rfl, hr⟩ := scan_res H ho hb h
  rw [he] at hp
  rw [txt_length] at hb hn
  have hpos : a = .beginArray ∨ a = .beginObject → 1 ≤ t.length := by
    rintro (rfl | rfl) <;> obtain ⟨g, _, rfl⟩ := hr <;> simp
  have := (parser_sound (E := fun _ => True) H n).2.2 l1' d1' c a t ho1 (by omega)
    ⟨by omega, fun h => by have := hpos h; omega⟩ hr (fun _ _ => trivial)
  unfold PPost at this
  rw [hp] at this
  obtain ⟨t', k, d2, rfl, ho2, rfl, g, u, h1, h2, h3⟩ := this
  refine ⟨k, d2, rfl, g, u, h2, ?_, ho2, h3⟩
  rw [← h1]
  simp [txt]

theorem key_scan (H : Canon C) (hst : Sticky C.enc) {s : List Nat} (h : Key C.dialect l s k)
    (hb : l.length + 1 ≤ C.bound) (d : Data F) :
    ∃ l1 d1 d2, scan C (At l d) = (.ok .valueString, At l1 d1) ∧ scanString C (At l1 d1) = (.ok (), At k d2) ∧
      d2.out.out = s := by
  obtain ⟨g, t, hg, rfl, ho, ht⟩ := h
  obtain ⟨u, cps, rfl, _⟩ := id ht
  rw [map_txt, txt_append, txt_length, txt_length] at hb
  rw [map_txt, txt_append]
  simp at hb
  obtain ⟨_, _, d1, h1, rfl, rfl, rfl⟩ := run_scan_string (k := txt u k) (d := d) H hg (by rw [txt_length]; omega)
  obtain ⟨_, _, d2, h2, rfl, h3⟩ := run_scanString (k := k) (d := d1) H hst ht ho (by simp; omega)
  exact ⟨_, d1, d2, h1, h2, h3⟩

theorem scan_key (H : Canon C) (ho : Ok l) (hb : l.length + 1 ≤ C.bound) {s1 s2 : Lex CpS F}
    (h : scan C (At l d) = (.ok .valueString, s1)) (h2 : scanString C s1 = (.ok (), s2)) :
    ∃ k d2, s2 = At k d2 ∧ Key C.dialect l d2.out.out k := by
  obtain ⟨t, l1, d1, rfl, ho1, rfl, hr⟩ := scan_res H ho hb h
  rw [txt_length] at hb
  have := post_scanString (d := d1) (E := fun _ => True) H trivial ho1 (by omega) hr.2
  unfold Post at this
  rw [h2] at this
  obtain ⟨t2, k, d2, rfl, ho2, rfl, hlit⟩ := this
  exact ⟨k, d2, rfl, t, t2, hr.1, by simp [txt], ho2, hlit⟩

/-! ## The parser -/

theorem cut_sound (H : Canon C) (hst : Sticky C.enc) (hat : Atomic C.enc) (n : Nat) :
    (∀ l d xs e s w, Ok l → l.length + 1 ≤ C.bound → 2 * l.length + 1 ≤ n →
      parseArray C n xs (At l d) = (.error e, s, w) → ∃ ys, w = .arr (xs ++ ys) ∧ ElemsCut C.dialect l ys) ∧
    (∀ l d ms e s w, Ok l → l.length + 1 ≤ C.bound → 2 * l.length + 1 ≤ n →
      parseObject C n ms (At l d) = (.error e, s, w) →
        ∃ ms', w = .obj (addAll ms ms') ∧ MembersCut C.dialect l ms') ∧
    (∀ l d a l1 d1 c e s w, Ok l → l.length + 1 ≤ C.bound → 1 ≤ n → 2 * l.length ≤ n → scan C (At l d) = (.ok a, At l1 d1) →
      a.startsValue = true → doParse C n c (some a) (At l1 d1) = (.error e, s, w) → Cut C.dialect l w) := by
  induction n with
  | zero => refine ⟨?_, ?_, ?_⟩ <;> intros <;> omega
  | succ n ih =>
    obtain ⟨ihA, ihO, ihV⟩ := ih
    refine ⟨?_, ?_, ?_⟩
    · intro l d xs e s w ho hb hn h
      rw [parseArray] at h
      -- nothing more
      have stop : (∀ a s', scan C (At l d) = (.ok a, s') → a.startsValue = false ∧ a ≠ .endArray) → ElemsCut C.dialect l [] := by
        intro hs
        refine .none (fun hbg => ?_) (fun k hk => ?_)
        · obtain ⟨a, l1, d1, h1, h2⟩ := begins_scan H hbg hb d
          rw [(hs _ _ h1).1] at h2; cases h2
        · exact (hs _ _ (next_scan H .endArray hk hb d)).2 rfl
      rcases hs : scan C (At l d) with ⟨e1 | a, s1⟩
      · rw [hs] at h
        simp only [Prod.mk.injEq] at h
        refine ⟨[], by simp [← h.2.2], stop ?_⟩
        intro a s' h'; rw [hs] at h'; cases h'
      rw [hs] at h
      simp only at h
      obtain ⟨t, l1, d1, rfl, ho1, hl1, hr⟩ := scan_res H ho hb hs
      by_cases ha : a.startsValue = true
      · simp only [ha, if_true] at h
        have hpos := begins_pos (scan_begins H ho hb hs ha)
        rcases hp : doParse C n .null (some a) (At l1 d1) with ⟨e2 | _, s2, v⟩
        · rw [hp] at h
          simp only [Prod.mk.injEq] at h
          refine ⟨[v], by simp [← h.2.2], .cut (ihV l d a l1 d1 .null e2 s2 v ho hb (by omega) (by omega) hs ha hp)⟩
        rw [hp] at h
        simp only at h
        obtain ⟨k, d2, rfl, hc⟩ : ∃ k d2, s2 = At k d2 ∧ Complete C.dialect l v k :=
          parse_complete H ho hb hs (by omega) (by omega) hp
        have hkl := hc.length
        have last : (∀ a s', scan C (At k d2) = (.ok a, s') → a ≠ .valueSeparator ∧ a ≠ .endArray) →
            ElemsCut C.dialect l [v] := by
          intro hs
          refine .last hc (fun k' hk => ?_) (fun k' hk => ?_)
          · exact (hs _ _ (next_scan H .comma hk (by omega) d2)).1 rfl
          · exact (hs _ _ (next_scan H .endArray hk (by omega) d2)).2 rfl
        rcases hs2 : scan C (At k d2) with ⟨e3 | b, s3⟩
        · rw [hs2] at h
          simp only [Prod.mk.injEq] at h
          refine ⟨[v], by simp [← h.2.2], last ?_⟩
          intro a s' h'; rw [hs2] at h'; cases h'
        rw [hs2] at h
        simp only at h
        by_cases hb1 : b = .valueSeparator
        · subst hb1
          obtain ⟨k', d3, rfl, hk'⟩ := scan_next H .comma hc.ok (by omega) hs2
          have := hk'.length
          rw [if_pos rfl] at h
          obtain ⟨ys, h1, h2⟩ := ihA k' d3 _ e s w hk'.ok (by omega) (by omega) h
          exact ⟨v :: ys, by simp [h1], .more hc hk' h2⟩
        rw [if_neg hb1] at h
        by_cases hb2 : b = .endArray
        · rw [if_pos hb2] at h; cases h
        rw [if_neg hb2] at h
        simp only [Prod.mk.injEq] at h
        refine ⟨[v], by simp [← h.2.2], last ?_⟩
        intro a s' h'; rw [hs2] at h'; cases h'; exact ⟨hb1, hb2⟩
      · rw [if_neg ha] at h
        by_cases hb2 : a = .endArray
        · rw [if_pos hb2] at h; cases h
        rw [if_neg hb2] at h
        simp only [Prod.mk.injEq] at h
        refine ⟨[], by simp [← h.2.2], stop ?_⟩
        intro a s' h'; rw [hs] at h'; cases h'; exact ⟨by simpa using ha, hb2⟩
    · intro l d ms e s w ho hb hn h
      rw [parseObject] at h
      -- no further member
      have stop : (∀ a s', scan C (At l d) = (.ok a, s') → a ≠ .endObject ∧ (a = .valueString →
          ∀ s1, scanString C s' = (.ok (), s1) → ∀ b s2, scan C s1 = (.ok b, s2) → b ≠ .endObject ∧
            (b = .nameSeparator → ∀ c s3, scan C s2 = (.ok c, s3) →
              ∀ s4 v, doParse C n .null (some c) s3 ≠ (.ok (), s4, v)))) → MembersCut C.dialect l [] := by
        intro hs
        refine .none (fun k hk => ?_) (fun key k k' h1 h2 => ?_) (fun key k k' v k'' h1 h2 h3 => ?_)
        · exact (hs _ _ (next_scan H .endObject hk hb d)).1 rfl
        · obtain ⟨l1, d1, d2, g1, g2, _⟩ := key_scan H hst h1 hb d
          have := h1.length
          exact ((hs _ _ g1).2 rfl _ g2 _ _ (next_scan H .endObject h2 (by omega) d2)).1 rfl
        · obtain ⟨l1, d1, d2, g1, g2, _⟩ := key_scan H hst h1 hb d
          have := h1.length
          have := h2.length
          obtain ⟨a, l3, d3, g3, g4, g5⟩ := complete_parse H hst h3 (n := n) (by omega) (by omega) d2
          obtain ⟨d4, g5⟩ := g5 .null
          exact ((hs _ _ g1).2 rfl _ g2 _ _ (next_scan H .colon h2 (by omega) d2)).2 rfl _ _ g3 _ _ g5
      have out : ∀ {r : List (List Nat × Value F)}, MembersCut C.dialect l r → w = .obj (addAll ms r) →
          ∃ ms', w = .obj (addAll ms ms') ∧ MembersCut C.dialect l ms' := fun h1 h2 => ⟨_, h2, h1⟩
      rcases hs : scan C (At l d) with ⟨e1 | a, s1⟩
      · rw [hs] at h
        simp only [Prod.mk.injEq] at h
        refine out (stop ?_) h.2.2.symm
        intro a s' h'; rw [hs] at h'; cases h'
      rw [hs] at h
      simp only at h
      by_cases ha : a = .valueString
      · subst ha
        rw [if_pos rfl] at h
        rcases hk : scanString C s1 with ⟨e2 | _, s2⟩
        · rw [hk] at h
          simp only [Prod.mk.injEq] at h
          refine out (stop ?_) h.2.2.symm
          intro a s' h'; rw [hs] at h'; cases h'
          refine ⟨by simp, fun _ s' h' => ?_⟩
          rw [hk] at h'; cases h'
        rw [hk] at h
        simp only at h
        obtain ⟨k, d2, rfl, hkey⟩ := scan_key H ho hb hs hk
        have hkl := hkey.length
        rcases hs2 : scan C (At k d2) with ⟨e3 | b, s3⟩
        · rw [hs2] at h
          simp only [Prod.mk.injEq] at h
          refine out (stop ?_) h.2.2.symm
          intro a s' h'; rw [hs] at h'; cases h'
          refine ⟨by simp, fun _ s' h' => ?_⟩
          rw [hk] at h'; cases h'
          intro b s' h'; rw [hs2] at h'; cases h'
        rw [hs2] at h
        simp only at h
        by_cases hb1 : b = .nameSeparator
        · subst hb1
          rw [if_pos rfl] at h
          obtain ⟨k2, d3, rfl, hcol⟩ := scan_next H .colon hkey.ok (by omega) hs2
          have hk2 := hcol.length
          obtain ⟨n, rfl⟩ : ∃ m, n = m + 1 := ⟨n - 1, by omega⟩
          rw [doParse_none] at h
          rcases hs3 : scan C (At k2 d3) with ⟨e4 | c, s4⟩
          · rw [hs3] at h
            simp only [Prod.mk.injEq] at h
            refine out (stop ?_) h.2.2.symm
            intro a s' h'; rw [hs] at h'; cases h'
            refine ⟨by simp, fun _ s' h' => ?_⟩
            rw [hk] at h'; cases h'
            intro b s' h'; rw [hs2] at h'; cases h'
            refine ⟨by simp, fun _ c s' h' => ?_⟩
            rw [hs3] at h'; cases h'
          rw [hs3] at h
          simp only at h
          rcases hp : doParse C (n + 1) .null (some c) s4 with ⟨e5 | _, s5, v⟩
          · rw [hp] at h
            simp only [Prod.mk.injEq] at h
            refine out (stop ?_) h.2.2.symm
            intro a s' h'; rw [hs] at h'; cases h'
            refine ⟨by simp, fun _ s' h' => ?_⟩
            rw [hk] at h'; cases h'
            intro b s' h'; rw [hs2] at h'; cases h'
            refine ⟨by simp, fun _ c s' h' => ?_⟩
            rw [hs3] at h'; cases h'
            intro s' v h'; rw [hp] at h'; cases h'
          rw [hp] at h
          simp only at h
          obtain ⟨t, l4, d4, rfl, ho4, hl4, hr4⟩ := scan_res H hcol.ok (by omega) hs3
          obtain ⟨k3, d5, rfl, hc⟩ := parse_complete H hcol.ok (by omega) hs3 (by omega) (by omega) hp
          have hk3 := hc.length
          have last : (∀ a s', scan C (At k3 d5) = (.ok a, s') → a ≠ .valueSeparator ∧ a ≠ .endObject) →
              MembersCut C.dialect l [(d2.out.out, v)] := by
            intro hs
            refine .last hkey hcol hc (fun k' hk => ?_) (fun k' hk => ?_)
            · exact (hs _ _ (next_scan H .comma hk (by omega) d5)).1 rfl
            · exact (hs _ _ (next_scan H .endObject hk (by omega) d5)).2 rfl
          rcases hs4 : scan C (At k3 d5) with ⟨e6 | b, s6⟩
          · rw [hs4] at h
            simp only [Prod.mk.injEq] at h
            refine out (last ?_) h.2.2.symm
            intro a s' h'; rw [hs4] at h'; cases h'
          rw [hs4] at h
          simp only at h
          by_cases hb2 : b = .valueSeparator
          · subst hb2
            rw [if_pos rfl] at h
            obtain ⟨k', d6, rfl, hk'⟩ := scan_next H .comma hc.ok (by omega) hs4
            have := hk'.length
            obtain ⟨ms', g1, g2⟩ := ihO k' d6 _ e s w hk'.ok (by omega) (by omega) h
            exact out (.more hkey hcol hc hk' g2) g1
          rw [if_neg hb2] at h
          by_cases hb3 : b = .endObject
          · rw [if_pos hb3] at h; cases h
          rw [if_neg hb3] at h
          simp only [Prod.mk.injEq] at h
          refine out (last ?_) h.2.2.symm
          intro a s' h'; rw [hs4] at h'; cases h'; exact ⟨hb2, hb3⟩
        · rw [if_neg hb1] at h
          by_cases hb3 : b = .endObject
          · rw [if_pos hb3] at h; cases h
          rw [if_neg hb3] at h
          simp only [Prod.mk.injEq] at h
          refine out (stop ?_) h.2.2.symm
          intro a s' h'; rw [hs] at h'; cases h'
          refine ⟨by simp, fun _ s' h' => ?_⟩
          rw [hk] at h'; cases h'
          intro b s' h'; rw [hs2] at h'; cases h'
          exact ⟨hb3, fun h => absurd h hb1⟩
      · rw [if_neg ha] at h
        by_cases hb3 : a = .endObject
        · rw [if_pos hb3] at h; cases h
        rw [if_neg hb3] at h
        simp only [Prod.mk.injEq] at h
        refine out (stop ?_) h.2.2.symm
        intro a s' h'; rw [hs] at h'; cases h'
        exact ⟨hb3, fun h => absurd h ha⟩
    · intro l d a l1 d1 c e s w ho hb _ hn hs ha h
      obtain ⟨t, l1', d1', he, ho1, hl1, hr⟩ := scan_res H ho hb hs
      cases a <;> simp only [Token.startsValue, Bool.false_eq_true] at ha <;> simp only [doParse] at h
      case literalTrue => cases h
      case literalFalse => cases h
      case literalNull => cases h
      case valueInteger => cases h
      case valueFloat => cases h
      case valueString =>
        simp only [Prod.mk.injEq] at h
        obtain ⟨h1, h2, h3⟩ := h
        rw [he] at h1 h2 h3
        obtain ⟨r, hr'⟩ := cons_of_hd (l := l1') (by rw [hr.2]; decide)
        rw [hr.2] at hr'
        subst hr'
        subst hl1
        rw [txt_length] at hb
        simp only [List.length_cons] at hb
        have := (scanString_cut H hst hat r d1' s.out.out (by omega)).1
          ⟨e, s, Prod.ext h1 h2, rfl⟩
        rw [← h3, h2]
        have e2 : txt t (some 0x22 :: r) = (t ++ [0x22]).map some ++ r := by simp [txt]
        rw [e2]
        exact .str hr.1 this
      case beginArray =>
        rw [he] at h
        have hnx : Next 0x5B l l1' := by
          obtain ⟨g, hg, rfl⟩ := hr
          exact ⟨g, hg, hl1, ho1⟩
        have := hnx.length
        obtain ⟨ys, h1, h2⟩ := ihA l1' d1' [] e s w ho1 (by omega) (by omega) h
        rw [h1]
        exact .arr hnx h2
      case beginObject =>
        rw [he] at h
        have hnx : Next 0x7B l l1' := by
          obtain ⟨g, hg, rfl⟩ := hr
          exact ⟨g, hg, hl1, ho1⟩
        have := hnx.length
        obtain ⟨ys, h1, h2⟩ := ihO l1' d1' [] e s w ho1 (by omega) (by omega) h
        rw [h1]
        exact .obj hnx h2 (addAll_firstWins ys)

theorem cut_complete (H : Canon C) (hst : Sticky C.enc) (hat : Atomic C.enc) (n : Nat) :
    (∀ l ys, ElemsCut C.dialect l ys → ∀ d xs, Ok l → l.length + 1 ≤ C.bound → 2 * l.length + 2 ≤ n →
      ∃ e s, parseArray C n xs (At l d) = (.error e, s, .arr (xs ++ ys))) ∧
    (∀ l ys, MembersCut C.dialect l ys → ∀ d ms, Ok l → l.length + 1 ≤ C.bound → 2 * l.length + 2 ≤ n →
      ∃ e s, parseObject C n ms (At l d) = (.error e, s, .obj (addAll ms ys))) ∧
    (∀ l w, Cut C.dialect l w → ∀ d, l.length + 1 ≤ C.bound → 1 ≤ n → 2 * l.length + 1 ≤ n →
      ∃ a l1 d1, scan C (At l d) = (.ok a, At l1 d1) ∧ a.startsValue = true ∧
        ∀ c, ∃ e s, doParse C n c (some a) (At l1 d1) = (.error e, s, w)) := by
  induction n with
  | zero => refine ⟨?_, ?_, ?_⟩ <;> intros <;> omega
  | succ n ih =>
    obtain ⟨ihA, ihO, ihV⟩ := ih
    refine ⟨?_, ?_, ?_⟩
    · intro l ys hcut d xs ho hb hn
      rw [parseArray]
      cases hcut with
      | none h1 h2 =>
        rcases hs : scan C (At l d) with ⟨e1 | a, s1⟩
        · exact ⟨_, _, by rw [List.append_nil]⟩
        · have ha : ¬ a.startsValue = true := fun ha => h1 (scan_begins H ho hb hs ha)
          have hb2 : a ≠ .endArray := by
            rintro rfl
            obtain ⟨k, d', _, hk⟩ := scan_next H .endArray ho hb hs
            exact h2 k hk
          simp only
          rw [if_neg ha, if_neg hb2, List.append_nil]
          exact ⟨_, _, rfl⟩
      | @cut _ y h =>
        have hpos : 1 ≤ l.length := by
          cases h with
          | str => simp; omega
          | arr h => have := h.length; omega
          | obj h => have := h.length; omega
        obtain ⟨a, l1, d1, h1, h2, h3⟩ := ihV l y h d hb (by omega) (by omega)
        obtain ⟨e, s, h4⟩ := h3 .null
        rw [h1]
        simp only [h2, if_true]
        rw [h4]
        exact ⟨_, _, rfl⟩
      | @last _ v k hc h1 h2 =>
        have := hc.length
        obtain ⟨a, l1, d1, g1, g2, g3⟩ := complete_parse H hst hc (n := n) (by omega) (by omega) d
        obtain ⟨d2, g3⟩ := g3 .null
        rw [g1]
        simp only [g2, if_true]
        rw [g3]
        simp only
        rcases hs : scan C (At k d2) with ⟨e1 | a, s1⟩
        · exact ⟨_, _, rfl⟩
        · have hb1 : a ≠ .valueSeparator := by
            rintro rfl
            obtain ⟨k', d', _, hk⟩ := scan_next H .comma hc.ok (by omega) hs
            exact h1 _ hk
          have hb2 : a ≠ .endArray := by
            rintro rfl
            obtain ⟨k', d', _, hk⟩ := scan_next H .endArray hc.ok (by omega) hs
            exact h2 _ hk
          simp only
          rw [if_neg hb1, if_neg hb2]
          exact ⟨_, _, rfl⟩
      | @more _ v k k' ys hc hk hcut =>
        have := hc.length
        have := hk.length
        obtain ⟨a, l1, d1, g1, g2, g3⟩ := complete_parse H hst hc (n := n) (by omega) (by omega) d
        obtain ⟨d2, g3⟩ := g3 .null
        rw [g1]
        simp only [g2, if_true]
        rw [g3]
        simp only
        rw [next_scan H .comma hk (by omega) d2]
        simp only [if_true]
        obtain ⟨e, s, h⟩ := ihA k' ys hcut d2 (xs ++ [v]) hk.ok (by omega) (by omega)
        exact ⟨e, s, by rw [h]; simp⟩
    · intro l ys hcut d ms ho hb hn
      rw [parseObject]
      cases hcut with
      | none h1 h2 h3 =>
        rcases hs : scan C (At l d) with ⟨e1 | a, s1⟩
        · exact ⟨_, _, rfl⟩
        simp only
        have hend : a ≠ .endObject := by
          rintro rfl
          obtain ⟨k, d', _, hk⟩ := scan_next H .endObject ho hb hs
          exact h1 k hk
        by_cases ha : a = .valueString
        · subst ha
          rw [if_pos rfl]
          rcases hk : scanString C s1 with ⟨e2 | _, s2⟩
          · exact ⟨_, _, rfl⟩
          simp only
          obtain ⟨k, d2, rfl, hkey⟩ := scan_key H ho hb hs hk
          have := hkey.length
          rcases hs2 : scan C (At k d2) with ⟨e3 | b, s3⟩
          · exact ⟨_, _, rfl⟩
          simp only
          have hend : b ≠ .endObject := by
            rintro rfl
            obtain ⟨k', d', _, hk'⟩ := scan_next H .endObject hkey.ok (by omega) hs2
            exact h2 _ _ _ hkey hk'
          by_cases hb1 : b = .nameSeparator
          · subst hb1
            rw [if_pos rfl]
            obtain ⟨k2, d3, rfl, hcol⟩ := scan_next H .colon hkey.ok (by omega) hs2
            have := hcol.length
            obtain ⟨n, rfl⟩ : ∃ m, n = m + 1 := ⟨n - 1, by omega⟩
            rw [doParse_none]
            rcases hs3 : scan C (At k2 d3) with ⟨e4 | c, s4⟩
            · exact ⟨_, _, rfl⟩
            simp only
            rcases hp : doParse C (n + 1) .null (some c) s4 with ⟨e5 | _, s5, v⟩
            · exact ⟨_, _, rfl⟩
            obtain ⟨t, l4, d4, rfl, ho4, hl4, hr4⟩ := scan_res H hcol.ok (by omega) hs3
            obtain ⟨k3, d5, rfl, hc⟩ := parse_complete H hcol.ok (by omega) hs3 (by omega) (by omega) hp
            exact absurd hc (h3 _ _ _ _ _ hkey hcol)
          · rw [if_neg hb1, if_neg hend]
            exact ⟨_, _, rfl⟩
        · rw [if_neg ha, if_neg hend]
          exact ⟨_, _, rfl⟩
      | @last _ key k1 k2 v k hkey hcol hc h1 h2 =>
        have := hkey.length
        have := hcol.length
        have := hc.length
        obtain ⟨l1, d1, d2, g1, g2, g3⟩ := key_scan H hst hkey hb d
        obtain ⟨n, rfl⟩ : ∃ m, n = m + 1 := ⟨n - 1, by omega⟩
        obtain ⟨a, l3, d3, g4, g5, g6⟩ := complete_parse H hst hc (n := n + 1) (by omega) (by omega) d2
        obtain ⟨d4, g6⟩ := g6 .null
        rw [g1]
        simp only [if_true]
        rw [g2]
        simp only
        rw [next_scan H .colon hcol (by omega) d2]
        simp only [if_true]
        rw [doParse_none, g4]
        simp only
        rw [g6]
        simp only
        have hkd : (At k1 d2).out.out = key := g3
        rcases hs : scan C (At k d4) with ⟨e1 | a, s1⟩
        · exact ⟨_, _, by rw [hkd]; rfl⟩
        · have hb1 : a ≠ .valueSeparator := by
            rintro rfl
            obtain ⟨k', d', _, hk⟩ := scan_next H .comma hc.ok (by omega) hs
            exact h1 _ hk
          have hb2 : a ≠ .endObject := by
            rintro rfl
            obtain ⟨k', d', _, hk⟩ := scan_next H .endObject hc.ok (by omega) hs
            exact h2 _ hk
          simp only
          rw [if_neg hb1, if_neg hb2]
          exact ⟨_, _, by rw [hkd]; rfl⟩
      | @more _ key k1 k2 v k k' ys hkey hcol hc hk hcut =>
        have := hkey.length
        have := hcol.length
        have := hc.length
        have := hk.length
        obtain ⟨l1, d1, d2, g1, g2, g3⟩ := key_scan H hst hkey hb d
        obtain ⟨n, rfl⟩ : ∃ m, n = m + 1 := ⟨n - 1, by omega⟩
        obtain ⟨a, l3, d3, g4, g5, g6⟩ := complete_parse H hst hc (n := n + 1) (by omega) (by omega) d2
        obtain ⟨d4, g6⟩ := g6 .null
        rw [g1]
        simp only [if_true]
        rw [g2]
        simp only
        rw [next_scan H .colon hcol (by omega) d2]
        simp only [if_true]
        rw [doParse_none, g4]
        simp only
        rw [g6]
        simp only
        have hkd : (At k1 d2).out.out = key := g3
        rw [next_scan H .comma hk (by omega) d4]
        simp only [if_true]
        rw [hkd]
        obtain ⟨e, s, h⟩ := ihO k' ys hcut d4 (Map.emplace key v ms) hk.ok (by omega) (by omega)
        exact ⟨e, s, by rw [h]; rfl⟩
    · intro l w hcut d hb _ hn
      cases hcut with
      | @str g r s hg hstr =>
        have hlen : ((g ++ [0x22]).map some ++ r).length = g.length + r.length + 1 := by simp; omega
        rw [hlen] at hb
        have e2 : (g ++ [0x22]).map some ++ r = txt g (some 0x22 :: r) := by simp [txt]
        rw [e2]
        obtain ⟨_, _, d1, h1, rfl, rfl, rfl⟩ := run_scan_string (k := r) (d := d) H hg (by omega)
        refine ⟨_, _, _, h1, rfl, fun c => ?_⟩
        obtain ⟨e, s', h2, h3⟩ := (scanString_cut H hst hat r d1 s (by omega)).2 hstr
        simp only [doParse]
        rw [h2]
        exact ⟨e, s', by rw [← h3]⟩
      | @arr _ k xs hk hcut =>
        have := hk.length
        refine ⟨_, _, _, next_scan H .beginArray hk hb d, rfl, fun c => ?_⟩
        simp only [doParse]
        exact ihA k xs hcut d [] hk.ok (by omega) (by omega)
      | @obj _ k ms r hk hcut hr =>
        have := hk.length
        refine ⟨_, _, _, next_scan H .beginObject hk hb d, rfl, fun c => ?_⟩
        simp only [doParse]
        rw [firstWins_unique hr (addAll_firstWins ms)]
        exact ihO k ms hcut d [] hk.ok (by omega) (by omega)

/-! ## The whole call -/

theorem body_leaves (H : Canon C) (hst : Sticky C.enc) (hat : Atomic C.enc) (d : Data F) (c w : Value F) {n : Nat}
    (ho : Ok l) (hb : l.length + 1 ≤ C.bound) (hn : 2 * l.length + 2 ≤ n) :
    (∃ e s, parseBody C n c (At l d) = (.error e, s, w)) ↔ Leaves C.dialect c l w := by
  obtain ⟨n, rfl⟩ : ∃ m, n = m + 1 := ⟨n - 1, by omega⟩
  unfold parseBody
  rw [doParse_none]
  constructor
  · rintro ⟨e, s, h⟩
    rcases hs : scan C (At l d) with ⟨e1 | a, s1⟩
    · rw [hs] at h
      simp only [Prod.mk.injEq] at h
      rw [← h.2.2]
      refine .untouched fun hbg => ?_
      obtain ⟨a, l1, d1, h1, h2⟩ := begins_scan H hbg hb d
      rw [hs] at h1; cases h1
    rw [hs] at h
    simp only at h
    obtain ⟨t, l1, d1, rfl, ho1, hl1, hr⟩ := scan_res H ho hb hs
    by_cases ha : a.startsValue = true
    · rcases hp : doParse C (n + 1) c (some a) (At l1 d1) with ⟨e2 | _, s2, v⟩
      · rw [hp] at h
        simp only [Prod.mk.injEq] at h
        rw [← h.2.2]
        exact .cut ((cut_sound H hst hat (n + 1)).2.2 l d a l1 d1 c e2 s2 v ho hb (by omega) (by omega) hs ha hp)
      rw [hp] at h
      simp only at h
      obtain ⟨k, d2, rfl, hc⟩ := parse_complete H ho hb hs (by omega) (by omega) hp
      have := hc.length
      have fin : (∀ s', scan C (At k d2) ≠ (.ok .endOfInput, s')) → ∀ e more, k = e.map some ++ more → ¬ Finish e more := by
        intro hne e more he hf
        have hl : k.length = e.length + more.length := by rw [he]; simp
        obtain ⟨_, l3, d3, h5, rfl, _⟩ := run_scan_end (d := d2) H hf (by omega)
        refine hne (At l3 d3) ?_
        rw [he]
        exact h5
      rcases hs2 : scan C (At k d2) with ⟨e3 | b, s3⟩
      · rw [hs2] at h
        simp only [Prod.mk.injEq] at h
        rw [← h.2.2]
        exact .whole hc (fin (by rw [hs2]; intro s' h'; cases h'))
      rw [hs2] at h
      simp only at h
      by_cases hb1 : b = .endOfInput
      · rw [if_pos hb1] at h; cases h
      rw [if_neg hb1] at h
      simp only [Prod.mk.injEq] at h
      rw [← h.2.2]
      exact .whole hc (fin (by rw [hs2]; intro s' h'; cases h'; exact hb1 rfl))
    · have hnb : ¬ BeginsValue C.dialect l := by
        intro hbg
        obtain ⟨a', l1', d1', h1, h2⟩ := begins_scan H hbg hb d
        rw [hs] at h1
        simp only [Prod.mk.injEq, Except.ok.injEq] at h1
        rw [h1.1] at ha
        exact ha h2
      have : w = c := by
        cases a <;> simp only [Token.startsValue, not_true_eq_false] at ha <;> simp only [doParse, Prod.mk.injEq] at h <;>
          exact h.2.2.symm
      rw [this]
      exact .untouched hnb
  · intro h
    cases h with
    | untouched hnb =>
      rcases hs : scan C (At l d) with ⟨e1 | a, s1⟩
      · exact ⟨_, _, rfl⟩
      simp only
      have ha : ¬ a.startsValue = true := fun ha => hnb (scan_begins H ho hb hs ha)
      cases a <;> simp only [Token.startsValue, not_true_eq_false] at ha <;> simp only [doParse] <;> exact ⟨_, _, rfl⟩
    | cut hcut =>
      obtain ⟨a, l1, d1, h1, h2, h3⟩ := (cut_complete H hst hat (n + 1)).2.2 l w hcut d hb (by omega) (by omega)
      obtain ⟨e, s, h4⟩ := h3 c
      rw [h1]
      simp only
      rw [h4]
      exact ⟨_, _, rfl⟩
    | @whole _ k hc hfin =>
      have := hc.length
      obtain ⟨a, l1, d1, g1, g2, g3⟩ := complete_parse H hst hc (n := n + 1) hb (by omega) d
      obtain ⟨d2, g3⟩ := g3 c
      rw [g1]
      simp only
      rw [g3]
      simp only
      rcases hs : scan C (At k d2) with ⟨e1 | b, s1⟩
      · exact ⟨_, _, rfl⟩
      simp only
      have hb1 : b ≠ .endOfInput := by
        rintro rfl
        obtain ⟨t, l3, d3, rfl, _, hl3, hr⟩ := scan_res H hc.ok (by omega) hs
        exact hfin _ _ hl3 hr
      rw [if_neg hb1]
      exact ⟨_, _, rfl⟩

theorem parseItems_leaves {A : ParseArgs F} (hA : A.Usual) (c w : Value F) {n : Nat} (hn : 2 * l.length + 2 ≤ n) :
    (∃ e, parseItems A n none c l = (.error e, w)) ↔ Leaves A.dialect c l w := by
  unfold parseItems
  by_cases ho : Ok l
  · rw [parse_start n n none c ho]
    rw [show A.dialect = (A.canon n).dialect from rfl,
      ← body_leaves (canon_canon hA n) (A.te.sticky A.tw) (A.te.atomic A.tw) (data0 A) c w ho
      (show l.length + 1 ≤ n by omega) hn]
    rcases hr : parseBody (A.canon n) n c (At l (data0 A)) with ⟨e | _, s, v⟩
    · have : handled none ((.error e, s, v) : PRes CpS F) = (.error e, s, v) := by cases e <;> rfl
      rw [this]
      constructor
      · rintro ⟨e', h⟩
        simp only [Prod.mk.injEq] at h
        exact ⟨e, s, by rw [h.2]⟩
      · rintro ⟨e', s', h⟩
        simp only [Prod.mk.injEq] at h
        exact ⟨e, by rw [h.2.2]⟩
    · constructor
      · rintro ⟨e', h⟩
        simp only [handled, Prod.mk.injEq, reduceCtorEq, false_and] at h
      · rintro ⟨e', s', h⟩
        simp only [Prod.mk.injEq, reduceCtorEq, false_and] at h
  · have := parse_bad (A := A) (l := l) n n none c ho
    rcases hr : parse (A.canon n) n none c (Lex.init ⟨l, false, false⟩ (A.fo.ofInt 0)) with ⟨e, s, v⟩
    rw [hr] at this
    simp only at this
    obtain ⟨rfl, rfl⟩ := this
    have notOk : ∀ (t : List Nat) (k : List (Option Nat)), t ≠ [] → l ≠ t.map some ++ k := by
      intro t k ht he
      cases t with
      | nil => exact ht rfl
      | cons x t => rw [he] at ho; exact ho (.cons _ _)
    have hnb : ¬ BeginsValue A.dialect l := by
      intro h
      obtain ⟨g, t, k, hg, he, h2⟩ := h
      cases hgt : g ++ t with
      | cons x u => exact notOk (g ++ t) k (by rw [hgt]; simp) he
      | nil =>
        obtain ⟨rfl, rfl⟩ := List.append_eq_nil_iff.mp hgt
        have hpos : 1 ≤ ([] : List (Option Nat)).length :=
          begins_pos (D := A.dialect) ⟨[], [], [], .nil, rfl, h2.imp id fun ⟨_, h⟩ => by
            refine ⟨by simp [Readable], ?_⟩
            rcases h with h | h | h | h | h | ⟨v, h⟩
            · cases h
            · cases h
            · simp [Keyword, kTrue] at h
            · simp [Keyword, kFalse] at h
            · simp [Keyword, kNull] at h
            · cases h⟩
        simp at hpos
    constructor
    · rintro ⟨e', h⟩
      simp only [Prod.mk.injEq] at h
      rw [← h.2]
      exact .untouched hnb
    · intro h
      cases h with
      | untouched => exact ⟨_, rfl⟩
      | cut h =>
        exfalso
        cases h with
        | @str g r s => exact notOk (g ++ [0x22]) r (by simp) rfl
        | arr h => obtain ⟨g, _, he, _⟩ := h; exact notOk _ _ (by simp) he
        | obj h => obtain ⟨g, _, he, _⟩ := h; exact notOk _ _ (by simp) he
      | whole h =>
        exfalso
        obtain ⟨g, t, _, he, _, hv⟩ := h
        exact notOk _ _ (by simp [val_ne_nil hv]) he

end Configor
