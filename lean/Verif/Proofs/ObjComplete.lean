import Verif.Proofs.ObjOrder
import Verif.Proofs.Document
/-! # The parser gives the tree of every document -/
namespace Configor
open Lexer Spec

variable {F : Type} {C : Cfg CpS F} {k l : List (Option Nat)} {d : Data F}

theorem tree_complete (H : Canon C) (hst : Sticky C.enc) (n : Nat) :
    (∀ t nx v, Tree C.dialect t nx v → ∀ g k d, Gap g → Ok k → look k = nx →
      g.length + t.length + k.length + 1 ≤ C.bound → 2 * t.length + 1 ≤ n →
      Runs (scan C) (txt g (txt t k)) d fun a l1 d1 => a.startsValue = true ∧
        ∀ c, ∃ d2, doParseO C allMembers n c (some a) (At l1 d1) = (.ok (), At k d2, v)) ∧
    (∀ t ys, TreeElems C.dialect t ys → ∀ xs k d, Ok k → t.length + k.length + 1 ≤ C.bound → 2 * t.length + 1 ≤ n →
      ∃ d', parseArrayO C allMembers n xs (At (txt t k) d) = (.ok (), At k d', .arr (xs ++ ys))) ∧
    (∀ t ms', TreeMembers C.dialect t ms' → ∀ ms k d, Ok k → t.length + k.length + 1 ≤ C.bound → 2 * t.length + 1 ≤ n →
      ∃ d', parseObjectO C allMembers n ms (At (txt t k) d) = (.ok (), At k d', .obj (ms ++ ms'))) := by
  induction n with
  | zero => refine ⟨?_, ?_, ?_⟩ <;> intros <;> omega
  | succ n ih =>
    obtain ⟨ihV, ihE, ihM⟩ := ih
    refine ⟨?_, ?_, ?_⟩
    · intro t nx v hv g k d hg ho hlk hb hn
      cases hv with
      | vtrue h =>
        obtain ⟨t, rfl⟩ := keyword_cons h
        refine (run_scan_literal H (Or.inl ⟨rfl, rfl, rfl⟩) h hg ho hb).imp ?_
        rintro _ _ d1 ⟨rfl, rfl, rfl⟩
        exact ⟨rfl, fun c => ⟨d1, by simp only [doParseO]⟩⟩
      | vfalse h =>
        obtain ⟨t, rfl⟩ := keyword_cons h
        refine (run_scan_literal H (Or.inr (Or.inl ⟨rfl, rfl, rfl⟩)) h hg ho hb).imp ?_
        rintro _ _ d1 ⟨rfl, rfl, rfl⟩
        exact ⟨rfl, fun c => ⟨d1, by simp only [doParseO]⟩⟩
      | vnull h =>
        obtain ⟨t, rfl⟩ := keyword_cons h
        refine (run_scan_literal H (Or.inr (Or.inr ⟨rfl, rfl, rfl⟩)) h hg ho hb).imp ?_
        rintro _ _ d1 ⟨rfl, rfl, rfl⟩
        exact ⟨rfl, fun c => ⟨d1, by simp only [doParseO]⟩⟩
      | num h =>
        subst hlk
        refine (run_scan_number H h hg ho hb).imp ?_
        rintro a _ d1 ⟨rfl, ⟨rfl, rfl⟩ | ⟨rfl, rfl⟩⟩
        · exact ⟨rfl, fun c => ⟨d1, by simp only [doParseO]; rfl⟩⟩
        · exact ⟨rfl, fun c => ⟨d1, by simp only [doParseO]; rfl⟩⟩
      | @str t nx s h =>
        obtain ⟨u, cps, rfl, _⟩ := id h
        refine (run_scan_string (k := txt u k) H hg (by rw [txt_length]; simp at hb; omega)).imp ?_
        rintro a _ d1 ⟨rfl, rfl, rfl⟩
        refine ⟨rfl, fun c => ?_⟩
        obtain ⟨_, _, d2, h1, rfl, h2⟩ := run_scanString (k := k) (d := d1) H hst h ho (by omega)
        refine ⟨d2, ?_⟩
        simp only [doParseO]
        rw [← txt_cons, h1]
        simp only [At, h2]
      | @arr t nx xs h =>
        simp only [List.length_cons] at hb hn
        refine (run_scan_punct (k := txt t k) H .beginArray hg (ho.txt _) (by rw [txt_length]; omega)).imp ?_
        rintro a _ d1 ⟨rfl, rfl, rfl⟩
        refine ⟨rfl, fun c => ?_⟩
        obtain ⟨d2, h2⟩ := ihE t xs h [] k d1 ho (by omega) (by omega)
        exact ⟨d2, by simp only [doParseO]; exact h2⟩
      | @obj t nx ms h =>
        simp only [List.length_cons] at hb hn
        refine (run_scan_punct (k := txt t k) H .beginObject hg (ho.txt _) (by rw [txt_length]; omega)).imp ?_
        rintro a _ d1 ⟨rfl, rfl, rfl⟩
        refine ⟨rfl, fun c => ?_⟩
        obtain ⟨d2, h2⟩ := ihM t ms h [] k d1 ho (by omega) (by omega)
        exact ⟨d2, by simp only [doParseO]; exact h2⟩
    · intro t ys he xs k d ho hb hn
      rw [parseArrayO]
      cases he with
      | @close g hg =>
        simp only [List.length_append, List.length_cons, List.length_nil] at hb hn
        rw [txt_append, txt_cons, txt_nil]
        obtain ⟨_, _, d1, h1, rfl, rfl, rfl⟩ := run_scan_punct (k := k) (d := d) H .endArray hg ho (by omega)
        rw [h1]
        exact ⟨d1, by simp [Token.startsValue]⟩
      | @last g t v g' hg hv hg' =>
        simp only [List.length_append, List.length_cons, List.length_nil] at hb hn
        simp only [txt_append]
        obtain ⟨a, l1, d1, h1, h2, h3⟩ := ihV t _ v hv g (txt (g' ++ [0x5D]) k) d hg (Ok.txt _ ho)
          (look_txt (by simp)) (by rw [txt_length]; simp; omega) (by omega)
        rw [txt_append] at h1 h3
        obtain ⟨d2, h4⟩ := h3 .null
        obtain ⟨_, _, d3, h5, rfl, rfl, rfl⟩ := run_scan_punct (k := k) (d := d2) H .endArray hg' ho (by omega)
        rw [h1]
        simp only [h2, if_true]
        rw [h4]
        simp only [txt_cons, txt_nil]
        rw [h5]
        exact ⟨d3, by simp⟩
      | @more g t v g' u xs' hg hv hg' hu =>
        simp only [List.length_append, List.length_cons] at hb hn
        simp only [txt_append]
        obtain ⟨a, l1, d1, h1, h2, h3⟩ := ihV t _ v hv g (txt (g' ++ [0x2C]) (txt u k)) d hg (Ok.txt _ (ho.txt _))
          (look_txt (by simp)) (by rw [txt_length, txt_length]; simp; omega) (by omega)
        rw [txt_append] at h1 h3
        obtain ⟨d2, h4⟩ := h3 .null
        obtain ⟨_, _, d3, h5, rfl, rfl, rfl⟩ := run_scan_punct (k := txt u k) (d := d2) H .comma hg' (ho.txt _) (by rw [txt_length]; omega)
        obtain ⟨d4, h6⟩ := ihE u xs' hu (xs ++ [v]) k d3 ho (by omega) (by omega)
        simp only [txt_cons, txt_nil] at h1 h4 ⊢
        rw [h1]
        simp only [h2, if_true]
        rw [h4]
        simp only
        rw [h5]
        simp only [if_true]
        exact ⟨d4, by rw [h6]; simp⟩
    · intro t ms' he ms k d ho hb hn
      rw [parseObjectO]
      cases he with
      | @close g hg =>
        simp only [List.length_append, List.length_cons, List.length_nil] at hb hn
        rw [txt_append, txt_cons, txt_nil]
        obtain ⟨_, _, d1, h1, rfl, rfl, rfl⟩ := run_scan_punct (k := k) (d := d) H .endObject hg ho (by omega)
        rw [h1]
        exact ⟨d1, by simp⟩
      | @keyOnly g key s g' hg hkey hg' =>
        obtain ⟨u, cps, rfl, _⟩ := id hkey
        simp only [List.length_append, List.length_cons, List.length_nil] at hb hn
        simp only [txt_append]
        obtain ⟨_, _, d1, h1, rfl, rfl, rfl⟩ := run_scan_string (k := txt u (txt g' (txt [0x7D] k))) (d := d) H hg
          (by simp only [txt_length]; simp; omega)
        obtain ⟨_, _, d2, h2, rfl, h3⟩ := run_scanString (k := txt g' (txt [0x7D] k)) (d := d1) H hst hkey
          (Ok.txt _ (ho.txt _)) (by simp; omega)
        obtain ⟨_, _, d3, h4, rfl, rfl, rfl⟩ := run_scan_punct (k := k) (d := d2) H .endObject hg' ho (by omega)
        simp only [txt_cons, txt_nil] at h1 h2 ⊢
        rw [h1]
        simp only [if_true]
        rw [h2]
        simp only
        rw [h4]
        exact ⟨d3, by simp⟩
      | @last g key s g1 g2 t v g' hg hkey hg1 hg2 hv hg' =>
        obtain ⟨u, cps, rfl, _⟩ := id hkey
        have hlen : (g ++ 0x22 :: u ++ g1 ++ 0x3A :: g2 ++ t ++ g' ++ [0x7D]).length =
            g.length + u.length + g1.length + g2.length + t.length + g'.length + 3 := by simp; omega
        rw [hlen] at hb hn
        have htx : txt (g ++ 0x22 :: u ++ g1 ++ 0x3A :: g2 ++ t ++ g' ++ [0x7D]) k =
            txt g (some 0x22 :: txt u (txt g1 (some 0x3A :: txt g2 (txt t (txt g' (some 0x7D :: k)))))) := by
          simp
        rw [htx]
        have hq : Ok (some 0x7D :: k) := .cons _ _
        obtain ⟨_, _, d1, h1, rfl, rfl, rfl⟩ := run_scan_string (d := d)
          (k := txt u (txt g1 (some 0x3A :: txt g2 (txt t (txt g' (some 0x7D :: k)))))) H hg
          (by simp only [txt_length, List.length_cons]; omega)
        obtain ⟨_, _, d2, h2, rfl, h3⟩ := run_scanString (d := d1)
          (k := txt g1 (some 0x3A :: txt g2 (txt t (txt g' (some 0x7D :: k))))) H hst hkey
          (Ok.txt _ (.cons _ _)) (by simp; omega)
        obtain ⟨_, _, d3, h4, rfl, rfl, rfl⟩ := run_scan_punct (d := d2) (k := txt g2 (txt t (txt g' (some 0x7D :: k)))) H .colon hg1
          (((hq.txt _).txt _).txt _) (by simp only [txt_length, List.length_cons]; omega)
        obtain ⟨a, l1, d4, h5, h6, h7⟩ := ihV t _ v hv g2 (txt g' (some 0x7D :: k)) d3 hg2 (hq.txt _)
          (by rw [show txt g' (some 0x7D :: k) = txt (g' ++ [0x7D]) k by simp]; exact look_txt (by simp)) (by simp only [txt_length, List.length_cons]; omega) (by omega)
        obtain ⟨d5, h8⟩ := h7 .null
        obtain ⟨_, _, d6, h9, rfl, rfl, rfl⟩ := run_scan_punct (k := k) (d := d5) H .endObject hg' ho (by omega)
        rw [txt_cons] at h2
        cases n with
        | zero => omega
        | succ n =>
        rw [h1]
        simp only [if_true]
        rw [h2]
        simp only
        rw [h4]
        simp only [if_true]
        rw [doParseO_none, h5]
        simp only
        rw [h8]
        simp only
        rw [h9]
        refine ⟨d6, ?_⟩
        simp [allMembers, At, h3]
      | @more g key s g1 g2 t v g' w ms' hg hkey hg1 hg2 hv hg' hw =>
        obtain ⟨u, cps, rfl, _⟩ := id hkey
        have hlen : (g ++ 0x22 :: u ++ g1 ++ 0x3A :: g2 ++ t ++ g' ++ 0x2C :: w).length =
            g.length + u.length + g1.length + g2.length + t.length + g'.length + w.length + 3 := by simp; omega
        rw [hlen] at hb hn
        have htx : txt (g ++ 0x22 :: u ++ g1 ++ 0x3A :: g2 ++ t ++ g' ++ 0x2C :: w) k =
            txt g (some 0x22 :: txt u (txt g1 (some 0x3A :: txt g2 (txt t (txt g' (some 0x2C :: txt w k)))))) := by
          simp
        rw [htx]
        have hq : Ok (some 0x2C :: txt w k) := .cons _ _
        obtain ⟨_, _, d1, h1, rfl, rfl, rfl⟩ := run_scan_string (d := d)
          (k := txt u (txt g1 (some 0x3A :: txt g2 (txt t (txt g' (some 0x2C :: txt w k)))))) H hg
          (by simp only [txt_length, List.length_cons]; omega)
        obtain ⟨_, _, d2, h2, rfl, h3⟩ := run_scanString (d := d1)
          (k := txt g1 (some 0x3A :: txt g2 (txt t (txt g' (some 0x2C :: txt w k))))) H hst hkey
          (Ok.txt _ (.cons _ _)) (by simp; omega)
        obtain ⟨_, _, d3, h4, rfl, rfl, rfl⟩ := run_scan_punct (d := d2) (k := txt g2 (txt t (txt g' (some 0x2C :: txt w k)))) H .colon hg1
          (((hq.txt _).txt _).txt _) (by simp only [txt_length, List.length_cons]; omega)
        obtain ⟨a, l1, d4, h5, h6, h7⟩ := ihV t _ v hv g2 (txt g' (some 0x2C :: txt w k)) d3 hg2 (hq.txt _)
          (by rw [show txt g' (some 0x2C :: txt w k) = txt (g' ++ [0x2C]) (txt w k) by simp]; exact look_txt (by simp)) (by simp only [txt_length, List.length_cons]; omega) (by omega)
        obtain ⟨d5, h8⟩ := h7 .null
        obtain ⟨_, _, d6, h9, rfl, rfl, rfl⟩ := run_scan_punct (k := txt w k) (d := d5) H .comma hg' (ho.txt _) (by rw [txt_length]; omega)
        obtain ⟨d7, h10⟩ := ihM w ms' hw (ms ++ [(s, v)]) k d6 ho (by omega) (by omega)
        rw [txt_cons] at h2
        cases n with
        | zero => omega
        | succ n =>
        rw [h1]
        simp only [if_true]
        rw [h2]
        simp only
        rw [h4]
        simp only [if_true]
        rw [doParseO_none, h5]
        simp only
        rw [h8]
        simp only
        rw [h9]
        refine ⟨d7, ?_⟩
        simp only [if_true, At, h3, allMembers] at h10 ⊢
        rw [h10]
        simp

theorem treeBody_complete {C : Cfg CpS F} (H : Canon C) (hst : Sticky C.enc) (d : Data F) (c : Value F) {n : Nat}
    {v : Value F} (hdoc : TreeDocument C.dialect l v)
    (hb : l.length + 1 ≤ C.bound) (hn : 2 * l.length + 2 ≤ n) :
    ∃ l' d', parseBodyO C allMembers n c (At l d) = (.ok (), At l' d', v) ∧ (some 0 ∉ l → l' = []) := by
  obtain ⟨n, rfl⟩ : ∃ m, n = m + 1 := ⟨n - 1, by omega⟩
  obtain ⟨g, t, e, more, rfl, hg, hv, hf⟩ := hdoc
  have hl : ((g ++ t ++ e).map some ++ more).length = g.length + t.length + e.length + more.length := by
    simp; omega
  rw [hl] at hb hn
  have ho : Ok (txt e more) := by
    cases hf with
    | eof => exact Ok.nil.txt _
    | eofInLine => exact Ok.nil.txt _
    | nul => exact (Ok.cons _ _).txt _
  obtain ⟨a, l1, d1, h1, h2, h3⟩ := (tree_complete H hst (n + 1)).1 t _ v hv g (txt e more) d hg ho rfl
    (by rw [txt_length]; omega) (by omega)
  obtain ⟨d2, h4⟩ := h3 c
  obtain ⟨_, l3, d3, h5, rfl, hl3⟩ := run_scan_end (d := d2) H hf (by omega)
  have htx : (g ++ t ++ e).map some ++ more = txt g (txt t (txt e more)) := by simp [txt]
  unfold parseBodyO
  rw [doParseO_none, htx, h1]
  simp only
  rw [h4]
  simp only
  rw [h5]
  refine ⟨_, _, rfl, fun h0 => ?_⟩
  rw [hl3]
  cases hf with
  | eof => rfl
  | eofInLine => rfl
  | nul => exact (h0 (by simp [txt])).elim

end Configor
