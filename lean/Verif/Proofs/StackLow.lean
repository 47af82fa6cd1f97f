import Verif.Proofs.Stack
import Verif.Proofs.Document
/-! How deep the calls of the parser nest: strings, and lower bounds. -/
namespace Configor
open Lexer Spec

section low
variable {F : Type} {C : Cfg CpS F} {k : List (Option Nat)} {d : Data F}

theorem emptyComments_length (j : Nat) : (emptyComments j).length = 4 * j := by
  induction j with
  | zero => rfl
  | succ j ih => unfold emptyComments; simp [ih]; omega

theorem skipCalls_comments (H : Canon C) (hk : Ok k) (j n : Nat) (hn : j ≤ n) (hb : 4 ≤ C.bound) :
    2 * j ≤ skipCalls C n (At (txt (emptyComments j) k) d) := by
  induction j generalizing n d with
  | zero => omega
  | succ j ih =>
    cases n with
    | zero => omega
    | succ n =>
      have ho := hk.txt (emptyComments j)
      obtain ⟨_, _, d1, h1, rfl, hd1⟩ := run_skipBlanks (C := C) (d := d) H [] C.bound (by simp)
        (k := txt (emptyComments (j + 1)) k) (hk.txt _) (by simp [emptyComments, IsBlank]) (by simp; omega)
      subst hd1
      obtain ⟨_, _, d2, h2, rfl, hd2⟩ := run_blockComment (C := C) (d := d1) H 0x2A C.bound .close ho (by simp; omega)
      subst hd2
      have e : txt (emptyComments (j + 1)) k = some 0x2F :: some 0x2A :: some 0x2A :: some 0x2F :: txt (emptyComments j) k := by
        simp [emptyComments]
      have h3 := readNext_ok (C := C) H d2 (l := txt (emptyComments (j + 1)) k) (by rw [e]; exact .cons _ _)
      unfold skipCalls
      rw [txt_nil] at h1
      rw [h1]
      simp only
      rw [if_pos (by simp [At, e]), h3]
      simp only [e, List.tail_cons, hd_some]
      rw [if_neg (by decide), if_pos trivial]
      rw [txt_cons, txt_cons, txt_cons, txt_nil] at h2
      rw [h2]
      simp only
      have := ih (d := d2) n (by omega)
      omega

theorem arrayCalls_opened (H : Canon C) (hk : Ok k) (j n : Nat) (hn : 2 * j ≤ n) (hb : j + k.length + 2 ≤ C.bound) :
    j ≤ arrayCalls C n (At (txt (opened j) k) d) := by
  induction j generalizing n d with
  | zero => omega
  | succ j ih =>
    cases n with
    | zero => omega
    | succ n =>
    cases n with
    | zero => omega
    | succ n =>
      obtain ⟨_, _, d1, h1, rfl, rfl, hd1⟩ := run_scan_punct (C := C) (d := d) (g := []) (k := txt (opened j) k) H .beginArray .nil
        (hk.txt _) (by simp [txt_length, opened]; omega)
      subst hd1
      have e : txt (opened (j + 1)) k = txt [] (some 0x5B :: txt (opened j) k) := by simp [opened, List.replicate_succ]
      unfold arrayCalls
      rw [e, h1]
      simp only [Token.startsValue, if_true]
      have : 1 + j ≤ doParseCalls C (n + 1) (some .beginArray) (At (txt (opened j) k) d1) := by
        simp only [doParseCalls, bodyCalls]
        have := ih (d := d1) n (by omega) (by omega)
        omega
      omega

end low

section strings
variable {F : Type} {A : ParseArgs F}

theorem jsonParseCalls_items (str : List Nat) :
    let n := 2 * str.length + 4
    jsonParseCalls A str = parseCalls (A.canon n) n (Lex.init ⟨itemsOf A.se A.sw str, false, false⟩ (A.fo.ofInt 0)) := by
  obtain ⟨R, V, h⟩ := str_view_start A.sw str
  have hi : itemsOf A.se A.sw str = items (A.se.step A.sw) (unitsOf A.sw str) := rfl
  have hs : LexSim (fun _ => CanonRel R (A.se.step A.sw)) (Lex.init (.ofBuf (.ofString str)) (A.fo.ofInt 0))
      (Lex.init ⟨itemsOf A.se A.sw str, false, false⟩ (A.fo.ofInt 0)) :=
    ⟨Or.inr ⟨rfl, rfl, rfl, rfl, _, h, hi⟩, rfl, rfl, rfl, rfl, rfl⟩
  have hs' : LexSim (fun _ c s => CanonRel R (A.se.step A.sw) s c) (Lex.init ⟨itemsOf A.se A.sw str, false, false⟩ (A.fo.ofInt 0))
      (Lex.init (.ofBuf (.ofString str)) (A.fo.ofInt 0)) :=
    ⟨Or.inr ⟨rfl, rfl, rfl, rfl, _, h, hi⟩, rfl, rfl, rfl, rfl, rfl⟩
  intro n
  have H : CfgSim (A.cfg (strSBuf A.sw) n) (A.canon n) (CanonRel R (A.se.step A.sw)) :=
    ⟨canon_src V, rfl, rfl, rfl, rfl, Nat.le_refl _⟩
  have H' : CfgSim (A.canon n) (A.cfg (strSBuf A.sw) n) (fun c s => CanonRel R (A.se.step A.sw) s c) :=
    ⟨(canon_src V).symm, rfl, rfl, rfl, rfl, Nat.le_refl _⟩
  exact Nat.le_antisymm (parseCalls_sim H (Nat.le_refl _) hs) (parseCalls_sim H' (Nat.le_refl _) hs')

theorem jsonParseCalls_le (str : List Nat) :
    jsonParseCalls A str ≤ 2 + 2 * countOf isSlash (itemsOf A.se A.sw str) + countOf isOpen (itemsOf A.se A.sw str) := by
  rw [jsonParseCalls_items]
  exact parseCalls_le rfl _ _ rfl

/-- The start of a parse. -/
theorem parseCalls_start {l : List (Option Nat)} (n : Nat) (ho : Ok l) :
    doParseCalls (A.canon n) n none (At l (data0 A)) ≤ parseCalls (A.canon n) n (Lex.init ⟨l, false, false⟩ (A.fo.ofInt 0)) := by
  have : readNext (A.canon n) (Lex.init ⟨l, false, false⟩ (A.fo.ofInt 0)) = (.ok (hd l), At l (data0 A)) := by
    cases l with
    | nil => rfl
    | cons x l =>
      cases x with
      | none => exact absurd rfl ho
      | some c => rfl
  unfold parseCalls
  rw [this]
  simp only
  omega

theorem jsonParseCalls_comments (hA : A.Usual) {str : List Nat} {j : Nat} {k : List (Option Nat)} (hk : Ok k)
    (hs : itemsOf A.se A.sw str = txt (emptyComments j) k) : 2 * j + 1 ≤ jsonParseCalls A str := by
  have hle := itemsOf_length A.se A.sw str
  rw [jsonParseCalls_items, hs]
  rw [hs, txt_length, emptyComments_length] at hle
  refine Nat.le_trans ?_ (parseCalls_start _ (hk.txt _))
  have := skipCalls_comments (C := A.canon (2 * str.length + 4)) (canon_canon hA _) hk (d := data0 A) j (2 * str.length + 4) (by omega)
    (show 4 ≤ 2 * str.length + 4 by omega)
  unfold doParseCalls scanCalls
  show _ ≤ 1 + max (skipCalls _ (2 * str.length + 4) _) _
  omega

theorem jsonParseCalls_opened (hA : A.Usual) {str : List Nat} {j : Nat} {k : List (Option Nat)} (hk : Ok k)
    (hs : itemsOf A.se A.sw str = txt (opened j) k) : j ≤ jsonParseCalls A str := by
  have hle := itemsOf_length A.se A.sw str
  rw [jsonParseCalls_items, hs]
  rw [hs, txt_length] at hle
  have ho : (opened j).length = j := by simp [opened]
  cases j with
  | zero => omega
  | succ j =>
    refine Nat.le_trans ?_ (parseCalls_start _ (hk.txt _))
    have e : txt (opened (j + 1)) k = txt [] (some 0x5B :: txt (opened j) k) := by simp [opened, List.replicate_succ]
    have ho' : (opened j).length = j := by simp [opened]
    obtain ⟨_, _, _, h1, rfl, rfl, rfl⟩ := run_scan_punct (C := A.canon (2 * str.length + 4)) (d := data0 A) (g := [])
      (k := txt (opened j) k) (canon_canon hA _) .beginArray .nil (hk.txt _)
      (show 0 + (txt (opened j) k).length + 2 ≤ 2 * str.length + 4 by rw [txt_length]; omega)
    have := arrayCalls_opened (C := A.canon (2 * str.length + 4)) (canon_canon hA _) hk (d := data0 A) j (2 * str.length + 3) (by omega)
      (show _ ≤ 2 * str.length + 4 by omega)
    unfold doParseCalls
    rw [e, h1]
    simp only [bodyCalls]
    omega

end strings
end Configor
