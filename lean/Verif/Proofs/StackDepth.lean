import Verif.Proofs.StackLow
import Verif.Proofs.ObjParse
/-! How deep the calls of the parser nest for an accepted text: as deep as the text nests. -/
namespace Configor
open Lexer Spec

variable {F : Type} {C : Cfg CpS F}

theorem doParse_all {S : Type} (C : Cfg S F) (n : Nat) (c : Value F) (tok : Option Token) (s : Lex S F) :
    (doParse C n c tok s).1 = (doParseO C allMembers n c tok s).1 ∧ (doParse C n c tok s).2.1 = (doParseO C allMembers n c tok s).2.1 := by
  have := (parser_arranged C Map.emplace n).1 c c tok s
  rw [(parser_map C n).1] at this
  exact ⟨this.1, this.2.1⟩

/-- Calls active while blanks and comments are skipped, at most. -/
def skipBound (s : Lex CpS F) : Nat := 1 + 2 * Left isSlash s

theorem scanCalls_pos {s s' : Lex CpS F} {t : Token} (h : scan C s = (.ok t, s')) : 1 ≤ scanCalls C s := by
  unfold scanCalls
  cases hb : C.bound with
  | zero =>
    rw [scan_eq, hb] at h
    unfold Lexer.skipSpaces at h
    cases h
  | succ n =>
    unfold skipCalls
    repeat (first | omega | split)

theorem calls_nest (hC : C.src = canonSrc) (n : Nat) :
    (∀ c tok s s' v, doParseO C allMembers n c tok s = (.ok (), s', v) →
      1 + nest v ≤ doParseCalls C n tok s ∧ doParseCalls C n tok s ≤ 1 + nest v + skipBound s) ∧
    (∀ xs s s' r, parseArrayO C allMembers n xs s = (.ok (), s', r) → ∃ ys, r = .arr (xs ++ ys) ∧
      1 + nestElems ys ≤ arrayCalls C n s ∧ arrayCalls C n s ≤ 1 + nestElems ys + skipBound s) ∧
    (∀ ms s s' r, parseObjectO C allMembers n ms s = (.ok (), s', r) → ∃ ns, r = .obj (ms ++ ns) ∧
      1 + nestMembers ns ≤ objectCalls C n s ∧ objectCalls C n s ≤ 1 + nestMembers ns + skipBound s) := by
  have hsc : ∀ s, scanCalls C s ≤ skipBound s := fun s => skipCalls_le hC C.bound s
  have hs : ∀ {s s' : Lex CpS F} {r}, scan C s = (r, s') → skipBound s' ≤ skipBound s := by
    intro s s' r h
    have := Dec.scan hC (p := isSlash) rfl (C := C) s
    rw [h] at this
    unfold skipBound; simp only at this; omega
  have ht : ∀ {s s' : Lex CpS F} {r}, scanString C s = (r, s') → skipBound s' ≤ skipBound s := by
    intro s s' r h
    have := Dec.scanString hC (p := isSlash) rfl (C := C) s
    rw [h] at this
    unfold skipBound; simp only at this; omega
  have hd : ∀ {n c tok} {s s' : Lex CpS F} {r v}, doParseO C allMembers n c tok s = (r, s', v) →
      skipBound s' ≤ skipBound s ∧ ∃ w, doParse C n c tok s = (r, s', w) := by
    intro n c tok s s' r v h
    obtain ⟨h1, h2⟩ := doParse_all C n c tok s
    rw [h] at h1 h2
    refine ⟨?_, (doParse C n c tok s).2.2, Prod.ext h1 (Prod.ext h2 rfl)⟩
    have := (Left.doParse hC (p := isSlash) rfl n (C := C)).1 c tok s
    rw [h2] at this
    unfold skipBound; simp only at this; omega
  induction n with
  | zero =>
    refine ⟨fun c tok s s' v h => ?_, fun xs s s' r h => ?_, fun ms s s' r h => ?_⟩
    · simp [doParseO] at h
    · simp [parseArrayO] at h
    · simp [parseObjectO] at h
  | succ n ih =>
    obtain ⟨ih1, ih2, ih3⟩ := ih
    have body : ∀ c t s s' v, doParseO C allMembers (n + 1) c (some t) s = (.ok (), s', v) →
        nest v ≤ bodyCalls t (arrayCalls C n s) (objectCalls C n s) ∧
        bodyCalls t (arrayCalls C n s) (objectCalls C n s) ≤ nest v + skipBound s := by
      intro c t s s' v h
      unfold doParseO at h
      cases t <;> simp only [Prod.mk.injEq, reduceCtorEq, false_and] at h
      case beginArray =>
        obtain ⟨ys, rfl, h1, h2⟩ := ih2 _ _ _ _ h
        simp only [bodyCalls, nest, List.nil_append]
        exact ⟨h1, h2⟩
      case beginObject =>
        obtain ⟨ys, rfl, h1, h2⟩ := ih3 _ _ _ _ h
        simp only [bodyCalls, nest, List.nil_append]
        exact ⟨h1, h2⟩
      all_goals
        obtain ⟨_, _, rfl⟩ := h
        simp [bodyCalls, nest]
    refine ⟨fun c tok s s' v h => ?_, fun xs s s' r h => ?_, fun ms s s' r h => ?_⟩
    · cases tok with
      | some t =>
        obtain ⟨h1, h2⟩ := body c t s s' v h
        unfold doParseCalls
        omega
      | none =>
        rw [doParseO_none] at h
        rcases hsn : scan C s with ⟨e | t, s1⟩
        · rw [hsn] at h; simp at h
        · rw [hsn] at h
          simp only at h
          obtain ⟨h1, h2⟩ := body c t s1 s' v h
          have h3 := hs hsn
          have h4 := hsc s
          unfold doParseCalls
          rw [hsn]
          simp only
          omega
    · unfold parseArrayO at h
      unfold arrayCalls
      have k0 := hsc s
      rcases hsn : scan C s with ⟨e | t, s1⟩
      · rw [hsn] at h; simp at h
      have k1 := hs hsn
      have k2 := scanCalls_pos hsn
      rw [hsn] at h
      simp only at h ⊢
      split at h
      · rename_i hv
        rw [if_pos hv]
        rcases hdp : doParseO C allMembers n .null (some t) s1 with ⟨e | _, s2, v⟩
        · rw [hdp] at h; simp at h
        obtain ⟨k3, w, hw⟩ := hd hdp
        obtain ⟨k4, k5⟩ := ih1 _ _ _ _ _ hdp
        rw [hdp] at h
        rw [hw]
        simp only at h ⊢
        have k6 := hsc s2
        rcases hsn2 : scan C s2 with ⟨e | t2, s3⟩
        · rw [hsn2] at h; simp at h
        have k7 := hs hsn2
        rw [hsn2] at h
        simp only at h ⊢
        split at h
        · rename_i hc
          rw [if_pos hc]
          obtain ⟨ys, rfl, h1, h2⟩ := ih2 _ _ _ _ h
          refine ⟨v :: ys, by simp, ?_⟩
          simp only [nestElems]
          omega
        · rename_i hc
          rw [if_neg hc]
          split at h
          · cases h
            refine ⟨[v], rfl, ?_⟩
            simp only [nestElems]
            omega
          · simp at h
      · rename_i hv
        rw [if_neg hv]
        split at h
        · cases h
          refine ⟨[], by simp, ?_⟩
          simp only [nestElems]
          omega
        · simp at h
    · unfold parseObjectO at h
      unfold objectCalls
      have k0 := hsc s
      rcases hsn : scan C s with ⟨e | t, s1⟩
      · rw [hsn] at h; simp at h
      have k1 := hs hsn
      have k2 := scanCalls_pos hsn
      rw [hsn] at h
      simp only at h ⊢
      split at h
      · rename_i hv
        rw [if_pos hv]
        rcases hst : scanString C s1 with ⟨e | _, s2⟩
        · rw [hst] at h; simp at h
        have k3 := ht hst
        have k4 := hsc s2
        rw [hst] at h
        simp only at h ⊢
        rcases hsn2 : scan C s2 with ⟨e | t2, s3⟩
        · rw [hsn2] at h; simp at h
        have k5 := hs hsn2
        rw [hsn2] at h
        simp only at h ⊢
        split at h
        · rename_i hc
          rw [if_pos hc]
          rcases hdp : doParseO C allMembers n .null none s3 with ⟨e | _, s4, v⟩
          · rw [hdp] at h; simp at h
          obtain ⟨k6, w, hw⟩ := hd hdp
          obtain ⟨k7, k8⟩ := ih1 _ _ _ _ _ hdp
          rw [hdp] at h
          rw [hw]
          simp only at h ⊢
          have k9 := hsc s4
          rcases hsn4 : scan C s4 with ⟨e | t4, s5⟩
          · rw [hsn4] at h; simp at h
          have k10 := hs hsn4
          rw [hsn4] at h
          simp only at h ⊢
          split at h
          · rename_i hc
            rw [if_pos hc]
            obtain ⟨ys, rfl, h1, h2⟩ := ih3 _ _ _ _ h
            refine ⟨(s2.out.out, v) :: ys, by simp [allMembers], ?_⟩
            simp only [nestMembers]
            omega
          · rename_i hc
            rw [if_neg hc]
            split at h
            · cases h
              refine ⟨[(s2.out.out, v)], rfl, ?_⟩
              simp only [nestMembers]
              omega
            · simp at h
        · rename_i hc
          rw [if_neg hc]
          split at h
          · cases h
            refine ⟨[], by simp, ?_⟩
            simp only [nestMembers]
            omega
          · simp at h
      · rename_i hv
        rw [if_neg hv]
        split at h
        · cases h
          refine ⟨[], by simp, ?_⟩
          simp only [nestMembers]
          omega
        · simp at h

theorem jsonParseCalls_nest {A : ParseArgs F} (hA : A.Usual) {str : List Nat} {r : Value F}
    (hdoc : TreeDocument A.dialect (itemsOf A.se A.sw str) r) :
    1 + nest r ≤ jsonParseCalls A str ∧ jsonParseCalls A str ≤ 2 + nest r + 2 * countOf isSlash (itemsOf A.se A.sw str) := by
  have hl := itemsOf_length A.se A.sw str
  obtain ⟨_, _, hb, _⟩ := treeBody_complete (canon_canon hA (2 * str.length + 4)) (A.te.sticky A.tw) (data0 A) .null hdoc
    (n := 2 * str.length + 4) (show _ ≤ 2 * str.length + 4 by omega) (by omega)
  have ho := treeDocument_ok hdoc
  rw [jsonParseCalls_items]
  generalize hN : 2 * str.length + 4 = N at *
  generalize itemsOf A.se A.sw str = l at *
  have hr : readNext (A.canon N) (Lex.init ⟨l, false, false⟩ (A.fo.ofInt 0)) = (.ok (hd l), At l (data0 A)) := by
    cases l with
    | nil => rfl
    | cons x l =>
      cases x with
      | none => exact absurd rfl ho
      | some c => rfl
  have hC : (A.canon N).src = canonSrc := rfl
  have hleft : Left isSlash (At l (data0 A)) ≤ countOf isSlash l := by
    have := Dec.readNext hC (p := isSlash) rfl (C := A.canon N) (Lex.init ⟨l, false, false⟩ (A.fo.ofInt 0))
    rw [hr] at this
    refine Nat.le_trans this ?_
    show (if isSlash 0 then 1 else 0) + countOf isSlash l ≤ _
    simp [isSlash]
  unfold parseCalls
  rw [hr]
  simp only
  unfold parseBodyO at hb
  rcases hdp : doParseO (A.canon N) allMembers N .null none (At l (data0 A)) with ⟨e | _, s2, v⟩
  · rw [hdp] at hb; simp at hb
  obtain ⟨k1, k2⟩ := (calls_nest hC N).1 _ _ _ _ _ hdp
  obtain ⟨h1, h2⟩ := doParse_all (A.canon N) N .null none (At l (data0 A))
  rw [hdp] at h1 h2
  have hw : doParse (A.canon N) N .null none (At l (data0 A)) = (.ok (), s2, (doParse (A.canon N) N .null none (At l (data0 A))).2.2) :=
    Prod.ext h1 (Prod.ext h2 rfl)
  rw [hw]
  simp only
  have k3 : scanCalls (A.canon N) s2 ≤ skipBound s2 := skipCalls_le hC _ s2
  have k4 := (Left.doParse hC (p := isSlash) rfl N (C := A.canon N)).1 .null none (At l (data0 A))
  rw [h2] at k4
  rw [hdp] at hb
  have hv : v = r := by
    simp only at hb
    rcases hsn : scan (A.canon N) s2 with ⟨e | t, s3⟩
    · rw [hsn] at hb; simp at hb
    · rw [hsn] at hb
      simp only at hb
      split at hb
      · simp at hb; exact hb.2
      · simp at hb
  subst hv
  unfold skipBound at *
  simp only at k4
  omega

end Configor
