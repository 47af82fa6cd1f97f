import Verif.Proofs.AdapterParse
import Verif.Proofs.ParseComplete
import Verif.Model.Wrapper
/-!
On an input that goes on with NULs for ever the parser does not come out of a line comment that
the text leaves open.
-/
namespace Configor
open Lexer Spec

variable {F α : Type} {C : Cfg CpS F} {D : Cfg (List (Option Nat) × Bool) F} {k : List (Option Nat)} {d : Data F}

theorem ZCfg.nextSome (H : ZCfg C D) {x : Option Nat} {c : Nat} : readNext D (StR (x :: some c :: k) d) = (.ok c, StR (some c :: k) d) :=
  H.nextR (l := x :: some c :: k) (Ok.cons _ _)

theorem ZCfg.blanksR (H : ZCfg C D) (n : Nat) (bs : List Nat) (hb : ∀ c ∈ bs, IsBlank c) (ho : Ok k)
    (hnb : ¬ IsBlank (hd k)) :
    (skipBlanks D n (StR (txt bs k) d)).1 = .error .fuel ∨ skipBlanks D n (StR (txt bs k) d) = (.ok (), StR k d) := by
  induction n generalizing bs with
  | zero => exact Or.inl rfl
  | succ n ih =>
    cases bs with
    | nil =>
      right
      unfold skipBlanks
      have : isSpace (hd k) = false := by
        simp only [IsBlank, not_or] at hnb
        simp [isSpace, hnb]
      simp [M.bind_def, cur, M.gets, StR, this, txt]
      rfl
    | cons b bs =>
      have hbb : isSpace b = true := by
        have := hb b (by simp)
        simpa [isSpace, IsBlank, or_assoc] using this
      have e : skipBlanks D (n + 1) (StR (txt (b :: bs) k) d) = skipBlanks D n (StR (txt bs k) d) := by
        rw [skipBlanks]
        simp only [M.bind_def, cur, M.gets]
        have hc : (StR (txt (b :: bs) k) d).cur = b := rfl
        rw [hc, if_pos hbb]
        have ho' : Ok (txt bs k) := ho.txt bs
        have := H.nextR (l := txt (b :: bs) k) (d := d) ho'
        simp only [M.bind_def]
        rw [this]
        rfl
      rw [e]
      exact ih bs fun c hc => hb c (by simp [hc])

theorem ZCfg.lineR (H : ZCfg C D) (n : Nat) (x : Nat) (t : List Nat) (nl : Nat) (ht : Line t) (hnl : nl = 0x0A ∨ nl = 0x0D) :
    (lineComment D n (StR (some x :: txt t (some nl :: k)) d)).1 = .error .fuel ∨
      lineComment D n (StR (some x :: txt t (some nl :: k)) d) = (.ok true, StR (some nl :: k) d) := by
  induction n generalizing x t with
  | zero => exact Or.inl rfl
  | succ n ih =>
    cases t with
    | nil =>
      right
      rw [lineComment]
      simp only [M.bind_def, txt, List.map_nil, List.nil_append, H.nextSome]
      rw [if_pos (by simpa using hnl)]
      rfl
    | cons c t =>
      have hc := ht c (by simp)
      have e : lineComment D (n + 1) (StR (some x :: txt (c :: t) (some nl :: k)) d) =
          lineComment D n (StR (some c :: txt t (some nl :: k)) d) := by
        rw [lineComment]
        simp only [M.bind_def, txt, List.map_cons, List.cons_append, H.nextSome]
        rw [if_neg (by simpa using hc)]
        simp only [M.bind_def, H.eofR, Bool.false_eq_true, if_false]
      rw [e]
      exact ih c t fun y hy => ht y (by simp [hy])

theorem ZCfg.lineOpen (H : ZCfg C D) (n : Nat) (x : Nat) (t : List Nat) (ht : Line t) :
    (lineComment D n (StR (some x :: t.map some) d)).1 = .error .fuel := by
  induction n generalizing x t with
  | zero => rfl
  | succ n ih =>
    cases t with
    | nil =>
      rw [lineComment]
      simp only [M.bind_def, List.map_nil]
      rw [H.nextR (l := [some x]) Ok.nil]
      simp only
      rw [if_neg (show ¬ (hd ([some x] : List (Option Nat)).tail == 0x0A || hd ([some x] : List (Option Nat)).tail == 0x0D) = true by simp [hd])]
      simp only [M.bind_def, H.eofR, Bool.false_eq_true, if_false]
      exact H.lineFuel n
    | cons c t =>
      have hc := ht c (by simp)
      rw [lineComment]
      simp only [M.bind_def, List.map_cons, H.nextSome]
      rw [if_neg (by simpa using hc)]
      simp only [M.bind_def, H.eofR, Bool.false_eq_true, if_false]
      exact ih c t fun y hy => ht y (by simp [hy])

theorem ZCfg.blockR (H : ZCfg C D) (n : Nat) (x : Nat) (t : List Nat) (ht : BlockBody t) (ho : Ok k) :
    (blockComment D n (StR (some x :: txt t k) d)).1 = .error .fuel ∨
      blockComment D n (StR (some x :: txt t k) d) = (.ok (), StR k d) := by
  induction ht generalizing n x with
  | close =>
    cases n with
    | zero => exact Or.inl rfl
    | succ n =>
      right
      rw [blockComment]
      simp only [M.bind_def, txt, List.map_cons, List.map_nil, List.cons_append, List.nil_append, H.nextSome]
      rw [if_pos (by decide)]
      simp only [M.bind_def, H.nextSome]
      rw [if_pos (by decide)]
      simp only [M.bind_def]
      rw [H.nextR (l := some 47 :: k) ho]
      rfl
  | @other c t hc ht ih =>
    cases n with
    | zero => exact Or.inl rfl
    | succ n =>
      have e : blockComment D (n + 1) (StR (some x :: txt (c :: t) k) d) = blockComment D n (StR (some c :: txt t k) d) := by
        rw [blockComment]
        simp only [M.bind_def, txt, List.map_cons, List.cons_append, H.nextSome]
        rw [if_neg (by simpa using hc)]
        simp only [M.bind_def, H.eofR, Bool.false_eq_true, if_false]
      rw [e]
      exact ih n c
  | @star c t hc ht ih =>
    cases n with
    | zero => exact Or.inl rfl
    | succ n =>
      have e : blockComment D (n + 1) (StR (some x :: txt (0x2A :: c :: t) k) d) = blockComment D n (StR (some c :: txt t k) d) := by
        rw [blockComment]
        simp only [M.bind_def, txt, List.map_cons, List.cons_append, H.nextSome]
        rw [if_pos (by decide)]
        simp only [M.bind_def, H.nextSome]
        rw [if_neg (by simpa using hc)]
        simp only [M.bind_def, H.eofR, Bool.false_eq_true, if_false]
      rw [e]
      exact ih n c

theorem M.bind_fuel {S β : Type} {p : L S F α} {f : α → L S F β} {s : Lex S F} (h : (p s).1 = .error .fuel) :
    ((p >>= f) s).1 = .error .fuel := by
  rw [M.bind_def]
  rcases hp : p s with ⟨_ | _, s'⟩
  · rw [hp] at h; simpa using h
  · rw [hp] at h; simp at h

theorem ZCfg.spacesOpen (H : ZCfg C D) (n : Nat) (g t : List Nat) (hg : Gap g) (ht : Line t) :
    (skipSpaces D n (StR (txt g (some 0x2F :: some 0x2F :: t.map some)) d)).1 = .error .fuel := by
  induction n generalizing g with
  | zero => rfl
  | succ n ih =>
    obtain ⟨bs, g', rfl, h1, h2⟩ := gap_split hg
    rw [skipSpaces, txt_append]
    have hh : ∃ l, txt g' (some 0x2F :: some 0x2F :: t.map some) = some 0x2F :: l := by
      rcases h2 with rfl | ⟨t, nl, g2, rfl, _⟩ | ⟨t, g2, rfl, _⟩ <;> exact ⟨_, rfl⟩
    obtain ⟨l, hl⟩ := hh
    rcases H.blanksR D.bound bs h1 (k := txt g' (some 0x2F :: some 0x2F :: t.map some)) (d := d)
      (by rw [hl]; exact Ok.cons _ _) (by rw [hl]; simp [hd, IsBlank]) with hb | hb
    · exact M.bind_fuel hb
    rw [M.bind_def, hb]
    simp only [M.bind_def, cur, M.gets]
    have hc : (StR (txt g' (some 0x2F :: some 0x2F :: t.map some)) d).cur = 0x2F := by rw [hl]; rfl
    rw [hc, if_pos (by decide)]
    rcases h2 with rfl | ⟨t', nl, g2, rfl, ht', hnl, hg2⟩ | ⟨t', g2, rfl, ht', hg2⟩
    · simp only [txt, List.map_nil, List.nil_append, M.bind_def, H.nextSome]
      rw [if_pos (by decide)]
      exact M.bind_fuel (H.lineOpen _ _ _ ht)
    · simp only [List.cons_append, txt_cons, txt_append, M.bind_def, H.nextSome]
      rw [if_pos (by decide)]
      rcases H.lineR D.bound 0x2F t' nl ht' hnl (k := txt g2 (some 0x2F :: some 0x2F :: t.map some)) (d := d) with hb | hb
      · exact M.bind_fuel hb
      · rw [M.bind_def, hb]
        simp only
        rw [if_pos trivial]
        exact ih (nl :: g2) (.blank (by rcases hnl with rfl | rfl <;> simp [IsBlank]) hg2)
    · simp only [List.cons_append, txt_cons, txt_append, M.bind_def, H.nextSome]
      rw [if_neg (by decide), if_pos (by decide)]
      have ho : Ok (txt g2 (some 0x2F :: some 0x2F :: t.map some)) := (Ok.cons _ _).txt _
      rcases H.blockR D.bound 0x2A t' ht' ho (d := d) with hb | hb
      · exact M.bind_fuel hb
      · rw [M.bind_def, hb]
        exact ih g2 hg2

/-- Behind a complete value an open line comment is never left. -/
theorem ZCfg.bodyOpen (H : ZCfg C D) (HC : Canon C) (hst : Sticky C.enc) {n m : Nat} (hnm : n ≤ m) (c : Value F)
    {g t g' q : List Nat} {v : Value F} (hg : Gap g) (hg' : Gap g') (hq : Line q)
    (hv : Val C.dialect t (look (txt g' (some 0x2F :: some 0x2F :: q.map some))) v)
    (hb : g.length + t.length + (g'.length + q.length + 2) + 1 ≤ C.bound) (hn : 2 * t.length + 1 ≤ n) :
    (parseBody D m c (StR (txt g (txt t (txt g' (some 0x2F :: some 0x2F :: q.map some)))) d)).1 = .error .fuel := by
  obtain ⟨n, rfl⟩ : ∃ k, n = k + 1 := ⟨n - 1, by omega⟩
  have hlen : (txt g' (some 0x2F :: some 0x2F :: q.map some)).length = g'.length + q.length + 2 := by
    rw [txt_length]; simp; omega
  obtain ⟨a, l1, d1, h1, h2, h3⟩ := (parser_complete HC hst (n + 1)).1 t _ v hv g
    (txt g' (some 0x2F :: some 0x2F :: q.map some)) d hg ((Ok.cons _ _).txt _) rfl (by rw [hlen]; omega) hn
  obtain ⟨d2, h4⟩ := h3 c
  have hl : doParse C (n + 1) c none (At (txt g (txt t (txt g' (some 0x2F :: some 0x2F :: q.map some)))) d) =
      (.ok (), At (txt g' (some 0x2F :: some 0x2F :: q.map some)) d2, v) := by
    rw [doParse_none, h1]
    exact h4
  have hs := ((parser_sim (H.parserSim (text := txt g (txt t (txt g' (some 0x2F :: some 0x2F :: q.map some))))) (n + 1) m hnm).1
    c none _ _ (zlex_iff.mpr ⟨_, d, List.suffix_refl _, rfl, rfl⟩))
  rw [hl] at hs
  unfold parseBody
  revert hs
  intro hs
  refine hs.elim ?_ ?_ ?_ ?_
  · intro s v' hr; simp at hr
  · intro _ t' v' hq'; rw [hq']
  · intro e s t' v' hr; simp at hr
  · intro s t' v' hr hq' hlex
    rw [hq']
    simp only [Prod.mk.injEq] at hr
    obtain ⟨_, rfl, rfl⟩ := hr
    obtain ⟨l, d', _, he1, he2⟩ := zlex_iff.mp hlex
    have hll : StR l d' = StR (txt g' (some 0x2F :: some 0x2F :: q.map some)) d' := by
      have e1 := congrArg (fun s => s.is.rest) he1
      have e2 := congrArg Lex.cur he1
      simp only [At] at e1 e2
      simp only [StR, e1, e2]
    rw [hll] at he2
    subst he2
    have hsc : (Lexer.scan D (StR (txt g' (some 0x2F :: some 0x2F :: q.map some)) d')).1 = .error .fuel := by
      unfold Lexer.scan
      exact M.bind_fuel (H.spacesOpen _ g' q hg' hq)
    simp only
    rcases hx : Lexer.scan D (StR (txt g' (some 0x2F :: some 0x2F :: q.map some)) d') with ⟨e | _, s⟩
    · rw [hx] at hsc; simpa using hsc
    · rw [hx] at hsc; simp at hsc

end Configor

namespace Configor
open Lexer Spec

/-- Parsing from a stream that goes on with NULs does not end if the text ends in a line comment
behind a complete value. -/
theorem feed_hangs {F σ : Type} {A : ParseArgs F} {B : SBuf σ} {R : σ → List Int → Prop} (V : Feed B R) {b : σ} {l : List Int}
    (hb : R b l) (hA : A.Usual) (h : Option Handler) (c : Value F) {g t g' q : List Nat} {v : Value F}
    (hi : items (A.se.step A.sw) l = (g ++ t ++ (g' ++ 0x2F :: 0x2F :: q)).map some)
    (hg : Gap g) (hg' : Gap g') (hq : Line q) (hv : Val A.dialect t (g' ++ 0x2F :: 0x2F :: q).head? v) :
    Hangs (fun m => parseFrom A B m h c b) := by
  intro m0
  refine Classical.byContradiction fun hne => ?_
  simp only at hne
  let N := 2 * t.length + (g.length + t.length + (g'.length + q.length + 2) + 1) + 1
  have hm : m0 ≤ max m0 N := by omega
  have hN : N ≤ max m0 N := by omega
  generalize max m0 N = m at hm hN
  have h1 := parseFrom_mono hm h c hne
  have hne' : (parseFrom A B m h c b).1 ≠ .error .fuel := by rw [h1]; exact hne
  have Z : ZCfg (A.canon N) (A.zcfg m) := ⟨rfl, rfl, rfl, rfl, rfl, rfl, hN⟩
  have hl : (∀ x ∈ items (A.se.step A.sw) l, x ≠ none) ∨ Safe l := Or.inl (by
    rw [hi]; intro x hx; obtain ⟨a, _, rfl⟩ := List.mem_map.mp hx; simp)
  have hst : LexSim (fun _ => ZSt R (A.se.step A.sw)) (Lex.init (.ofBuf b) (A.fo.ofInt 0))
      (Lex.init (items (A.se.step A.sw) l, false) (A.fo.ofInt 0)) :=
    ⟨⟨rfl, rfl, rfl, l, hb, rfl, hl⟩, rfl, rfl, rfl, rfl, rfl⟩
  have H1 : CfgSim (A.cfg B m) (A.zcfg m) (ZSt R (A.se.step A.sw)) :=
    ⟨z_src V, rfl, rfl, rfl, rfl, Nat.le_refl _⟩
  have hs := parse_sim H1 (Nat.le_refl m) h c hst hne'
  apply hne'
  refine hs.1.trans ?_
  have e : items (A.se.step A.sw) l = txt g (txt t (txt g' (some 0x2F :: some 0x2F :: q.map some))) := by
    rw [hi]; simp [txt]
  have ho : Ok (items (A.se.step A.sw) l) := by
    rw [e]; exact (((Ok.cons _ _).txt _).txt _).txt _
  have e2 : readNext (A.zcfg m) (Lex.init (items (A.se.step A.sw) l, false) (A.fo.ofInt 0)) =
      (.ok (hd (items (A.se.step A.sw) l)), StR (items (A.se.step A.sw) l) (data0 A)) := by
    rcases ho.cases with h0 | ⟨c, k, h0⟩ <;> rw [h0] <;> rfl
  unfold Configor.parse
  rw [e2]
  simp only
  apply handled_fuel
  rw [e]
  refine Z.bodyOpen (canon_canon hA N) (A.te.sticky A.tw) hN c hg hg' hq (v := v) ?_ ?_ ?_
  · have : look (txt g' (some 0x2F :: some 0x2F :: q.map some)) = (g' ++ 0x2F :: 0x2F :: q).head? := by
      cases g' <;> rfl
    rw [this]
    exact hv
  · show _ ≤ N; omega
  · omega

/-! ## White space in front of a value -/

theorem skipWs_view {σ : Type} {B : SBuf σ} {R : σ → List Int → Prop} (V : View B R) (sp : Int → Bool) (n : Nat)
    (u : Int) (us : List Int) (b : σ) (hb : R b (u :: us)) (hn : us.length + 3 ≤ n) :
    ∃ b', skipWs B sp n u b = .ok (some (((u :: us).dropWhile sp).headD (-1)), b') ∧
      ((u :: us).dropWhile sp ≠ [] → R b' ((u :: us).dropWhile sp)) := by
  induction us generalizing u b n with
  | nil =>
    obtain ⟨n, rfl⟩ : ∃ k, n = k + 2 := ⟨n - 2, by simp at hn; omega⟩
    obtain ⟨h0, _, _, h1, h2⟩ := V.cons hb
    by_cases hu : sp u = true
    · have h3 := V.nil h2
      rw [skipWs, if_pos (by simp [h0, hu])]
      simp only [h1, if_neg h0, h3.1, V.calm hb, V.calm h2, Bool.false_eq_true, if_false]
      rw [skipWs, if_neg (by simp)]
      exact ⟨_, by rw [List.dropWhile_cons_of_pos hu]; rfl, by rw [List.dropWhile_cons_of_pos hu]; simp⟩
    · rw [skipWs, if_neg (by simp [hu])]
      exact ⟨_, by rw [List.dropWhile_cons_of_neg hu]; rfl, by rw [List.dropWhile_cons_of_neg hu]; intro _; exact hb⟩
  | cons x xs ih =>
    obtain ⟨n, rfl⟩ : ∃ k, n = k + 1 := ⟨n - 1, by simp at hn; omega⟩
    obtain ⟨h0, _, _, h1, h2⟩ := V.cons hb
    by_cases hu : sp u = true
    · obtain ⟨h3, h4, h5, _, _⟩ := V.cons h2
      rw [skipWs, if_pos (by simp [h0, hu])]
      simp only [h1, if_neg h0, h4, V.calm hb, V.calm h2, Bool.false_eq_true, if_false]
      rw [List.dropWhile_cons_of_pos hu]
      exact ih n x _ h5 (by simp at hn; omega)
    · rw [skipWs, if_neg (by simp [hu])]
      exact ⟨_, by rw [List.dropWhile_cons_of_neg hu]; rfl, by rw [List.dropWhile_cons_of_neg hu]; intro _; exact hb⟩

theorem sentry_view {σ : Type} {B : SBuf σ} {R : σ → List Int → Prop} (V : View B R) (sp : Int → Bool) (n : Nat)
    (l : List Int) (s : IStream σ) (hs : s.good = true) (hb : R s.sb l) (hn : l.length + 2 ≤ n) :
    (l.dropWhile sp = [] → ∃ b', sentry B sp n s = .ok (false, ⟨b', true, true⟩)) ∧
    (l.dropWhile sp ≠ [] → ∃ b', sentry B sp n s = .ok (true, { s with sb := b' }) ∧ R b' (l.dropWhile sp)) := by
  unfold sentry
  rw [if_pos hs]
  cases l with
  | nil =>
    refine ⟨fun _ => ?_, fun h => absurd rfl h⟩
    obtain ⟨n, rfl⟩ : ∃ k, n = k + 1 := ⟨n - 1, by simp at hn; omega⟩
    simp only [(V.nil hb).1, V.calm hb, Bool.false_eq_true, if_false]
    rw [skipWs, if_neg (by simp)]
    exact ⟨_, rfl⟩
  | cons u us =>
    obtain ⟨_, h1, h2, _, _⟩ := V.cons hb
    simp only [h1, V.calm hb, Bool.false_eq_true, if_false]
    obtain ⟨b', h3, h4⟩ := skipWs_view V sp n u us _ h2 (by simpa using hn)
    rw [h3]
    refine ⟨fun h => ?_, fun h => ?_⟩
    · rw [h]; exact ⟨_, rfl⟩
    · have hr := h4 h
      refine ⟨b', ?_, hr⟩
      cases hd : (u :: us).dropWhile sp with
      | nil => exact absurd hd h
      | cons x xs =>
        rw [hd] at hr
        exact if_neg (show ¬ (x :: xs).headD (-1) = -1 from (V.cons hr).1)

end Configor
