import Verif.Proofs.MessageParse
import Verif.Proofs.MessageSim
import Verif.Proofs.MessageCode
import Verif.Proofs.Document
/-! The messages of parses of strings. -/
set_option autoImplicit false
namespace Configor
open Lexer Spec

variable {F σ : Type} {A : ParseArgs F} {B : SBuf σ} {R : σ → List Int → Prop} {l : List (Option Nat)}

theorem readOn_snoc {σ : Type} {dec : IStream σ → Decoded σ} {s s' s'' : IStream σ} {q : List Nat} {cp : Nat} (h : ReadOn dec s q s')
    (hd : dec s' = (true, cp, s'')) (hg : s''.good = true) : ReadOn dec s (q ++ [cp]) s'' := by
  induction h with
  | nil => exact .more hd hg .nil
  | more h1 h2 _ ih => exact .more h1 h2 (ih hd)

/-- A stream that still delivers the code points of the canonical source, a part of `l`; it is `s0` after some reading. -/
def SayRel (A : ParseArgs F) (B : SBuf σ) (R : σ → List Int → Prop) (s0 : IStream σ) (l : List (Option Nat)) (c : CpS) (s : IStream σ) :
    Prop :=
  CanonRel R (A.se.step A.sw) s c ∧ (none ∈ c.rest → none ∈ l) ∧ (s.good = true → ∃ q, ReadOn (A.se.decode A.sw B) s0 q s)

theorem canon_rest {c : CpS} (h : none ∈ c.rest → none ∈ l) : none ∈ (canonSrc.decode c).2.2.rest → none ∈ l := by
  obtain ⟨rest, ended, dead⟩ := c
  cases ended with
  | true => exact h
  | false =>
    rcases rest with _ | ⟨_ | x, rest⟩
    · exact h
    · exact fun hm => h (List.mem_cons_of_mem _ hm)
    · exact fun hm => h (List.mem_cons_of_mem _ hm)

/-- `c` is what the decoder gives for the malformed character of `l`. -/
def Given (A : ParseArgs F) (B : SBuf σ) (R : σ → List Int → Prop) (s0 : IStream σ) (l : List (Option Nat)) (c : Nat) : Prop :=
  none ∈ l ∧ ∃ b u r, R b u ∧ items (A.se.step A.sw) u = none :: r ∧ c = (A.se.decode A.sw B ⟨b, false, false⟩).2.1 ∧
    ∃ q, ReadOn (A.se.decode A.sw B) s0 q ⟨b, false, false⟩

theorem say_sim (V : View B R) (s0 : IStream σ) (n : Nat) :
    SaySim (A.canon n) (A.cfg B n) (SayRel A B R s0 l) (Given A B R s0 l) where
  src := by
    have H : SrcSim (A.canon n).src (A.cfg B n).src (fun c s => CanonRel R (A.se.step A.sw) s c) := (canon_src V).symm
    have Fo := A.se.follows A.sw V
    refine ⟨fun h => H.eof h.1, fun h => H.flag h.1, fun h hf => H.good h.1 hf,
      fun {a b} h hf hg => ⟨(H.cp h.1 hf hg).1, (H.cp h.1 hf hg).2, canon_rest h.2.1, fun hgd => ?_⟩,
      fun {a b} h hf => ⟨H.fin h.1 hf, canon_rest h.2.1, fun hgd => ?_⟩⟩
    · have hfl : (A.se.decode A.sw B b).1 = true := (H.flag h.1).symm.trans hf
      have hb : b.good = true := by
        rcases h.1 with ⟨he, _⟩ | ⟨he, hb, _⟩
        · rw [(Fo.eof he).1] at hfl; cases hfl
        · unfold IStream.good; rw [he, hb]; rfl
      obtain ⟨q, hq⟩ := h.2.2 hb
      exact ⟨_, readOn_snoc hq (cp := (A.se.decode A.sw B b).2.1) (Prod.ext hfl rfl) hgd⟩
    · have hc := H.fin h.1 hf
      have he : (canonSrc.decode a).2.2.ended = true := by
        obtain ⟨rest, ended, dead⟩ := a
        cases ended with
        | true => rfl
        | false =>
          rcases rest with _ | ⟨_ | x, rest⟩
          · rfl
          · cases hf
          · cases hf
      rcases hc with ⟨hs, _⟩ | ⟨_, _, hne, _⟩
      · have : ((A.cfg B n).src.decode b).2.2.good = true := hgd
        rw [notgood_of_eof hs] at this
        cases this
      · have : (canonSrc.decode a).2.2.ended = false := hne
        rw [he] at this
        cases this
  bad := by
    rintro ⟨rest, ended, dead⟩ b ⟨hR, hl, hon⟩ hf hg
    rcases hR with ⟨_, h⟩ | ⟨he, hb, h1, h2, u, hu, hr⟩
    · simp only at h
      subst h
      simp [ParseArgs.canon, canonSrc] at hf
    · simp only at h1 h2 hr
      subst h1 h2
      rcases rest with _ | ⟨_ | x, rest⟩
      · simp [ParseArgs.canon, canonSrc] at hf
      · refine ⟨hl (.head _), b.sb, u, rest, hu, hr.symm, ?_⟩
        obtain ⟨sb, eb, fb⟩ := b
        simp only at he hb
        subst he hb
        exact ⟨rfl, hon rfl⟩
      · simp [ParseArgs.canon, canonSrc] at hg
  enc := rfl
  w := rfl
  debug := rfl
  fo := rfl
  bound := rfl

theorem says_items (hA : A.Usual) (c : Value F) {n : Nat} (hn : 2 * l.length + 1 ≤ n) :
    PErrs (fun m => Says A.dialect l m ∨ Trailing A.dialect l m)
      (Msg.parse (A.canon n) n c (Lex.init ⟨l, false, false⟩ (A.fo.ofInt 0))) := by
  unfold Msg.parse
  have body := fun ho : Ok l => says_parseBody (canon_canon hA n) (d := data0 A) ho (show l.length + 1 ≤ n by omega) hn c
  rcases l with _ | ⟨_ | x, l⟩
  · exact body Ok.nil
  · intro e msg h
    cases h
    exact ⟨_, rfl, Or.inl (.malformed (.head _) (shown_hexText _ _))⟩
  · exact body (Ok.cons _ _)

/-- What the exception of a parse of a string says. -/
theorem says_string (hA : A.Usual) (c : Value F) (str : List Nat) {n : Nat} (hn : 2 * str.length + 1 ≤ n) :
    PErrs (fun m => Says A.dialect (itemsOf A.se A.sw str) m ∨ Trailing A.dialect (itemsOf A.se A.sw str) m)
      (Msg.parse (A.cfg (strSBuf A.sw) n) n c (Lex.init (.ofBuf (.ofString str)) (A.fo.ofInt 0))) := by
  have hl := itemsOf_length A.se A.sw str
  have h0 := says_items (l := itemsOf A.se A.sw str) hA c (n := n) (by omega)
  obtain ⟨R, V, hR⟩ := str_view_start A.sw str
  have hsim := parse_says (say_sim (A := A) (l := itemsOf A.se A.sw str) V (onString str) n) n c
    (s := Lex.init ⟨itemsOf A.se A.sw str, false, false⟩ (A.fo.ofInt 0)) (t := Lex.init (.ofBuf (.ofString str)) (A.fo.ofInt 0))
    ⟨⟨Or.inr ⟨rfl, rfl, rfl, rfl, unitsOf A.sw str, hR, rfl⟩, id, fun _ => ⟨[], .nil⟩⟩, rfl, rfl, rfl, rfl, rfl⟩
  intro e msg he
  rcases hsim with ⟨e', m, m', s, t, v, v', hr, hq, hm⟩ | ⟨s, t, v, hr, hq, _⟩
  · rw [hq] at he
    cases he
    rcases hm with ⟨rfl, _⟩ | ⟨cp, hbad, rfl⟩
    · exact h0 e m (by rw [hr])
    · exact ⟨_, rfl, Or.inl (.malformed hbad.1 (shown_hexText _ _))⟩
  · rw [hq] at he
    cases he

theorem strAt_items {w : Nat} {str : List Nat} (hc : NoEof w str) (e : Enc) (k : Nat) :
    items (e.step w) (ints (str.drop k)) = itemsOf e w (str.drop k) := by
  unfold itemsOf
  have h : unitsOf w (str.drop k) = ints (str.drop k) := by
    unfold unitsOf ints
    have : ∀ l : List Nat, (∀ u ∈ l, w = 8 ∨ u ≠ 2 ^ w - 1) →
        (l.map (toIntType w)).takeWhile (fun x : Int => decide (x ≠ -1)) = l.map fun u : Nat => (u : Int) := by
      intro l hl
      induction l with
      | nil => rfl
      | cons x l ih =>
        rw [List.map_cons, toIntType_noEof (hl x (.head _)), List.takeWhile_cons, if_pos (by simp),
          ih fun u hu => hl u (.tail _ hu)]
        rfl
    exact this _ fun u hu => hc u (List.mem_of_mem_drop hu)
  rw [h]

theorem takeWhile_all {p : Nat → Bool} {l r : List Nat} (h : ∀ x ∈ l, p x = true) :
    (l ++ r).takeWhile p = l ++ r.takeWhile p := by
  induction l with
  | nil => rfl
  | cons x l ih =>
    rw [List.cons_append, List.takeWhile_cons, if_pos (h x (.head _)), ih fun y hy => h y (.tail _ hy)]
    rfl

theorem whatOf_text (i : List Nat) : whatOf (deserializationText i) = deserializationText (whatOf i) :=
  takeWhile_all (by decide)

theorem _root_.Spec.UpperHex.nonzero {ds : List Nat} {v : Nat} (h : UpperHex ds v) : ∀ d ∈ ds, d ≠ 0 := by
  induction h with
  | nil => intro d hd; cases hd
  | digit _ hc ih | letter _ hc ih =>
    intro d hd
    rcases List.mem_append.1 hd with hd | hd
    · exact ih d hd
    · rw [List.mem_singleton.1 hd]; omega

theorem whatOf_shown {t m : List Nat} {c : Nat} (h : Shown t c m) (ht : ∀ x ∈ t, x ≠ 0) : whatOf m = m := by
  obtain ⟨x, ⟨ds, rfl, hd, _⟩, rfl⟩ := h
  unfold whatOf
  have := takeWhile_all (p := fun x => decide (x ≠ 0)) (l := t ++ text! " '" ++ (text! "\\u" ++ ds) ++ text! "'") (r := []) ?_
  · simpa using this
  · intro y hy
    simp only [List.mem_append, decide_eq_true_eq] at hy ⊢
    rcases hy with ((hy | hy) | hy | hy) | hy
    · exact ht y hy
    · revert y; decide
    · revert y; decide
    · exact hd.nonzero y hy
    · revert y; decide

/-- The code that the exception of a parse of a string shows for a malformed character. -/
theorem code_string (c : Value F) {str : List Nat} (hc : NoEof A.sw str) (n : Nat) {e : Err} {msg : List Nat} {i : List Nat}
    (h : (Msg.parse (A.cfg (strSBuf A.sw) n) n c (Lex.init (.ofBuf (.ofString str)) (A.fo.ofInt 0))).1 = .error (.exn e, msg))
    (hm : whatOf msg = deserializationText i) (hi : i.head? = some 0x64) :
    ∃ q k, ReadOn (A.se.decode A.sw (strSBuf A.sw)) (onString str) q (readUpTo str k) ∧
      Delivers (A.se.decode A.sw (strSBuf A.sw)) (readUpTo str k) [none] ∧
      Shown (text! "decoding failed with codepoint") (malformedCode A.se (str.drop k)) i := by
  have V := strAtView A.sw hc
  have hs : itemsOf A.se A.sw str = items (A.se.step A.sw) (ints str) := (strAt_items hc A.se 0).symm
  have hsim := parse_says (say_sim (A := A) (l := itemsOf A.se A.sw str) V (onString str) n) n c
    (s := Lex.init ⟨itemsOf A.se A.sw str, false, false⟩ (A.fo.ofInt 0)) (t := Lex.init (.ofBuf (.ofString str)) (A.fo.ofInt 0))
    ⟨⟨Or.inr ⟨rfl, rfl, rfl, rfl, ints str, ⟨rfl, Nat.zero_le _, rfl⟩, hs⟩, id, fun _ => ⟨[], .nil⟩⟩, rfl, rfl, rfl, rfl, rfl⟩
  rcases hsim with ⟨e', m, m', s, t, v, v', hr, hq, hmm⟩ | ⟨s, t, v, hr, hq, _⟩
  · rw [hq] at h
    cases h
    rcases hmm with ⟨rfl, ho | ⟨j, hj, hd⟩⟩ | ⟨cp, hbad, hx⟩
    · rw [ho] at hm; cases hm
    · rw [hj, whatOf_text] at hm
      rw [← List.append_cancel_left hm] at hi
      refine absurd ?_ hd
      cases j with
      | nil => cases hi
      | cons x j =>
        unfold whatOf at hi
        rw [List.takeWhile_cons] at hi
        split at hi
        · exact hi
        · cases hi
    · obtain ⟨_, b, u, r, ⟨hb1, hb2, hu⟩, hit, rfl, q, hread⟩ := hbad
      subst hu
      rw [hx, whatOf_text, whatOf_shown (shown_hexText _ _) (by decide)] at hm
      obtain ⟨rest, hst⟩ := items_none hit
      have hR : StrAt str b (ints (str.drop b.idx)) := ⟨hb1, hb2, rfl⟩
      have hbb : (⟨b, false, false⟩ : IStream StrBuf) = readUpTo str b.idx := by
        obtain ⟨x, y⟩ := b
        simp only at hb1
        subst hb1
        rfl
      have hbad := (A.se.follows A.sw V).bad hR hst
      rw [← List.append_cancel_left hm, A.se.bad_code A.sw V hR hst]
      rw [hbb] at hread hbad
      exact ⟨q, b.idx, hread, .bad hbad.1 hbad.2, shown_hexText _ _⟩
  · rw [hq] at h
    cases h

/-- Nothing in an object is reached in an input without `{`. -/
theorem _root_.Spec.Reached.brace {D : Dialect F} {p : Place} {k : List (Option Nat)} (h : Reached D l p k)
    (hp : p = .key ∨ p = .colon ∨ p = .member ∨ p = .memberEnd) : some 0x7B ∈ l := by
  induction h with
  | obj h _ hn _ =>
    obtain ⟨q, hq⟩ := h.mem
    obtain ⟨g, _, hg, _⟩ := hn
    rw [hq, hg]
    simp
  | key _ _ ih => exact ih (by simp)
  | colon _ _ ih => exact ih (by simp)
  | member _ _ ih => exact ih (by simp)
  | memberComma _ _ ih => exact ih (by simp)
  | _ => simp at hp

theorem tokenWrong_ne {D : Dialect F} {s : Prop} {k : List (Option Nat)} {m : List Nat} (h : TokenWrong D s k m) :
    m ≠ text! "unexpected token 'end_of_input'" := by
  have sh : ∀ {i : List Nat} {c : Nat}, Shown i c m → i.take 12 ≠ text! "unexpected t" → 12 ≤ i.length →
      m ≠ text! "unexpected token 'end_of_input'" := by
    rintro i c ⟨x, _, rfl⟩ hi hl he
    refine hi ?_
    have := congrArg (List.take 12) he
    rw [List.append_assoc, List.append_assoc, List.take_append_of_le_length hl] at this
    rw [this]
    rfl
  cases h with
  | character _ _ _ h => exact sh h (by decide) (by decide)
  | slash => decide
  | comment => decide
  | keyword => intro he; cases he
  | zeroExponent => decide
  | fraction _ _ _ _ _ h => exact sh h (by decide) (by decide)
  | exponent _ _ _ _ _ _ _ h => exact sh h (by decide) (by decide)
  | store _ _ _ _ _ _ _ h => exact sh h (by decide) (by decide)
  | string _ _ _ _ _ h =>
    cases h with
    | eof => decide
    | control _ h => exact sh h (by decide) (by decide)
    | escape _ _ h => exact sh h (by decide) (by decide)
    | hex _ _ _ _ h => exact sh h (by decide) (by decide)
    | lead _ _ _ _ h => exact sh h (by decide) (by decide)
    | lead' _ _ _ _ h => exact sh h (by decide) (by decide)
    | leadHex _ _ _ _ _ _ h => exact sh h (by decide) (by decide)
    | trail _ _ _ _ h => exact sh h (by decide) (by decide)

/-- Only an empty input has the end of the input as a token that does not fit, if there are no objects in it. -/
theorem says_end {D : Dialect F} (hb : some 0x7B ∉ l) (h : Says D l (text! "unexpected token 'end_of_input'")) :
    Found D l (text! "end_of_input") := by
  generalize hm : text! "unexpected token 'end_of_input'" = m at h
  cases h with
  | malformed _ h =>
    obtain ⟨x, _, rfl⟩ := h
    cases hm
  | token _ h => exact absurd hm.symm (tokenWrong_ne h)
  | @place p k name h hf hn =>
    have nm : ∀ q : List Nat, q ++ text! " '" ++ name ++ text! "'" = text! "unexpected token 'end_of_input'" →
        q = text! "unexpected token" → name = text! "end_of_input" := by
      rintro q h rfl
      have h' : text! "unexpected token '" ++ (name ++ text! "'") = text! "unexpected token '" ++ (text! "end_of_input" ++ text! "'") := by
        rw [← List.append_assoc]; exact h
      exact List.append_cancel_right (List.append_cancel_left h')
    cases p with
    | start =>
      rw [nm _ hm.symm rfl] at hf
      cases h
      exact hf
    | done => exact absurd (by rw [nm _ hm.symm rfl]; exact .head _) hn
    | member => exact absurd (h.brace (by simp)) hb
    | elem => cases hm
    | elemEnd => cases hm
    | key => cases hm
    | colon => cases hm
    | memberEnd => cases hm

theorem found_end {D : Dialect F} {k : List (Option Nat)} (h : Found D k (text! "end_of_input")) :
    ∃ t k', k = t.map some ++ k' ∧ Finish t k' := by
  generalize hn : text! "end_of_input" = name at h
  cases h with
  | punct h _ =>
    subst hn
    simp [punctuation] at h
  | keyword h =>
    subst hn
    simp [keywords] at h
  | string => cases hn
  | integer => cases hn
  | float => cases hn
  | ending h h' => exact ⟨_, _, h, h'⟩

theorem gap_first {g : List Nat} (h : Gap g) {c : Nat} {r : List Nat} (hc : g = c :: r) : IsBlank c ∨ c = 0x2F := by
  cases h with
  | nil => cases hc
  | blank h _ => cases hc; exact Or.inl h
  | line => cases hc; exact Or.inr rfl
  | block => cases hc; exact Or.inr rfl

theorem finish_first {D : Dialect F} {c : Nat} {r : List (Option Nat)} (h : Found D (some c :: r) (text! "end_of_input")) :
    IsBlank c ∨ c = 0x2F ∨ c = 0 := by
  obtain ⟨t, k', ht, hf⟩ := found_end h
  cases t with
  | nil =>
    generalize hn : ([] : List Nat) = t0 at hf
    cases hf with
    | eof => cases ht
    | eofInLine => simp at hn
    | nul => cases ht; exact Or.inr (Or.inr rfl)
  | cons x t =>
    cases ht
    generalize hn : c :: t = t0 at hf
    cases hf with
    | eof hg => exact (gap_first hg hn.symm).imp_right Or.inl
    | nul hg => exact (gap_first hg hn.symm).imp_right Or.inl
    | @eofInLine g t' hg _ =>
      cases g with
      | nil => cases hn; exact Or.inr (Or.inl rfl)
      | cons y g => cases hn; exact (gap_first hg rfl).imp_right Or.inl

/-- The first `read_next` of a parse of a string throws if and only if the first character is malformed. -/
theorem first_read (A : ParseArgs F) (str : List Nat) (n : Nat) :
    (∃ m s, Msg.readNext (A.cfg (strSBuf A.sw) n) (Lex.init (.ofBuf (.ofString str)) (A.fo.ofInt 0)) = (.error m, s)) ↔
      (itemsOf A.se A.sw str).head? = some none := by
  obtain ⟨R, V, hR⟩ := str_view_start A.sw str
  have h := SimM.readNext (say_sim (A := A) (l := itemsOf A.se A.sw str) V (onString str) n)
    (Lex.init ⟨itemsOf A.se A.sw str, false, false⟩ (A.fo.ofInt 0)) (Lex.init (.ofBuf (.ofString str)) (A.fo.ofInt 0))
    ⟨⟨Or.inr ⟨rfl, rfl, rfl, rfl, unitsOf A.sw str, hR, rfl⟩, id, fun _ => ⟨[], .nil⟩⟩, rfl, rfl, rfl, rfl, rfl⟩
  revert h
  rcases itemsOf A.se A.sw str with _ | ⟨_ | x, l⟩
  all_goals
    rintro (⟨e, m, m', s, t, hr, hq, _⟩ | ⟨a, s, t, hr, hq, _⟩)
    · cases hr <;> simp [hq]
    · cases hr <;> simp [hq]

end Configor
