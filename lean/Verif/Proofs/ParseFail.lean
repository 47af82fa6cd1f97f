import Verif.Proofs.Document
/-! How the parser fails: errors of a value reach the caller from any depth. -/
namespace Configor
open Lexer Spec

variable {F α β : Type} {C : Cfg CpS F} {l k : List (Option Nat)} {d : Data F}

/-- `m` started on `l` ends with `e`. -/
def Fails (m : L CpS F α) (l : List (Option Nat)) (d : Data F) (e : Stop) : Prop :=
  ∃ s, m (At l d) = (.error e, s)

theorem Fails.left {m : L CpS F α} {f : α → L CpS F β} {e : Stop} (h : Fails m l d e) : Fails (m >>= f) l d e := by
  obtain ⟨s, h⟩ := h
  refine ⟨s, ?_⟩
  simp only [M.bind_def, h]

theorem Fails.right {m : L CpS F α} {f : α → L CpS F β} {e : Stop}
    (h : Runs m l d fun a l' d' => Fails (f a) l' d' e) : Fails (m >>= f) l d e := by
  obtain ⟨a, l', d', h1, s, h2⟩ := h
  exact ⟨s, by rw [M.bind_ok h1, h2]⟩

theorem Fails.yes {c : Prop} [Decidable c] {m m' : L CpS F α} {e : Stop}
    (hc : c) (h : Fails m l d e) : Fails (if c then m else m') l d e := by rwa [if_pos hc]

theorem Fails.no {c : Prop} [Decidable c] {m m' : L CpS F α} {e : Stop}
    (hc : ¬ c) (h : Fails m' l d e) : Fails (if c then m else m') l d e := by rwa [if_neg hc]

theorem Fails.fail : Fails (Lexer.fail : L CpS F α) l d (.exn .deserialization) := ⟨_, rfl⟩

theorem Fails.stop {e : Stop} : Fails (M.stop e : L CpS F α) l d e := ⟨_, rfl⟩

/-- `read_next` onto a malformed character. -/
theorem Fails.next (H : Canon C) (x : Option Nat) (r : List (Option Nat)) :
    Fails (Lexer.readNext C) (x :: none :: r) d (.exn .deserialization) := by
  unfold Fails Lexer.readNext
  rw [H.src]
  exact ⟨_, rfl⟩

/-- Parsing a value on `l` ends with `e`. -/
def Stuck (C : Cfg CpS F) (l : List (Option Nat)) (e : Stop) : Prop :=
  ∀ n c d, 2 * l.length + 2 ≤ n → ∃ s v, doParse C n c none (At l d) = (.error e, s, v)

theorem stuck_scan {e : Stop} (h : ∀ d, Fails (scan C) l d e) : Stuck C l e := by
  intro n c d hn
  obtain ⟨n, rfl⟩ : ∃ m, n = m + 1 := ⟨n - 1, by omega⟩
  obtain ⟨s, hs⟩ := h d
  rw [doParse_none, hs]
  exact ⟨s, c, rfl⟩

theorem stuck_string (H : Canon C) {e : Stop} {g : List Nat} (hg : Gap g)
    (hb : g.length + k.length + 2 ≤ C.bound)
    (h : ∀ d, Fails (scanString C) (some 0x22 :: k) d e) : Stuck C (txt g (some 0x22 :: k)) e := by
  intro n c d hn
  obtain ⟨n, rfl⟩ : ∃ m, n = m + 1 := ⟨n - 1, by omega⟩
  obtain ⟨_, _, d1, h1, rfl, rfl, rfl⟩ := run_scan_string (k := k) (d := d) H hg hb
  rw [doParse_none, h1]
  simp only [doParse]
  obtain ⟨s, hs⟩ := h d1
  rw [hs]
  exact ⟨_, _, rfl⟩

theorem array_open (H : Canon C) (hst : Sticky C.enc) {q : List Nat} {ys : List (Value F)} (hq : ElemsOpen C.dialect q ys)
    (ho : Ok k) : ∀ (n : Nat) (xs : List (Value F)) (d : Data F), q.length + k.length + 1 ≤ C.bound →
      2 * q.length + 1 ≤ n → ∃ n' d', n ≤ n' + q.length ∧
        parseArray C n xs (At (txt q k) d) = parseArray C n' (xs ++ ys) (At k d') := by
  induction hq with
  | nil => intro n xs d hb hn; exact ⟨n, d, by omega, by simp⟩
  | @more g t v g' u ys hg hv hg' hu ih =>
    intro n xs d hb hn
    simp only [List.length_append, List.length_cons] at hb hn
    obtain ⟨n, rfl⟩ : ∃ m, n = m + 1 := ⟨n - 1, by omega⟩
    simp only [txt_append, txt_cons]
    obtain ⟨a, l1, d1, h1, h2, h3⟩ := (parser_complete H hst n).1 t _ v hv g (txt (g' ++ [0x2C]) (txt u k)) d hg
      (Ok.txt _ (ho.txt _)) (look_txt (by simp)) (by rw [txt_length, txt_length]; simp; omega) (by omega)
    rw [txt_append] at h1 h3
    obtain ⟨d2, h4⟩ := h3 .null
    obtain ⟨_, _, d3, h5, rfl, rfl, rfl⟩ := run_scan_punct (k := txt u k) (d := d2) H .comma hg' (ho.txt _) (by rw [txt_length]; omega)
    obtain ⟨n', d4, h6, h7⟩ := ih n (xs ++ [v]) d3 (by omega) (by omega)
    simp only [txt_cons, txt_nil] at h1 h4
    refine ⟨n', d4, by simp; omega, ?_⟩
    rw [parseArray, h1]
    simp only [h2, if_true]
    rw [h4]
    simp only
    rw [h5]
    simp only [if_true]
    rw [h7]
    simp

theorem object_open (H : Canon C) (hst : Sticky C.enc) {q : List Nat} {ys : List (List Nat × Value F)}
    (hq : MembersOpen C.dialect q ys) (ho : Ok k) :
    ∀ (n : Nat) (ms : Map.T (Value F)) (d : Data F), q.length + k.length + 1 ≤ C.bound →
      2 * q.length + 1 ≤ n → ∃ n' d', n ≤ n' + q.length ∧
        parseObject C n ms (At (txt q k) d) = parseObject C n' (addAll ms ys) (At k d') := by
  induction hq with
  | nil => intro n xs d hb hn; exact ⟨n, d, by omega, by simp [addAll]⟩
  | @more g key s g1 g2 t v g' w ys hg hkey hg1 hg2 hv hg' hw ih =>
    intro n ms d hb hn
    obtain ⟨n, rfl⟩ : ∃ m, n = m + 1 := ⟨n - 1, by omega⟩
    obtain ⟨u, cps, rfl, _⟩ := id hkey
    have hlen : (g ++ 0x22 :: u ++ g1 ++ 0x3A :: g2 ++ t ++ g' ++ 0x2C :: w).length =
        g.length + u.length + g1.length + g2.length + t.length + g'.length + w.length + 3 := by simp; omega
    rw [hlen] at hb hn ⊢
    have htx : txt (g ++ 0x22 :: u ++ g1 ++ 0x3A :: g2 ++ t ++ g' ++ 0x2C :: w) k =
        txt g (some 0x22 :: txt u (txt g1 (some 0x3A :: txt g2 (txt t (txt g' (some 0x2C :: txt w k)))))) := by
      simp
    rw [htx]
    have hq : Ok (some 0x2C :: txt w k) := .cons _ _
    obtain ⟨_, _, d1, h1, rfl, rfl, rfl⟩ := run_scan_string (d := d)
      (k := txt u (txt g1 (some 0x3A :: txt g2 (txt t (txt g' (some 0x2C :: txt w k)))))) H hg
      (by simp only [txt_length, List.length_cons]; omega)
    obtain ⟨_, _, d2, h2, rfl, h3⟩ := run_scanString (d := d1)
      (k := txt g1 (some 0x3A :: txt g2 (txt t (txt g' (some 0x2C :: txt w k))))) H hst hkey
      (Ok.txt _ (.cons _ _)) (by simp; omega)
    obtain ⟨_, _, d3, h4, rfl, rfl, rfl⟩ := run_scan_punct (d := d2) (k := txt g2 (txt t (txt g' (some 0x2C :: txt w k)))) H .colon hg1
      (((hq.txt _).txt _).txt _) (by simp only [txt_length, List.length_cons]; omega)
    obtain ⟨n, rfl⟩ : ∃ m, n = m + 1 := ⟨n - 1, by omega⟩
    obtain ⟨a, l1, d4, h5, h6, h7⟩ := (parser_complete H hst (n + 1)).1 t _ v hv g2 (txt g' (some 0x2C :: txt w k)) d3 hg2 (hq.txt _)
      (by rw [show txt g' (some 0x2C :: txt w k) = txt (g' ++ [0x2C]) (txt w k) by simp]; exact look_txt (by simp)) (by simp only [txt_length, List.length_cons]; omega) (by omega)
    obtain ⟨d5, h8⟩ := h7 .null
    obtain ⟨_, _, d6, h9, rfl, rfl, rfl⟩ := run_scan_punct (k := txt w k) (d := d5) H .comma hg' (ho.txt _) (by rw [txt_length]; omega)
    obtain ⟨n', d7, h10, h11⟩ := ih (n + 1) (Map.emplace s v ms) d6 (by omega) (by omega)
    rw [txt_cons] at h2
    refine ⟨n', d7, by omega, ?_⟩
    rw [parseObject, h1]
    simp only [if_true]
    rw [h2]
    simp only
    rw [h4]
    simp only [if_true]
    rw [doParse_none, h5]
    simp only
    rw [h8]
    simp only
    rw [h9]
    simp only [if_true, At, h3] at h11 ⊢
    rw [h11]
    rfl

theorem gap_ok {g : List Nat} (c : Nat) : Ok (txt g (some c :: k)) := (Ok.cons _ _).txt _

/-- A scanner error in a value reaches the caller. -/
theorem stuck_inside (H : Canon C) (hst : Sticky C.enc) {p : List Nat} (hp : ValueDue C.dialect p) {e : Stop}
    (ho : Ok l) (hb : p.length + l.length + 1 ≤ C.bound)
    (h : ∀ g, Gap g → g.length + l.length + 1 ≤ C.bound → Stuck C (txt g l) e)
    (hv : ∀ g, Gap g → g.length + l.length + 1 ≤ C.bound → ∀ d, (Fails (scan C) (txt g l) d e) ∨
      Runs (scan C) (txt g l) d fun a _ _ => a.startsValue = true) : Stuck C (txt p l) e := by
  suffices hs : Stuck C (txt p l) e ∧ ∀ d, (Fails (scan C) (txt p l) d e) ∨
      Runs (scan C) (txt p l) d fun a _ _ => a.startsValue = true from hs.1
  induction hp with
  | here hg => exact ⟨h _ hg hb, hv _ hg hb⟩
  | @arr g q xs p hg hq hp ih =>
    simp only [List.length_append, List.length_cons] at hb
    obtain ⟨ih, ihs⟩ := ih (by omega)
    have hto : Ok (txt q (txt p l)) := Ok.txt _ (ho.txt _)
    have hsc : ∀ d, Runs (scan C) (txt g (some 0x5B :: txt q (txt p l))) d fun a l' d' =>
        a = .beginArray ∧ l' = txt q (txt p l) ∧ d' = d := fun d =>
      run_scan_punct H .beginArray hg hto (by simp only [txt_length]; omega)
    have htx : txt (g ++ 0x5B :: q ++ p) l = txt g (some 0x5B :: txt q (txt p l)) := by simp
    rw [htx]
    refine ⟨?_, fun d => Or.inr ((hsc d).imp ?_)⟩
    · intro n c d hn
      simp only [txt_length, List.length_cons] at hn
      obtain ⟨n, rfl⟩ : ∃ m, n = m + 1 := ⟨n - 1, by omega⟩
      obtain ⟨_, _, d1, h1, rfl, rfl, rfl⟩ := hsc d
      rw [doParse_none, h1]
      simp only [doParse]
      obtain ⟨n', d2, h2, h3⟩ := array_open H hst hq (ho.txt p) n [] d1 (by simp only [txt_length]; omega) (by omega)
      rw [h3]
      obtain ⟨n', rfl⟩ : ∃ m, n' = m + 1 := ⟨n' - 1, by omega⟩
      rw [parseArray]
      rcases ihs d2 with ⟨s, hs⟩ | ⟨a, l1, d3, h4, h5⟩
      · rw [hs]; exact ⟨_, _, rfl⟩
      · rw [h4]
        simp only [h5, if_true]
        obtain ⟨n', rfl⟩ : ∃ m, n' = m + 1 := ⟨n' - 1, by omega⟩
        obtain ⟨s, v, h6⟩ := ih (n' + 1) .null d2 (by simp only [txt_length]; omega)
        rw [doParse_none, h4] at h6
        simp only at h6
        rw [h6]
        exact ⟨_, _, rfl⟩
    · rintro _ _ _ ⟨rfl, _⟩; rfl
  | @obj g q ms g' key s g1 p hg hq hg' hkey hg1 hp ih =>
    obtain ⟨u, cps, rfl, _⟩ := id hkey
    simp only [List.length_append, List.length_cons] at hb
    obtain ⟨ih, ihs⟩ := ih (by omega)
    have hto : Ok (txt p l) := ho.txt _
    have htx : txt (g ++ 0x7B :: q ++ g' ++ 0x22 :: u ++ g1 ++ 0x3A :: p) l =
        txt g (some 0x7B :: txt q (txt g' (some 0x22 :: txt u (txt g1 (some 0x3A :: txt p l))))) := by simp
    have hsc : ∀ d, Runs (scan C) (txt g (some 0x7B :: txt q (txt g' (some 0x22 :: txt u (txt g1 (some 0x3A :: txt p l)))))) d
        fun a l' d' => a = .beginObject ∧ l' = txt q (txt g' (some 0x22 :: txt u (txt g1 (some 0x3A :: txt p l)))) ∧ d' = d := fun d =>
      run_scan_punct H .beginObject hg ((gap_ok 0x22).txt _) (by simp only [txt_length, List.length_cons]; omega)
    rw [htx]
    refine ⟨?_, fun d => Or.inr ((hsc d).imp ?_)⟩
    · intro n c d hn
      simp only [txt_length, List.length_cons] at hn
      obtain ⟨n, rfl⟩ : ∃ m, n = m + 1 := ⟨n - 1, by omega⟩
      obtain ⟨_, _, d1, h1, rfl, rfl, rfl⟩ := hsc d
      rw [doParse_none, h1]
      simp only [doParse]
      obtain ⟨n', d2, h2, h3⟩ := object_open H hst hq (gap_ok (g := g') (k := txt u (txt g1 (some 0x3A :: txt p l))) 0x22) n [] d1
        (by simp only [txt_length, List.length_cons]; omega) (by omega)
      rw [h3]
      obtain ⟨n', rfl⟩ : ∃ m, n' = m + 1 := ⟨n' - 1, by omega⟩
      obtain ⟨_, _, d3, h4, rfl, rfl, rfl⟩ := run_scan_string (d := d2) (k := txt u (txt g1 (some 0x3A :: txt p l))) H hg'
        (by simp only [txt_length, List.length_cons]; omega)
      obtain ⟨_, _, d4, h5, rfl, _⟩ := run_scanString (d := d3) (k := txt g1 (some 0x3A :: txt p l)) H hst hkey
        (gap_ok _) (by simp; omega)
      obtain ⟨_, _, d5, h6, rfl, rfl, rfl⟩ := run_scan_punct (d := d4) (k := txt p l) H .colon hg1 hto
        (by simp only [txt_length]; omega)
      obtain ⟨sv, v, h7⟩ := ih n' .null d5 (by simp only [txt_length]; omega)
      rw [txt_cons] at h5
      rw [parseObject, h4]
      simp only [if_true]
      rw [h5]
      simp only
      rw [h6]
      simp only [if_true]
      rw [h7]
      exact ⟨_, _, rfl⟩
    · rintro _ _ _ ⟨rfl, _⟩; rfl

theorem parseItems_stuck {A : ParseArgs F} (c : Value F) {n : Nat} {e : Stop} (ho : Ok l)
    (hn : 2 * l.length + 2 ≤ n) (h : Stuck (A.canon n) l e) : (parseItems A n none c l).1 = .error e := by
  unfold parseItems
  rw [parse_start n n none c ho]
  obtain ⟨s, v, hs⟩ := h n c (data0 A) hn
  unfold parseBody
  rw [hs]
  cases e <;> rfl

end Configor
