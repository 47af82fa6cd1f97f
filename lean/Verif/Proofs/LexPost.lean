import Verif.Proofs.Canon
import Verif.Spec.Grammar
/-!
Soundness of the scanner: what it consumed when it succeeds, and why it fails.
-/
namespace Configor
open Lexer Spec

variable {F α β : Type}

/-- The part of the scanner state that is not the stream. -/
structure Data (F : Type) where
  neg : Bool
  numI : Int
  numF : F
  out : OStream

/-- The current character of an input that starts with it. -/
def hd : List (Option Nat) → Nat
  | some c :: _ => c
  | _ => 0

/-- The scanner state whose input, with the current character, is `l`. -/
def At (l : List (Option Nat)) (d : Data F) : Lex CpS F where
  is := ⟨l.tail, l.isEmpty, false⟩
  cur := hd l
  neg := d.neg
  numI := d.numI
  numF := d.numF
  out := d.out

/-- The current character is not malformed. -/
def Ok (l : List (Option Nat)) : Prop := l.head? ≠ some none

theorem Ok.nil : Ok [] := by simp [Ok]
theorem Ok.cons (c : Nat) (l : List (Option Nat)) : Ok (some c :: l) := by simp [Ok]

/-- The assumptions on the configuration. -/
structure Canon (C : Cfg CpS F) : Prop where
  src : C.src = canonSrc
  w : 8 ≤ C.w
  ascii : ∀ (o : OStream) (c : Nat), o.failb = false → c < 128 → C.enc o c = o.put c

variable {C : Cfg CpS F}

/-- Why a call can end without result. -/
def Fault (C : Cfg CpS F) (l : List (Option Nat)) (e : Stop) : Prop :=
  e = .exn .deserialization ∨
  (e = .abort ∧ C.debug = true ∧ ∃ p c r, l = p ++ some c :: r ∧ (c = 0x2B ∨ c = 0x2D) ∧
    ¬ IsDig C.w (hd r)) ∨
  (e = .ub ∧ ∃ p c ds r, l = p ++ (c :: ds).map some ++ r ∧ (∀ d ∈ ds, IsDig C.w d) ∧
    intMax < intVal (c :: ds))

theorem Fault.suffix {p l : List (Option Nat)} {e : Stop} (h : Fault C l e) : Fault C (p ++ l) e := by
  rcases h with h | ⟨h1, h2, q, c, r, h3, h4⟩ | ⟨h1, q, c, ds, r, h2, h3⟩
  · exact Or.inl h
  · exact Or.inr (Or.inl ⟨h1, h2, p ++ q, c, r, by simp [h3], h4⟩)
  · exact Or.inr (Or.inr ⟨h1, p ++ q, c, ds, r, by simp [h2], h3⟩)

theorem len_of {l l' : List (Option Nat)} {t : List Nat} (h : l = t.map some ++ l') :
    l.length = t.length + l'.length := by rw [h]; simp

/-- `m` started on `l` either fails with a reason or consumes a text `t` with `Q t`. -/
def Post (E : Stop → Prop) (m : L CpS F α) (l : List (Option Nat)) (d : Data F)
    (Q : List Nat → α → List (Option Nat) → Data F → Prop) : Prop :=
  match m (At l d) with
  | (.ok a, s) => ∃ t l' d', s = At l' d' ∧ Ok l' ∧ l = t.map some ++ l' ∧ Q t a l' d'
  | (.error e, _) => E e

variable {l : List (Option Nat)} {d : Data F} {E : Stop → Prop}

theorem Post.imp {m : L CpS F α} {Q Q' : List Nat → α → List (Option Nat) → Data F → Prop}
    (h : Post E m l d Q)
    (hq : ∀ t a l' d', l = t.map some ++ l' → Ok l' → Q t a l' d' → Q' t a l' d') : Post E m l d Q' := by
  unfold Post at *
  rcases hm : m (At l d) with ⟨_ | a, s⟩
  · rw [hm] at h; exact h
  · rw [hm] at h
    obtain ⟨t, l', d', h1, h2, h3, h4⟩ := h
    exact ⟨t, l', d', h1, h2, h3, hq t a l' d' h3 h2 h4⟩

theorem Post.bind {m : L CpS F α} {f : α → L CpS F β}
    {Q : List Nat → β → List (Option Nat) → Data F → Prop}
    (h : Post E m l d fun t a l' d' => Ok l' → l = t.map some ++ l' →
      Post E (f a) l' d' fun t' b l'' d'' => Q (t ++ t') b l'' d'') :
    Post E (m >>= f) l d Q := by
  unfold Post at *
  simp only [M.bind_def]
  rcases hm : m (At l d) with ⟨e | a, s⟩
  · rw [hm] at h; exact h
  · rw [hm] at h
    obtain ⟨t, l', d', h1, h2, h3, h4⟩ := h
    subst h1
    simp only
    have h4 := h4 h2 h3
    rcases hf : f a (At l' d') with ⟨e | b, s⟩
    · rw [hf] at h4
      exact h4
    · rw [hf] at h4
      obtain ⟨t', l'', d'', g1, g2, g3, g4⟩ := h4
      exact ⟨t ++ t', l'', d'', g1, g2, by rw [h3, g3]; simp, g4⟩

theorem Post.pure {a : α} {Q : List Nat → α → List (Option Nat) → Data F → Prop}
    (hl : Ok l) (h : Q [] a l d) : Post E (Pure.pure a : L CpS F α) l d Q :=
  ⟨[], l, d, rfl, hl, rfl, h⟩

theorem Post.fail {Q : List Nat → α → List (Option Nat) → Data F → Prop}
    (hx : E (.exn .deserialization)) : Post E (Lexer.fail : L CpS F α) l d Q := hx

theorem Post.cur {Q : List Nat → Nat → List (Option Nat) → Data F → Prop}
    (hl : Ok l) (h : Q [] (hd l) l d) : Post E Lexer.cur l d Q :=
  ⟨[], l, d, rfl, hl, rfl, h⟩

theorem Post.eof (H : Canon C) {Q : List Nat → Bool → List (Option Nat) → Data F → Prop}
    (hl : Ok l) (h : Q [] l.isEmpty l d) : Post E (Lexer.eof C) l d Q := by
  refine ⟨[], l, d, rfl, hl, rfl, ?_⟩
  rw [H.src]
  exact h

theorem Post.modify {f : Lex CpS F → Lex CpS F} {d' : Data F}
    {Q : List Nat → Unit → List (Option Nat) → Data F → Prop}
    (hl : Ok l) (hf : f (At l d) = At l d') (h : Q [] () l d') : Post E (M.modify f) l d Q :=
  ⟨[], l, d', hf, hl, rfl, h⟩

theorem Post.gets {f : Lex CpS F → α}
    {Q : List Nat → α → List (Option Nat) → Data F → Prop}
    (hl : Ok l) (h : Q [] (f (At l d)) l d) : Post E (M.gets f) l d Q :=
  ⟨[], l, d, rfl, hl, rfl, h⟩

theorem Post.ite {c : Prop} [Decidable c] {m m' : L CpS F α}
    {Q : List Nat → α → List (Option Nat) → Data F → Prop}
    (h : c → Post E m l d Q) (h' : ¬ c → Post E m' l d Q) : Post E (if c then m else m') l d Q := by
  split
  · exact h ‹_›
  · exact h' ‹_›

/-- `read_next` on the canonical source. -/
theorem readNext_eq (H : Canon C) (l : List (Option Nat)) (d : Data F) :
    (l.tail.head? = some none ∧ (readNext C (At l d)).1 = .error (.exn .deserialization)) ∨
    (Ok l.tail ∧ readNext C (At l d) = (.ok (hd l.tail), At l.tail d)) := by
  unfold readNext
  rw [H.src]
  cases l with
  | nil =>
    right
    simp [canonSrc, At, Ok, hd]
  | cons x l =>
    cases l with
    | nil => right; simp [canonSrc, At, Ok, hd]
    | cons y l =>
      cases y with
      | none => left; simp [canonSrc, At]
      | some c => right; simp [canonSrc, At, Ok, hd]

theorem readNext_ok (H : Canon C) (d : Data F) (hl : Ok l.tail) :
    readNext C (At l d) = (.ok (hd l.tail), At l.tail d) := by
  rcases readNext_eq H l d with ⟨h, _⟩ | ⟨_, h⟩
  · exact absurd h hl
  · exact h

/-- The text `read_next` leaves behind. -/
def one : List (Option Nat) → List Nat
  | some c :: _ => [c]
  | _ => []

theorem one_tail (hl : Ok l) : l = (one l).map some ++ l.tail := by
  cases l with
  | nil => rfl
  | cons x l =>
    cases x with
    | none => exact absurd rfl hl
    | some c => rfl

theorem Post.readNext (H : Canon C) {Q : List Nat → Nat → List (Option Nat) → Data F → Prop}
    (hx : E (.exn .deserialization)) (hl : Ok l) (h : Ok l.tail → Q (one l) (hd l.tail) l.tail d) : Post E (Lexer.readNext C) l d Q := by
  unfold Post
  rcases readNext_eq H l d with ⟨_, hr⟩ | ⟨ho, hr⟩
  · rcases hrr : Lexer.readNext C (At l d) with ⟨r, s⟩
    rw [hrr] at hr
    simp only at hr
    subst hr
    exact hx
  · rw [hr]
    exact ⟨one l, l.tail, d, rfl, ho, one_tail hl, h ho⟩

/-- An input with a current character other than NUL. -/
theorem cons_of_hd {l : List (Option Nat)} (hne : hd l ≠ 0) : ∃ r, l = some (hd l) :: r := by
  cases l with
  | nil => exact absurd rfl hne
  | cons x l =>
    cases x with
    | none => exact absurd rfl hne
    | some c => exact ⟨l, rfl⟩

theorem cons_of_nonempty {l : List (Option Nat)} (hl : Ok l) (hne : l.isEmpty = false) :
    ∃ r, l = some (hd l) :: r := by
  cases l with
  | nil => simp at hne
  | cons x l =>
    cases x with
    | none => exact absurd rfl hl
    | some c => exact ⟨l, rfl⟩

/-! ## Gaps -/

theorem isSpace_iff (c : Nat) : isSpace c = true ↔ IsBlank c := by
  simp [isSpace, IsBlank, or_assoc]

theorem post_skipBlanks (H : Canon C) (hx : E (.exn .deserialization)) (n : Nat) (hl : Ok l) (hn : l.length + 1 ≤ n) :
    Post E (skipBlanks C n) l d fun t _ l' d' => d' = d ∧ (∀ c ∈ t, IsBlank c) ∧ ¬ IsBlank (hd l') := by
  induction n generalizing l with
  | zero => omega
  | succ n ih =>
    unfold skipBlanks
    refine .bind (.cur hl fun _ _ => ?_)
    refine .ite (fun hs => ?_) (fun hs => .pure hl ⟨rfl, by simp, ?_⟩)
    · rw [isSpace_iff] at hs
      obtain ⟨r, hr⟩ := cons_of_hd (l := l) (by rcases hs with h | h | h | h <;> omega)
      refine .bind (.readNext H hx hl fun ho _ _ => ?_)
      refine (ih ho (by rw [hr] at hn ⊢; simp at hn ⊢; omega)).imp ?_
      rintro t _ l' d' h1 _ ⟨h2, h3, h4⟩
      refine ⟨h2, ?_, h4⟩
      intro c hc
      rw [hr] at hc
      simp [one] at hc
      rcases hc with rfl | hc
      · exact hs
      · exact h3 c hc
    · rwa [isSpace_iff] at hs

theorem Gap.blanks {t g : List Nat} (ht : ∀ c ∈ t, IsBlank c) (hg : Gap g) : Gap (t ++ g) := by
  induction t with
  | nil => exact hg
  | cons c t ih => exact .blank (ht c (by simp)) (ih fun c hc => ht c (by simp [hc]))

/-- The line comment loop: consumes the current character and a line; then it is at a line end
or at the end of the input. -/
theorem post_lineComment (H : Canon C) (hx : E (.exn .deserialization)) (n : Nat) (hl : Ok l) (hn : l.length + 1 ≤ n) :
    Post E (lineComment C n) l d fun t b l' d' => d' = d ∧ ∃ u, t = one l ++ u ∧ Line u ∧
      (b = true → hd l' = 0x0A ∨ hd l' = 0x0D) ∧ (b = false → l' = []) := by
  induction n generalizing l with
  | zero => omega
  | succ n ih =>
    unfold lineComment
    refine .bind (.readNext H hx hl fun ho _ _ => ?_)
    refine .ite (fun hs => .pure ho ⟨rfl, [], by simp, by simp [Line], ?_, by simp⟩) (fun hs => ?_)
    · intro _; simpa using hs
    refine .bind (.eof H ho fun _ _ => ?_)
    refine .ite (fun he => .pure ho ⟨rfl, [], by simp, by simp [Line], by simp, ?_⟩) (fun he => ?_)
    · intro _; simpa using he
    simp only [Bool.not_eq_true] at he
    obtain ⟨r, hr⟩ := cons_of_nonempty ho he
    have hlen : l.tail.length + 1 ≤ n := by
      rw [List.length_tail]
      have : l ≠ [] := by rintro rfl; simp at he
      have := List.length_pos_iff.mpr this
      omega
    refine (ih ho hlen).imp ?_
    rintro t b l' d' _ _ ⟨h1, u, h2, h3, h4, h5⟩
    refine ⟨h1, one l.tail ++ u, by simp [h2], ?_, h4, h5⟩
    intro c hc
    rw [hr] at hc
    simp [one] at hc
    rcases hc with rfl | hc
    · simpa using hs
    · exact h3 c hc

theorem post_blockComment (H : Canon C) (hx : E (.exn .deserialization)) (n : Nat) (hl : Ok l) (hn : l.length + 1 ≤ n) :
    Post E (blockComment C n) l d fun t _ _ d' => d' = d ∧ ∃ u, t = one l ++ u ∧ BlockBody u := by
  induction n using Nat.strongRecOn generalizing l with
  | ind n ih =>
  cases n with
  | zero => omega
  | succ n =>
    unfold blockComment
    refine .bind (.readNext H hx hl fun ho _ _ => ?_)
    -- the common rest
    have rest : ∀ (k : List (Option Nat)), Ok k → k.length < l.length ∨ k.isEmpty = true →
        Post E (do if (← Lexer.eof C) then Lexer.fail else blockComment C n) k d
          fun t _ l' d' => d' = d ∧ ∃ u, t = hd k :: u ∧ BlockBody u := by
      intro k hk hlen
      refine .bind (.eof H hk fun _ _ => ?_)
      refine .ite (fun _ => .fail hx) (fun he => ?_)
      have : k.length < l.length := by
        rcases hlen with h | h
        · exact h
        · exact absurd h he
      simp only [Bool.not_eq_true] at he
      obtain ⟨r, hr⟩ := cons_of_nonempty hk he
      have h1 : one k = [hd k] := by rw [hr]; rfl
      exact (ih n (by omega) hk (by omega)).imp fun t _ l' d' _ _ h => by simpa [h1] using h
    have tl : l.tail.length < l.length ∨ l.tail.isEmpty = true := by
      cases l <;> simp
    refine .ite (fun hs => ?_) (fun hs => ?_)
    · have hs : hd l.tail = 0x2A := by simpa using hs
      obtain ⟨r, hr⟩ := cons_of_hd (l := l.tail) (by omega)
      refine .bind (.readNext H hx ho fun ho2 _ _ => ?_)
      refine .ite (fun hs2 => ?_) (fun hs2 => ?_)
      · have hs2 : hd l.tail.tail = 0x2F := by simpa using hs2
        obtain ⟨r2, hr2⟩ := cons_of_hd (l := l.tail.tail) (by omega)
        refine .bind (.readNext H hx ho2 fun ho3 _ _ => .pure ho3 ⟨rfl, [0x2A, 0x2F], ?_, .close⟩)
        rw [hs] at hr; rw [hs2] at hr2
        simp [one, hr]
        rw [hr] at hr2
        simp at hr2
        simp [hr2]
      · refine (rest l.tail.tail ho2 ?_).imp ?_
        · rcases tl with h | h
          · left; rw [List.length_tail]; omega
          · rw [hr] at h; simp at h
        · rintro t _ l' d' h1 ho' ⟨h2, u, h3, h4⟩
          refine ⟨h2, 0x2A :: hd l.tail.tail :: u, ?_, .star (by simpa using hs2) h4⟩
          have h1 : one l.tail = [0x2A] := by rw [hr, hs]; rfl
          simp [h1, h3]
    · refine (rest l.tail ho tl).imp ?_
      rintro t _ l' d' h1 ho' ⟨h2, u, h3, h4⟩
      exact ⟨h2, hd l.tail :: u, by simp [h3], .other (by simpa using hs) h4⟩

theorem Ok.of_hd {l : List (Option Nat)} (h : hd l ≠ 0) : Ok l := by
  obtain ⟨r, hr⟩ := cons_of_hd h
  rw [hr]; exact .cons _ _

/-- `skip_spaces`: a gap; what follows is not the start of one, or the input has ended, maybe
in a line comment. -/
theorem post_skipSpaces (H : Canon C) (hx : E (.exn .deserialization)) (n : Nat) (hl : Ok l) (hn : l.length + 1 ≤ n)
    (hb : l.length + 1 ≤ C.bound) :
    Post E (skipSpaces C n) l d fun t _ l' d' => d' = d ∧
      ((Gap t ∧ ¬ IsBlank (hd l') ∧ hd l' ≠ 0x2F) ∨
       (l' = [] ∧ ∃ g u, Gap g ∧ Line u ∧ t = g ++ 0x2F :: 0x2F :: u)) := by
  induction n generalizing l with
  | zero => omega
  | succ n ih =>
    unfold skipSpaces
    refine .bind ((post_skipBlanks H hx C.bound hl hb).imp ?_)
    rintro bl _ l1 d1 hl1 ho1 ⟨rfl, hbl, hnb⟩ _ _
    have len1 : l.length = bl.length + l1.length := len_of hl1
    refine .bind (.cur ho1 fun _ _ => ?_)
    refine .ite (fun hs => ?_) (fun hs => .pure ho1 ⟨rfl, Or.inl ⟨?_, hnb, by simpa using hs⟩⟩)
    · have hs : hd l1 = 0x2F := by simpa using hs
      obtain ⟨r, hr⟩ := cons_of_hd (l := l1) (by omega)
      rw [hs] at hr
      have hone : one l1 = [0x2F] := by rw [hr]; rfl
      have len2 : l1.length = 1 + l1.tail.length := by rw [hr]; simp; omega
      refine .bind (.readNext H hx ho1 fun ho2 _ _ => ?_)
      refine .ite (fun hs2 => ?_) (fun hs2 => .ite (fun hs3 => ?_) (fun _ => .fail hx))
      · have hs2 : hd l1.tail = 0x2F := by simpa using hs2
        obtain ⟨r2, hr2⟩ := cons_of_hd (l := l1.tail) (by omega)
        have hone2 : one l1.tail = [0x2F] := by rw [hr2, hs2]; rfl
        refine .bind ((post_lineComment H hx C.bound ho2 (by omega)).imp ?_)
        rintro t b l3 d3 hl3 ho3 ⟨rfl, u, rfl, hu, hbt, hbf⟩ _ _
        have len3 : l1.tail.length = (one l1.tail ++ u).length + l3.length := len_of hl3
        cases b with
        | true =>
          have hnl := hbt rfl
          obtain ⟨r3, hr3⟩ := cons_of_hd (l := l3) (by omega)
          refine (ih ho3 ?_ ?_).imp ?_
          · simp [hone2] at len3; omega
          · simp [hone2] at len3; omega
          · rintro t' _ l4 d4 hl4 ho4 ⟨rfl, h⟩
            refine ⟨rfl, ?_⟩
            -- the line end is the first blank of the rest
            have key : ∀ x, Gap x → (∃ y, x ++ y = t') → x ≠ [] →
                Gap (bl ++ ([] ++ (one l1 ++ (one l1.tail ++ u ++ x)))) := by
              intro x hx hy hne
              obtain ⟨y, hy⟩ := hy
              simp only [hone, hone2, List.nil_append]
              refine Gap.blanks hbl ?_
              cases x with
              | nil => exact absurd rfl hne
              | cons c x =>
                have hc : c = hd l3 := by
                  rw [hl4, ← hy]; rfl
                cases hx with
                | blank hcb hx => 
                  have := Gap.line hu (nl := c) (by rw [hc]; exact hnl) hx
                  simpa using this
                | line => omega
                | block => omega
            have htne : t' ≠ [] ∨ l4 = l3 := by
              by_cases ht : t' = []
              · right; rw [hl4, ht]; simp
              · exact Or.inl ht
            rcases h with ⟨h1, h2, h3⟩ | ⟨h1, g, v, h2, h3, h4⟩
            · left
              refine ⟨key t' h1 ⟨[], by simp⟩ ?_, h2, h3⟩
              rintro rfl
              rw [List.map_nil, List.nil_append] at hl4
              rw [← hl4] at h2
              apply h2
              rcases hnl with h | h <;> rw [h] <;> simp [IsBlank]
            · right
              refine ⟨h1, _, v, key g h2 ⟨_, h4.symm⟩ ?_, h3, by simp [h4]⟩
              rintro rfl
              rw [hl4, h4] at hnl
              simp [hd] at hnl
        | false =>
          have := hbf rfl
          subst this
          refine .pure ho3 ⟨rfl, Or.inr ⟨rfl, bl, u, ?_, hu, by simp [hone, hone2]⟩⟩
          simpa using Gap.blanks hbl .nil
      · have hs3 : hd l1.tail = 0x2A := by simpa using hs3
        obtain ⟨r2, hr2⟩ := cons_of_hd (l := l1.tail) (by omega)
        have hone2 : one l1.tail = [0x2A] := by rw [hr2, hs3]; rfl
        refine .bind ((post_blockComment H hx C.bound ho2 (by omega)).imp ?_)
        rintro t b l3 d3 hl3 ho3 ⟨rfl, u, rfl, hu⟩ _ _
        have len3 : l1.tail.length = (one l1.tail ++ u).length + l3.length := len_of hl3
        simp [hone2] at len3
        refine (ih ho3 (by omega) (by omega)).imp ?_
        rintro t' _ l4 d4 hl4 ho4 ⟨rfl, h⟩
        refine ⟨rfl, ?_⟩
        rcases h with ⟨h1, h2, h3⟩ | ⟨h1, g, v, h2, h3, h4⟩
        · left
          refine ⟨?_, h2, h3⟩
          simp only [hone, hone2]
          refine Gap.blanks hbl ?_
          simpa using Gap.block hu h1
        · right
          refine ⟨h1, bl ++ (0x2F :: 0x2A :: u ++ g), v, Gap.blanks hbl (Gap.block hu h2), h3, ?_⟩
          simp [hone, hone2, h4]
    · simpa using Gap.blanks hbl .nil

end Configor
