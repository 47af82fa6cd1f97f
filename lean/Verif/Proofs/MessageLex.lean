import Verif.Proofs.MessageErase
import Verif.Proofs.ParseSound
import Verif.Proofs.Dump
import Verif.Spec.Message
/-! What the messages of the scanner say. -/
set_option autoImplicit false
namespace Configor
open Lexer Spec

variable {F α β : Type} {C : Cfg CpS F} {l : List (Option Nat)} {d : Data F} {P : List Nat → Prop}

/-! ## Numbers in hex -/

theorem upperHex_digits (n i : Nat) (h : i < n) :
    UpperHex ((digitsFuel 16 n i []).map digitChar) i ∧
      (i ≠ 0 → ((digitsFuel 16 n i []).map digitChar).head? ≠ some 0x30) ∧ digitsFuel 16 n i [] ≠ [] := by
  induction n generalizing i with
  | zero => omega
  | succ n ih =>
    have one : ∀ d, d < 16 → ∀ ds v, UpperHex ds v → UpperHex (ds ++ [digitChar d]) (v * 16 + d) := by
      intro d hd ds v hv
      unfold digitChar
      split
      · have := UpperHex.digit (c := 0x30 + d) hv (by omega)
        simpa using this
      · have := UpperHex.letter (c := 0x37 + d) hv (by omega)
        simpa using this
    simp only [digitsFuel]
    split
    · rename_i hi
      refine ⟨?_, ?_, by simp⟩
      · have := one i hi [] 0 .nil
        simpa using this
      · intro h0
        simp only [List.map_cons, List.map_nil, List.head?_cons]
        unfold digitChar
        split <;> simp <;> omega
    · rename_i hi
      rw [digitsFuel_acc (by decide) n (i / 16) (by omega)]
      obtain ⟨h1, h2, h3⟩ := ih (i / 16) (by omega)
      refine ⟨?_, ?_, by simp⟩
      · have := one (i % 16) (by omega) _ _ h1
        rw [List.map_append]
        have e : i / 16 * 16 + i % 16 = i := by omega
        rw [e] at this
        exact this
      · intro _
        have := h2 (by omega)
        rw [List.map_append, List.head?_append]
        cases hh : (List.map digitChar (digitsFuel 16 n (i / 16) [])).head? with
        | none => simp at hh; exact absurd hh h3
        | some x => rw [hh] at this; exact this

theorem _root_.Spec.UpperHex.zeros (n : Nat) {ds : List Nat} {v : Nat} (h : UpperHex ds v) : UpperHex (List.replicate n 0x30 ++ ds) v := by
  induction h with
  | nil =>
    induction n with
    | zero => exact .nil
    | succ n ih =>
      have := UpperHex.digit (c := 0x30) ih (by omega)
      simpa [List.replicate_succ'] using this
  | digit _ hc ih => rw [← List.append_assoc]; exact .digit ih hc
  | letter _ hc ih => rw [← List.append_assoc]; exact .letter ih hc

theorem shows_hexText (c : Nat) : ShowsCode (hexText 4 c) c := by
  obtain ⟨h1, h2, _⟩ := upperHex_digits (c + 1) c (by omega)
  refine ⟨List.replicate (4 - ((digits 16 c).map digitChar).length) 0x30 ++ (digits 16 c).map digitChar, ?_, h1.zeros _, ?_, ?_⟩
  · simp [hexText]
  · simp; omega
  · intro h
    have h4 : 4 < ((digits 16 c).map digitChar).length := by
      simp only [List.length_append, List.length_replicate] at h; omega
    have : 4 - ((digits 16 c).map digitChar).length = 0 := by omega
    rw [this]
    simp only [List.replicate_zero, List.nil_append]
    refine h2 ?_
    rintro rfl
    simp [digits, digitsFuel] at h4

theorem shown_hexText (msg : List Nat) (c : Nat) : Shown msg c (msg ++ text! " '" ++ hexText 4 c ++ text! "'") :=
  ⟨_, shows_hexText c, rfl⟩

/-! ## Computations whose messages satisfy `P` -/

/-- If `k` started on `l` throws, its message satisfies `P`. -/
def Errs (P : List Nat → Prop) (k : MM (Lex CpS F) α) (l : List (Option Nat)) (d : Data F) : Prop :=
  ∀ e msg s, k (At l d) = (.error (.exn e, msg), s) → ∃ i, msg = deserializationText i ∧ P i

/-- The message about a malformed character satisfies `P`, if there is one. -/
def Mal (P : List Nat → Prop) (l : List (Option Nat)) : Prop :=
  none ∈ l → ∀ c m, Shown (text! "decoding failed with codepoint") c m → P m

theorem Mal.tail (h : Mal P l) : Mal P l.tail := fun hm => h (List.mem_of_mem_tail hm)

theorem Mal.suffix {p l' : List (Option Nat)} (h : Mal P l) (e : l = p ++ l') : Mal P l' :=
  fun hm => h (by rw [e]; simp [hm])

theorem Errs.pure (a : α) : Errs P (Pure.pure a : MM (Lex CpS F) α) l d := by
  intro e msg s h
  cases h

theorem Errs.stop (e : Stop) (h : ∀ x, e ≠ .exn x) : Errs P (MM.stop e : MM (Lex CpS F) α) l d := by
  intro x msg s he
  simp only [MM.stop, Prod.mk.injEq, Except.error.injEq] at he
  exact absurd he.1.1 (h x)

theorem Errs.fail {i : List Nat} (h : P i) : Errs P (Msg.fail i : MM (Lex CpS F) α) l d := by
  intro x msg s he
  simp only [Msg.fail, Prod.mk.injEq, Except.error.injEq] at he
  exact ⟨i, he.1.2.symm, h⟩

theorem Errs.failCode {i : List Nat} {c : Nat} (h : ∀ m, Shown i c m → P m) :
    Errs P (Msg.failCode i c : MM (Lex CpS F) α) l d := Errs.fail (h _ (shown_hexText i c))

theorem Errs.ite {c : Prop} [Decidable c] {m m' : MM (Lex CpS F) α} (h : c → Errs P m l d) (h' : ¬ c → Errs P m' l d) :
    Errs P (if c then m else m') l d := by
  split
  · exact h ‹_›
  · exact h' ‹_›

theorem Errs.bind {k : MM (Lex CpS F) α} {m : M (Lex CpS F) α} {f : α → MM (Lex CpS F) β} (he : Erases k m)
    (hp : Post (fun _ => True) m l d fun t a l' d' => Ok l' → l = t.map some ++ l' → Errs P (f a) l' d') (hk : Errs P k l d) :
    Errs P (k >>= f) l d := by
  intro e msg s h
  rw [MM.bind_def] at h
  have h1 := he (At l d)
  unfold Post at hp
  rw [← h1] at hp
  rcases hr : k (At l d) with ⟨e' | a, s'⟩
  · rw [hr] at h
    cases h
    exact hk _ _ _ hr
  · rw [hr] at h hp
    simp only [unsaid] at hp
    obtain ⟨t, l', d', rfl, h2, h3, h4⟩ := hp
    exact h4 h2 h3 _ _ _ h

theorem Errs.cur {f : Nat → MM (Lex CpS F) α} (h : Errs P (f (hd l)) l d) : Errs P (Msg.cur >>= f) l d := h

theorem Errs.eof (H : Canon C) {f : Bool → MM (Lex CpS F) α} (h : Errs P (f l.isEmpty) l d) : Errs P (Msg.eof C >>= f) l d := by
  intro e msg s he
  rw [MM.bind_def] at he
  unfold Msg.eof MM.gets at he
  rw [H.src] at he
  exact h _ _ _ he

theorem Errs.modify {f : Unit → MM (Lex CpS F) α} {g : Lex CpS F → Lex CpS F} {d' : Data F} (hg : g (At l d) = At l d')
    (h : Errs P (f ()) l d') : Errs P (MM.modify g >>= f) l d := by
  intro e msg s he
  rw [MM.bind_def] at he
  unfold MM.modify at he
  rw [hg] at he
  exact h _ _ _ he

theorem Errs.gets {γ : Type} {g : Lex CpS F → γ} {f : γ → MM (Lex CpS F) α} (h : Errs P (f (g (At l d))) l d) :
    Errs P (MM.gets g >>= f) l d := h

theorem Errs.assert {b : Bool} {f : Unit → MM (Lex CpS F) α} (h : (C.debug && !b) = false → Errs P (f ()) l d) :
    Errs P (Msg.assert C b >>= f) l d := by
  unfold Msg.assert
  split
  · intro e msg s he
    rw [MM.bind_def] at he
    simp [MM.stop] at he
  · rename_i hb
    exact h (by simpa using hb)

theorem Errs.readNext (H : Canon C) (hm : Mal P l) : Errs P (Msg.readNext C) l d := by
  intro e msg s he
  have h1 := Erases.readNext C (At l d)
  rcases readNext_eq H l d with ⟨h, _⟩ | ⟨_, h⟩
  · unfold Msg.readNext at he
    simp only at he
    have hn : none ∈ l := by
      cases l with
      | nil => simp at h
      | cons x l =>
        cases l with
        | nil => simp at h
        | cons y l => simp at h; simp [h]
    split at he
    · split at he
      · cases he
      · exact Errs.failCode (d := d) (l := l) (α := Nat) (fun m hm' => hm hn _ m hm') e msg (At l d) (by
          simp only [Msg.failCode, Msg.fail, Prod.mk.injEq] at he ⊢
          exact ⟨he.1, trivial⟩)
    · cases he
  · rw [he, h] at h1
    cases h1

theorem Errs.next (H : Canon C) {f : Nat → MM (Lex CpS F) α} (hl : Ok l) (hm : Mal P l)
    (h : Ok l.tail → Mal P l.tail → Errs P (f (hd l.tail)) l.tail d) : Errs P (Msg.readNext C >>= f) l d :=
  Errs.bind (Erases.readNext C) (.readNext H trivial hl fun ho _ _ => h ho hm.tail) (Errs.readNext H hm)

theorem first_eq (l : List (Option Nat)) : first l = hd l := by
  cases l with
  | nil => rfl
  | cons x l => cases x <;> rfl

/-! ## Gaps -/

theorem errs_skipBlanks (H : Canon C) (n : Nat) (hl : Ok l) (hm : Mal P l) : Errs P (Msg.skipBlanks C n) l d := by
  induction n generalizing l with
  | zero => exact .stop _ (by simp)
  | succ n ih =>
    unfold Msg.skipBlanks
    exact .cur (.ite (fun _ => .next H hl hm fun ho hm => ih ho hm) fun _ => .pure _)

theorem errs_lineComment (H : Canon C) (n : Nat) (hl : Ok l) (hm : Mal P l) : Errs P (Msg.lineComment C n) l d := by
  induction n generalizing l with
  | zero => exact .stop _ (by simp)
  | succ n ih =>
    unfold Msg.lineComment
    exact .next H hl hm fun ho hm => .ite (fun _ => .pure _) fun _ => .eof H (.ite (fun _ => .pure _) fun _ => ih ho hm)

/-- No beginning of `t` closes a comment. -/
def Unclosed (t : List Nat) : Prop := ∀ b r, t = b ++ r → ¬ BlockBody b

theorem Unclosed.nil : Unclosed [] := by
  intro b r h hb
  have : b = [] := by cases b <;> simp_all
  subst this
  cases hb

theorem Unclosed.one (c : Nat) : Unclosed [c] := by
  intro b r h hb
  match b, hb with
  | [], hb => cases hb
  | [_], hb => 
    cases hb with
    | other _ h' => cases h'
  | _ :: _ :: _, _ => simp at h

theorem Unclosed.other {c : Nat} {t : List Nat} (hc : c ≠ 0x2A) (h : Unclosed t) : Unclosed (c :: t) := by
  intro b r e hb
  cases hb with
  | close => simp at e; omega
  | other _ h' => simp at e; exact h _ _ e.2 h'
  | star _ _ => simp at e; omega

theorem Unclosed.star {c : Nat} {t : List Nat} (hc : c ≠ 0x2F) (h : Unclosed t) : Unclosed (0x2A :: c :: t) := by
  intro b r e hb
  cases hb with
  | close => simp at e; omega
  | other hne h' => simp at e; omega
  | star _ h' => simp at e; exact h _ _ e.2 h'

theorem errs_blockComment (H : Canon C) (n : Nat) (hl : Ok l) (hm : Mal P l)
    (hc : ∀ t, l.tail = t.map some → Unclosed t → P (text! "unexpected eof while reading comment")) :
    Errs P (Msg.blockComment C n) l d := by
  induction n using Nat.strongRecOn generalizing l with
  | ind n ih =>
  cases n with
  | zero => exact .stop _ (by simp)
  | succ n =>
    unfold Msg.blockComment
    refine .next H hl hm fun ho hm => ?_
    refine .ite (fun hs => ?_) fun hs => ?_
    · have hs : hd l.tail = 0x2A := by simpa using hs
      obtain ⟨r, hr⟩ := cons_of_hd (l := l.tail) (by omega)
      rw [hs] at hr
      refine .next H ho hm fun ho2 hm2 => .ite (fun _ => .next H ho2 hm2 fun _ _ => .pure _) fun hs2 => ?_
      refine .eof H (.ite (fun he => .fail ?_) fun he => ih n (by omega) ho2 hm2 fun t ht hu => ?_)
      · have he : l.tail.tail = [] := by simpa using he
        refine hc [0x2A] ?_ (.one _)
        rw [hr] at he ⊢
        simp at he
        simp [he]
      · obtain ⟨r2, hr2⟩ := cons_of_nonempty ho2 (by simpa using he)
        refine hc (0x2A :: hd l.tail.tail :: t) ?_ (.star (by simpa using hs2) hu)
        have e1 : l.tail = some 0x2A :: l.tail.tail := by rw [hr]; rfl
        have e2 : l.tail.tail = some (hd l.tail.tail) :: l.tail.tail.tail := by
          rw [hr2]; rfl
        rw [e1, e2, ht]
        simp [hd]
    · refine .eof H (.ite (fun he => .fail ?_) fun he => ih n (by omega) ho hm fun t ht hu => ?_)
      · have he : l.tail = [] := by simpa using he
        exact hc [] (by simp [he]) .nil
      · obtain ⟨r2, hr2⟩ := cons_of_nonempty ho (by simpa using he)
        refine hc (hd l.tail :: t) ?_ (.other (by simpa using hs) hu)
        have e2 : l.tail = some (hd l.tail) :: l.tail.tail := by rw [hr2]; rfl
        rw [e2, ht]
        simp [hd]

end Configor
