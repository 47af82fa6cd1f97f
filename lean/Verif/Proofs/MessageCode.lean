import Verif.Spec.Message
import Verif.Proofs.Canon
/-! The code that a decoder gives for a malformed character. -/
set_option autoImplicit false
namespace Configor
open Spec

variable {σ : Type} {B : SBuf σ} {R : σ → List Int → Prop}

/-- `utf8Read` on the units that are delivered, and then -1. -/
def utf8Raw : Nat → Nat → List Int → Nat
  | 0, cp, l => u32 (cp + castU 8 (l.headD (-1)))
  | n + 1, cp, l => utf8Raw n (u32 (u32 (cp + castU 8 (l.headD (-1))) <<< 6)) l.tail

theorem utf8Read_dead_raw (n cp : Nat) (s : IStream σ) (h : s.good = false) : (utf8Read B n cp s).1 = utf8Raw n cp [] := by
  induction n generalizing cp s with
  | zero => simp [utf8Read, utf8Raw, get_notgood h]
  | succ n ih =>
    simp only [utf8Read, utf8Raw, get_notgood h, List.headD_nil, List.tail_nil]
    exact ih _ _ (by simp [IStream.good])

theorem utf8Read_raw (V : View B R) (n cp : Nat) (s : σ) (l : List Int) (h : R s l) :
    (utf8Read B n cp ⟨s, false, false⟩).1 = utf8Raw n cp l := by
  induction n generalizing cp s l with
  | zero =>
    cases l with
    | nil =>
      obtain ⟨s', hs⟩ := V.get_nil h
      simp [utf8Read, utf8Raw, hs]
    | cons b bs =>
      obtain ⟨s', hs, hr⟩ := V.get_cons h
      simp [utf8Read, utf8Raw, hs]
  | succ n ih =>
    cases l with
    | nil =>
      obtain ⟨s', hs⟩ := V.get_nil h
      simp only [utf8Read, utf8Raw, hs, List.headD_nil, List.tail_nil]
      exact utf8Read_dead_raw _ _ _ (by simp [IStream.good])
    | cons b bs =>
      obtain ⟨s', hs, hr⟩ := V.get_cons h
      simp only [utf8Read, utf8Raw, hs, List.headD_cons, List.tail_cons]
      exact ih _ s' bs hr

theorem castU_mod (n u : Nat) : castU n (u : Int) = u % 2 ^ n := by
  unfold castU
  rw [← Int.natCast_emod]
  rfl

theorem castU_head (u : List Nat) : castU 8 ((ints u).headD (-1)) = u.headD 0xFF % 0x100 := by
  cases u with
  | nil => decide
  | cons x u => exact castU_mod 8 x

theorem ints_tail (u : List Nat) : (ints u).tail = ints u.tail := by cases u <;> rfl

theorem utf8Raw_six (n : Nat) (u : List Nat) (cp a : Nat) (h : cp = a * 64 % 4294967296) :
    utf8Raw n cp (ints u) = (bytesOf (n + 1) u).foldl (fun a b => a * 64 + b) a % 4294967296 := by
  induction n generalizing u cp a with
  | zero =>
    unfold utf8Raw
    rw [castU_head]
    simp only [bytesOf, List.foldl_cons, List.foldl_nil, u32]
    omega
  | succ n ih =>
    unfold utf8Raw
    rw [castU_head, ints_tail]
    rw [bytesOf, List.foldl_cons]
    refine ih _ _ _ ?_
    rw [Nat.shiftLeft_eq]
    simp only [u32, Nat.reducePow]
    omega

theorem announced_eq (b : Nat) (h : b < 256) : utf8ExtraTable.getD b 0 = announced b := by
  have : ∀ b < 256, utf8ExtraTable.getD b 0 = announced b := by decide +kernel
  exact this b h

theorem marks_eq (n : Nat) (h : n ≤ 5) : sixBits (leadMark n :: List.replicate n 0x80) % 4294967296 = utf8Offsets.getD n 0 := by
  have : ∀ n < 6, sixBits (leadMark n :: List.replicate n 0x80) % 4294967296 = utf8Offsets.getD n 0 := by decide
  exact this n (by omega)

/-- The code a decoder gives for a malformed character is `malformedCode`. -/
theorem Enc.bad_code (e : Enc) (w : Nat) (V : View B R) {s : σ} {u : List Nat} {rest : List Int} (h : R s (ints u))
    (hst : e.step w (ints u) = some (none, rest)) : (e.decode w B ⟨s, false, false⟩).2.1 = malformedCode e u := by
  cases u with
  | nil => exact absurd hst (by cases e <;> exact fun h => by cases h)
  | cons x u =>
    cases e with
    | ignore => cases hst
    | utf8 =>
      obtain ⟨s', hs, hr⟩ := V.peek_cons h
      have hb := utf8Read_raw V (utf8ExtraTable.getD (castU 8 (x : Int)) 0) 0 s' _ hr
      have e8 : castU 8 (x : Int) = x % 256 := castU_mod 8 x
      have ha := announced_eq (x % 256) (by omega)
      simp only [Enc.decode, utf8Decode, hs, Bool.false_eq_true, if_false]
      rw [hb, show ((x : Int) :: List.map (fun u : Nat => (u : Int)) u) = ints (x :: u) from rfl, utf8Raw_six _ _ _ 0 rfl, e8, ha]
      unfold malformedCode
      simp only [List.headD_cons]
      rw [← marks_eq (announced (x % 256)) (by rw [← ha]; exact utf8Extra_le _)]
      unfold u32sub sixBits
      omega
    | utf16 =>
      obtain ⟨s', hs, hr⟩ := V.get_cons h
      have e16 : castU 16 (x : Int) = x % 65536 := castU_mod 16 x
      simp only [Enc.step, utf16Step, ints, List.map_cons] at hst
      simp only [Enc.decode, utf16Decode, hs, Bool.false_eq_true, if_false, malformedCode, List.headD_cons]
      split at hst
      · rename_i hl
        rw [if_pos hl]
        cases u with
        | nil =>
          obtain ⟨s'', hs'⟩ := V.get_nil hr
          simp only [hs']
          rw [if_neg (by decide)]
          exact e16
        | cons y u =>
          obtain ⟨s'', hs', _⟩ := V.get_cons hr
          simp only [List.map_cons] at hst
          simp only [hs']
          split at hst
          · cases hst
          · rename_i ht
            rw [if_neg ht]
            exact e16
      · cases hst
    | utf32 =>
      obtain ⟨s', hs, hr⟩ := V.get_cons h
      simp only [Enc.decode, utf32Decode, hs, Bool.false_eq_true, if_false, malformedCode, List.headD_cons]
      exact castU_mod 32 x

/-- The first item is a malformed character. -/
theorem items_none {e : Enc} {w : Nat} {l : List Int} {r : List (Option Nat)} (h : items (e.step w) l = none :: r) :
    ∃ rest, e.step w l = some (none, rest) := by
  unfold items at h
  cases hl : l.length with
  | zero => rw [hl] at h; cases h
  | succ n =>
    rw [hl] at h
    unfold itemsN at h
    split at h
    · cases h
    · cases h
    · exact ⟨_, by assumption⟩

end Configor
