import Verif.Props.Encoding
/-!
# Exactly which octets are decoded to a code point they do not stand for
-/
set_option autoImplicit false
namespace Configor.Props
open Configor Spec

/-- C04, partial: exactly when the octets accepted are the RFC 3629 form of the code point reported: if the lead octet is one, the others are
continuation octets, and the form is not overlong. -/
theorem C04_exactly_partial (str : List Nat) (hb : ∀ b ∈ str, b < 256) (n : Nat) (hn : n ≤ str.length) (cp : Nat) (m : Nat)
    (h : utf8Decode (strSBuf 8) (readUpTo str n) = (true, cp, readUpTo str (n + m))) :
    (str.drop n).take m = Spec.utf8 cp ↔
      (∀ b, str[n]? = some b → ¬ (0x80 ≤ b ∧ b < 0xC0) ∧ b < 0xF8) ∧
      (∀ i, 0 < i → i < m → ∃ b, str[n + i]? = some b ∧ 0x80 ≤ b ∧ b < 0xC0) ∧
      m ≤ (Spec.utf8 cp).length := by
  refine ⟨fun e => ?_, fun ⟨h1, h2, h3⟩ => C04_utf8_wellformed_partial str hb n hn cp m h h1 h2 h3⟩
  obtain ⟨hle, a, ha, hlen, heq⟩ := C03_utf8_decode_accepted str hb n hn cp _ h rfl
  have hm : m = announced a := by
    simp [readUpTo, IStream.ofBuf] at heq; exact heq
  have hml : m = (Spec.utf8 cp).length := by
    rw [← e]; simp; omega
  have hget : ∀ i, i < m → str[n + i]? = (Spec.utf8 cp)[i]? := by
    intro i hi
    rw [← e, List.getElem?_take, if_pos hi, List.getElem?_drop]
  have hm0 : 0 < m := by
    rw [hml]; unfold Spec.utf8; repeat' split
    all_goals simp
  unfold maxCp at hle
  have hlead : ∃ b, (Spec.utf8 cp)[0]? = some b ∧ ¬ (0x80 ≤ b ∧ b < 0xC0) ∧ b < 0xF8 := by
    unfold Spec.utf8
    repeat' split
    all_goals exact ⟨_, rfl, by omega, by omega⟩
  have hcont : ∀ i, 0 < i → i < m → ∃ b, (Spec.utf8 cp)[i]? = some b ∧ 0x80 ≤ b ∧ b < 0xC0 := by
    intro i h0 hi
    rw [hml] at hi
    unfold Spec.utf8 at hi ⊢
    split at hi
    · simp at hi; omega
    rw [if_neg ‹_›]
    split at hi
    · rw [if_pos ‹_›]
      simp at hi
      obtain rfl : i = 1 := by omega
      exact ⟨_, rfl, by omega, by omega⟩
    rw [if_neg ‹_›]
    split at hi
    · rw [if_pos ‹_›]
      simp at hi
      obtain rfl | rfl : i = 1 ∨ i = 2 := by omega
      all_goals exact ⟨_, rfl, by omega, by omega⟩
    rw [if_neg ‹_›]
    simp at hi
    obtain rfl | rfl | rfl : i = 1 ∨ i = 2 ∨ i = 3 := by omega
    all_goals exact ⟨_, rfl, by omega, by omega⟩
  refine ⟨fun b hb' => ?_, fun i h0 hi => ?_, by omega⟩
  · obtain ⟨b', h1, h2⟩ := hlead
    have := hget 0 hm0
    rw [Nat.add_zero, hb', h1] at this
    cases this
    exact h2
  · rw [hget i hi]; exact hcont i h0 hi

/-- An overlong form is accepted and fails only the last condition. -/
example : utf8Decode (strSBuf 8) (readUpTo [0xC0, 0xAF] 0) = (true, 0x2F, readUpTo [0xC0, 0xAF] 2) ∧ ¬ 2 ≤ (Spec.utf8 0x2F).length := by decide +kernel

end Configor.Props
