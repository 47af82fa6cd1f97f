import Verif.Spec.Size
import Verif.Proofs.DumpToks
/-!
# How long the text of a value can be
-/
set_option autoImplicit false
namespace Configor
open Spec

variable {F : Type}

/-! ## Numbers -/

theorem digitsFuel_length (b : Nat) (hb : 2 ≤ b) : ∀ (n i : Nat) (acc : List Nat) (k : Nat), i < b ^ k → 0 < k →
    (digitsFuel b n i acc).length ≤ acc.length + k := by
  intro n
  induction n with
  | zero => intro i acc k _ _; simp [digitsFuel]
  | succ n ih =>
    intro i acc k hi hk
    unfold digitsFuel
    split
    · simp; omega
    · rename_i hlt
      obtain ⟨k, rfl⟩ : ∃ j, k = j + 1 := ⟨k - 1, by omega⟩
      cases k with
      | zero => simp at hi; omega
      | succ k =>
        have := ih (i / b) (i % b :: acc) (k + 1) (by
          rw [Nat.div_lt_iff_lt_mul (by omega)]
          rwa [← Nat.pow_succ]) (by omega)
        simp at this
        omega

theorem digits_length {b i k : Nat} (hb : 2 ≤ b) (h : i < b ^ k) (hk : 0 < k) : (digits b i).length ≤ k := by
  have := digitsFuel_length b hb (i + 1) i [] k h hk
  simpa [digits] using this

theorem decText_length {i : Int} (h1 : -9223372036854775808 ≤ i) (h2 : i < 9223372036854775808) : (decText i).length ≤ 20 := by
  have : (digits 10 i.natAbs).length ≤ 19 := digits_length (by omega) (by omega) (by omega)
  unfold decText
  split <;> simp <;> omega

/-! ## Characters -/

theorem hexShort_length (c : Nat) : (hexShort c).length ≤ 4 ∧ (c < 0x100 → (hexShort c).length = 2) := by
  unfold hexShort hex4
  split
  · simp
  · split
    · simp; omega
    · simp; omega

theorem uniEscape_length (c : Nat) : (uniEscape c).length ≤ 12 ∧ (c < 0x20 → (uniEscape c).length = 4) := by
  have := hexShort_length c
  unfold uniEscape
  split
  · simp; omega
  · simp [hex4]; omega

theorem put_length (o : OStream) (c : Nat) : (o.put c).out.length ≤ o.out.length + 1 := by
  unfold OStream.put
  try unfold OStream.write
  split <;> simp

theorem encode_length (e : Enc) (w : Nat) (o : OStream) (c : Nat) : (e.encode w o c).out.length ≤ o.out.length + 4 := by
  have fail : ∀ o : OStream, o.setFail.out = o.out := fun _ => rfl
  have p := put_length
  cases e with
  | ignore => exact Nat.le_trans (p _ _) (by omega)
  | utf8 =>
    show (utf8Encode w o c).out.length ≤ _
    unfold utf8Encode
    split
    · exact Nat.le_trans (p _ _) (by omega)
    split
    · exact Nat.le_trans (p _ _) (Nat.le_trans (Nat.add_le_add_right (p _ _) 1) (by omega))
    split
    · exact Nat.le_trans (p _ _) (Nat.le_trans (Nat.add_le_add_right (p _ _) 1) (Nat.le_trans (Nat.add_le_add_right (p _ _) 2) (by omega)))
    split
    · exact Nat.le_trans (p _ _) (Nat.le_trans (Nat.add_le_add_right (p _ _) 1)
        (Nat.le_trans (Nat.add_le_add_right (p _ _) 2) (Nat.add_le_add_right (p _ _) 3)))
    · rw [fail]; omega
  | utf16 =>
    show (utf16Encode w o c).out.length ≤ _
    unfold utf16Encode
    split
    · exact Nat.le_trans (p _ _) (by omega)
    split
    · exact Nat.le_trans (p _ _) (Nat.le_trans (Nat.add_le_add_right (p _ _) 1) (by omega))
    · rw [fail]; omega
  | utf32 =>
    show (utf32Encode w o c).out.length ≤ _
    unfold utf32Encode
    refine Nat.le_trans (p _ _) ?_
    split
    · rw [fail]; omega
    · omega

theorem store_length {e : Enc} {w c : Nat} : ((storeWith (e.encode w) [c]).getD []).length ≤ 4 := by
  have := encode_length e w (.ofString []) c
  show ((if (e.encode w (.ofString []) c).failb = true then none else some (e.encode w (.ofString []) c).out).getD []).length ≤ 4
  split
  · simp
  · exact this

theorem charText_length {uesc : Bool} {enc : Nat → List Nat} (he : ∀ c, (enc c).length ≤ 4) (c : Nat) :
    (charText uesc enc c).length ≤ if uesc then 12 else 4 := by
  have h := he c
  have h' := uniEscape_length c
  unfold charText
  split
  · split <;> simp
  · split
    · rename_i hx
      cases uesc with
      | false => rcases hx with hx | hx <;> simp_all
      | true => exact h'.1
    · split <;> omega

theorem flatMap_length {α : Type} {f : α → List Nat} {m : Nat} (h : ∀ a, (f a).length ≤ m) (l : List α) : (l.flatMap f).length ≤ m * l.length := by
  induction l with
  | nil => simp
  | cons a l ih =>
    have := h a
    simp only [List.flatMap_cons, List.length_append, List.length_cons, Nat.mul_add]
    omega

theorem literal_length (A : DumpArgs F) (s : List Nat) :
    (A.printer'.literal s).length ≤ 2 + (if A.uesc then 12 else 4) * s.length := by
  have h1 : ((itemsOf A.se A.sw s).filterMap id).length ≤ s.length :=
    Nat.le_trans (List.length_filterMap_le _ _) (itemsOf_length _ _ _)
  have h2 := flatMap_length (charText_length (uesc := A.uesc) (enc := A.printer'.enc) fun c => store_length) ((itemsOf A.se A.sw s).filterMap id)
  have h3 := Nat.mul_le_mul_left (if A.uesc then 12 else 4) h1
  show (0x22 :: ((itemsOf A.se A.sw s).filterMap id).flatMap (charText A.uesc A.printer'.enc) ++ [0x22]).length ≤ _
  simp only [List.length_append, List.length_cons, List.length_nil]
  omega

/-! ## Values -/

theorem indent_length (st : Style) {d D : Nat} (h : d ≤ D) : (st.indent d).length + st.nl.length ≤ if st.pretty then 1 + st.step * D else 0 := by
  unfold Style.indent Style.nl
  cases hp : st.pretty with
  | false => simp
  | true =>
    have : d % 65536 * st.step ≤ st.step * D := by
      rw [Nat.mul_comm]
      exact Nat.mul_le_mul_left _ (Nat.le_trans (Nat.mod_le _ _) h)
    by_cases hc : st.ch = 0 <;> simp [hc] <;> omega

theorem inside_length {P : Printer F} {d W : Nat} (h : (P.style.indent d).length + P.style.nl.length ≤ W) :
    ∀ ts : List (List Nat), ts ≠ [] → P.style.nl.length + (P.items d ts).length ≤ (ts.map fun t => t.length + 1 + W).sum
  | [], hn => absurd rfl hn
  | [t], _ => by simp [Printer.items]; omega
  | t :: u :: ts, _ => by
    have := inside_length h (u :: ts) (by simp)
    simp only [Printer.items, List.length_append, List.length_cons, List.length_nil, List.map_cons, List.sum_cons] at this ⊢
    omega

theorem block_length {P : Printer F} {d W : Nat} {op cl : Nat} (h : (P.style.indent d).length + P.style.nl.length ≤ W) {ts : List (List Nat)}
    (h' : ts ≠ [] → (P.style.indent (d + 1)).length + P.style.nl.length ≤ W) :
    (P.block d op cl ts).length ≤ 2 + W + (ts.map fun t => t.length + 1 + W).sum := by
  unfold Printer.block
  by_cases hn : ts = []
  · simp [hn]; omega
  · have := inside_length (h' hn) ts hn
    simp only [hn, if_false, List.length_append, List.length_cons, List.length_nil]
    omega

section
variable {A : DumpArgs F} {w D : Nat}

/-- What a line end and the indentation of a line need. -/
private def line (A : DumpArgs F) (D : Nat) : Nat := if A.pretty then 1 + A.step * D else 0

mutual
theorem text_length : ∀ (v : Value F) (d : Nat), d + height v ≤ D + 1 →
    (∀ i, HasInt v i → -9223372036854775808 ≤ i ∧ i < 9223372036854775808) → (∀ f, HasFloat v f → (A.printer'.flt f).length ≤ w) →
    (A.printer'.text d v).length + line A D ≤ textRoom (if A.uesc then 12 else 4) w v + 2 * nodes v * line A D
  | .null, d, _, _, _ => by simp only [Printer.text, textRoom, nodes, List.length_cons, List.length_nil]; omega
  | .bool true, d, _, _, _ => by simp only [Printer.text, textRoom, nodes, List.length_cons, List.length_nil]; omega
  | .bool false, d, _, _, _ => by simp only [Printer.text, textRoom, nodes, List.length_cons, List.length_nil]; omega
  | .int i, d, _, hi, _ => by
    have : (A.printer'.num i).length ≤ 20 := decText_length (hi i .int).1 (hi i .int).2
    simp only [Printer.text, textRoom, nodes]; omega
  | .flt f, d, _, _, hf => by
    have := hf f .flt
    simp only [Printer.text, textRoom, nodes]; omega
  | .str s, d, _, _, _ => by
    have := literal_length A s
    simp only [Printer.text, textRoom, nodes]; omega
  | .arr xs, d, hd, hi, hf => by
    have h1 := texts_length xs (d + 1) (by simp only [height] at hd; omega) (fun x i hx h => hi i (.elem hx h)) (fun x f hx h => hf f (.elem hx h))
    have h2 := block_length (P := A.printer') (d := d) (W := line A D) (op := 0x5B) (cl := 0x5D) (ts := A.printer'.texts (d + 1) xs)
      (indent_length A.style (by simp only [height] at hd; omega)) (fun hn => indent_length A.style (by
        cases xs with
        | nil => exact absurd rfl hn
        | cons x xs =>
          have : 1 ≤ height x := by cases x <;> simp [height]
          simp only [height, heightElems] at hd; omega))
    simp only [Printer.text, textRoom, nodes, Nat.mul_add, Nat.add_mul] at h1 h2 ⊢; omega
  | .obj ms, d, hd, hi, hf => by
    have h1 := members_length ms (d + 1) (by simp only [height] at hd; omega) (fun k x i hx h => hi i (.member hx h)) (fun k x f hx h => hf f (.member hx h))
    have h2 := block_length (P := A.printer') (d := d) (W := line A D) (op := 0x7B) (cl := 0x7D) (ts := A.printer'.members (d + 1) ms)
      (indent_length A.style (by simp only [height] at hd; omega)) (fun hn => indent_length A.style (by
        cases ms with
        | nil => exact absurd rfl hn
        | cons m ms =>
          have : 1 ≤ height m.2 := by cases m.2 <;> simp [height]
          simp only [height, heightMembers] at hd; omega))
    simp only [Printer.text, textRoom, nodes, Nat.mul_add, Nat.add_mul] at h1 h2 ⊢; omega

theorem texts_length : ∀ (xs : List (Value F)) (d : Nat), d + heightElems xs ≤ D + 1 →
    (∀ x i, x ∈ xs → HasInt x i → -9223372036854775808 ≤ i ∧ i < 9223372036854775808) →
    (∀ x f, x ∈ xs → HasFloat x f → (A.printer'.flt f).length ≤ w) →
    ((A.printer'.texts d xs).map fun t => t.length + 1 + line A D).sum ≤ roomElems (if A.uesc then 12 else 4) w xs + 2 * nodesElems xs * line A D
  | [], d, _, _, _ => by simp [Printer.texts]
  | x :: xs, d, hd, hi, hf => by
    simp only [heightElems] at hd
    have h1 := text_length x d (by omega) (fun i h => hi x i (.head _) h) (fun f h => hf x f (.head _) h)
    have h2 := texts_length xs d (by omega) (fun y i hy h => hi y i (.tail _ hy) h) (fun y f hy h => hf y f (.tail _ hy) h)
    simp only [Printer.texts, roomElems, nodesElems, List.map_cons, List.sum_cons, Nat.mul_add, Nat.add_mul] at h1 h2 ⊢; omega

theorem members_length : ∀ (ms : List (List Nat × Value F)) (d : Nat), d + heightMembers ms ≤ D + 1 →
    (∀ k x i, (k, x) ∈ ms → HasInt x i → -9223372036854775808 ≤ i ∧ i < 9223372036854775808) →
    (∀ k x f, (k, x) ∈ ms → HasFloat x f → (A.printer'.flt f).length ≤ w) →
    ((A.printer'.members d ms).map fun t => t.length + 1 + line A D).sum ≤
      roomMembers (if A.uesc then 12 else 4) w ms + 2 * nodesMembers ms * line A D
  | [], d, _, _, _ => by simp [Printer.members]
  | (k, x) :: ms, d, hd, hi, hf => by
    simp only [heightMembers] at hd
    have h1 := text_length x d (by omega) (fun i h => hi k x i (.head _) h) (fun f h => hf k x f (.head _) h)
    have h2 := members_length ms d (by omega) (fun j y i hy h => hi j y i (.tail _ hy) h) (fun j y f hy h => hf j y f (.tail _ hy) h)
    have h3 := literal_length A k
    have h4 : A.printer'.style.space.length ≤ 1 := by unfold Style.space; split <;> simp
    simp only [Printer.members, roomMembers, nodesMembers, List.map_cons, List.sum_cons, List.length_append, List.length_cons, List.length_nil,
      Nat.mul_add, Nat.add_mul] at h1 h2 ⊢; omega
end

theorem dump_length {str r : List Nat} {v : Value F} (h : jsonDump A none str v = (.ok (), r))
    (hi : ∀ i, HasInt v i → -9223372036854775808 ≤ i ∧ i < 9223372036854775808) (hf : ∀ f, HasFloat v f → (A.printer'.flt f).length ≤ w) :
    r.length + (if A.pretty then 1 + A.step * (height v - 1) else 0) ≤
      str.length + textRoom (if A.uesc then 12 else 4) w v + 2 * nodes v * (if A.pretty then 1 + A.step * (height v - 1) else 0) := by
  have h1 := (jsonDump_good h).2
  have hv : 1 ≤ height v := by cases v <;> simp [height]
  have h2 := text_length (A := A) (w := w) (D := height v - 1) v 0 (by omega) hi hf
  rw [h1, List.length_append]
  unfold line at h2
  omega
end

end Configor
