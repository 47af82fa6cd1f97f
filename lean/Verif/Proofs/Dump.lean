import Verif.Model.Serializer
import Verif.Spec.Dump
import Verif.Spec.Decoding
import Verif.Proofs.Document
/-! The serializer writes the text of `Spec.Printer`. -/
namespace Configor
open Spec Serializer

/-! ## The monad -/

theorem get_bind {σ α : Type} (f : σ → M σ α) (s : σ) : (M.get >>= f) s = f s s := rfl
theorem gets_bind {σ α β : Type} (g : σ → α) (f : α → M σ β) (s : σ) : (M.gets g >>= f) s = f (g s) s := rfl
theorem modify_bind {σ β : Type} (g : σ → σ) (f : Unit → M σ β) (s : σ) : (M.modify g >>= f) s = f () (g s) := rfl

/-! ## Digits -/

theorem digitsFuel_acc {b : Nat} (hb : 2 ≤ b) (n i : Nat) (h : i < n) (acc : List Nat) :
    digitsFuel b n i acc = digitsFuel b n i [] ++ acc := by
  induction n generalizing i acc with
  | zero => omega
  | succ n ih =>
    unfold digitsFuel
    split
    · rfl
    · rename_i hlt
      have : i / b < i := Nat.div_lt_self (by omega) (by omega)
      rw [ih (i / b) (by omega), ih (i / b) (by omega) [i % b]]
      simp

theorem digitsFuel_enough {b : Nat} (hb : 2 ≤ b) (n m i : Nat) (h : i < n) (h' : i < m) (acc : List Nat) :
    digitsFuel b n i acc = digitsFuel b m i acc := by
  induction n generalizing m i acc with
  | zero => omega
  | succ n ih =>
    obtain ⟨m, rfl⟩ : ∃ k, m = k + 1 := ⟨m - 1, by omega⟩
    unfold digitsFuel
    split
    · rfl
    · have : i / b < i := Nat.div_lt_self (by omega) (by omega)
      exact ih m (i / b) (by omega) (by omega) _

theorem digits_eq {b : Nat} (hb : 2 ≤ b) (i : Nat) :
    digits b i = if i < b then [i] else digits b (i / b) ++ [i % b] := by
  unfold digits
  rw [digitsFuel]
  split
  · rfl
  · have : i / b < i := Nat.div_lt_self (by omega) (by omega)
    rw [digitsFuel_acc hb _ _ (by omega), digitsFuel_enough hb i (i / b + 1) (i / b) (by omega) (by omega)]

theorem digitChar_hex (d : Nat) : digitChar d = hexChar d := rfl

theorem hexText_eq (size i : Nat) (hi : i < 65536) :
    hexText size i = [0x5C, 0x75] ++ List.replicate (size - (digits 16 i).length) 0x30 ++ (digits 16 i).map hexChar ∧
    digits 16 i = if i < 16 then [i] else if i < 256 then [i / 16, i % 16]
      else if i < 4096 then [i / 256, i / 16 % 16, i % 16] else [i / 4096, i / 256 % 16, i / 16 % 16, i % 16] := by
  refine ⟨by simp [hexText]; exact fun _ _ => rfl, ?_⟩
  rw [digits_eq (by decide)]
  split
  · rfl
  · rw [digits_eq (by decide)]
    by_cases h2 : i < 256
    · rw [if_pos (by omega), if_pos h2]; rfl
    · rw [if_neg (by omega), if_neg h2, digits_eq (by decide)]
      by_cases h3 : i < 4096
      · rw [if_pos (by omega), if_pos h3]; simp; omega
      · rw [if_neg (by omega), if_neg h3, digits_eq (by decide), if_pos (by omega)]
        simp; omega

theorem hexText_short {i : Nat} (hi : i < 65536) : hexText 2 i = [0x5C, 0x75] ++ hexShort i := by
  obtain ⟨h1, h2⟩ := hexText_eq 2 i hi
  rw [h1, h2]
  unfold hexShort hex4
  by_cases g1 : i < 16
  · have e1 : i / 16 % 16 = 0 := by omega
    have e2 : i % 16 = i := by omega
    simp [g1, (by omega : i < 256), e1, e2]; rfl
  · by_cases g2 : i < 256
    · have e1 : i / 16 % 16 = i / 16 := by omega
      simp [g1, g2, e1]
    · by_cases g3 : i < 4096
      · have e1 : i / 256 % 16 = i / 256 := by omega
        simp [g1, g2, g3, e1]
      · have e1 : i / 4096 % 16 = i / 4096 := by omega
        simp [g1, g2, g3, e1]

theorem hexText_four {i : Nat} (hi : i < 65536) : hexText 4 i = [0x5C, 0x75] ++ hex4 i := by
  obtain ⟨h1, h2⟩ := hexText_eq 4 i hi
  rw [h1, h2]
  unfold hex4
  have hz : hexChar 0 = 0x30 := rfl
  by_cases g1 : i < 16
  · have e1 : i / 16 % 16 = 0 := by omega
    have e2 : i % 16 = i := by omega
    have e3 : i / 256 % 16 = 0 := by omega
    have e4 : i / 4096 % 16 = 0 := by omega
    simp [g1, e1, e2, e3, e4, hz, List.replicate]
  · by_cases g2 : i < 256
    · have e1 : i / 16 % 16 = i / 16 := by omega
      have e3 : i / 256 % 16 = 0 := by omega
      have e4 : i / 4096 % 16 = 0 := by omega
      simp [g1, g2, e1, e3, e4, hz, List.replicate]
    · by_cases g3 : i < 4096
      · have e1 : i / 256 % 16 = i / 256 := by omega
        have e4 : i / 4096 % 16 = 0 := by omega
        simp [g1, g2, g3, e1, e4, hz]
      · have e1 : i / 4096 % 16 = i / 4096 := by omega
        simp [g1, g2, g3, e1]

theorem hex4_mod (n : Nat) : hex4 (n % 65536) = hex4 n := by
  unfold hex4
  have e1 : n % 65536 / 4096 % 16 = n / 4096 % 16 := by omega
  have e2 : n % 65536 / 256 % 16 = n / 256 % 16 := by omega
  have e3 : n % 65536 / 16 % 16 = n / 16 % 16 := by omega
  have e4 : n % 65536 % 16 = n % 16 := by omega
  rw [e1, e2, e3, e4]

theorem surrogate_arith {c : Nat} (hc : 0x10000 ≤ c) :
    (encodeSurrogates c).1 = (0xD800 + (c - 0x10000) / 1024) % 65536 ∧
    (encodeSurrogates c).2 = 0xDC00 + (c - 0x10000) % 1024 := by
  have ha : u32sub c 0x10000 &&& 0x3FF = u32sub c 0x10000 % 1024 := Nat.and_two_pow_sub_one_eq_mod _ 10
  unfold encodeSurrogates
  simp only [ha, Nat.shiftRight_eq_div_pow]
  simp only [Nat.reducePow]
  unfold u32 u32sub
  constructor <;> omega

theorem uniEscape_pair {c : Nat} (hc : 0x10000 ≤ c) :
    hexText 4 (encodeSurrogates c).1 ++ hexText 4 (encodeSurrogates c).2 = uniEscape c := by
  obtain ⟨h1, h2⟩ := surrogate_arith hc
  unfold uniEscape
  rw [h1, h2, if_neg (by omega), hexText_four (by omega), hexText_four (by omega), hex4_mod]
  simp

/-! ## Encoders -/

theorem encode_units (e : Enc) (w : Nat) (o : OStream) (ho : o.failb = false) (cp : Nat) :
    match storeWith (e.encode w) [cp] with
    | some u => e.encode w o cp = ⟨o.out ++ u, false⟩
    | none => (e.encode w o cp).failb = true := by
  obtain ⟨out, f⟩ := o
  simp only at ho
  subst ho
  unfold storeWith writeAll
  simp only [List.foldl_cons, List.foldl_nil, OStream.ofString]
  cases e
  · simp [Enc.encode, ignoreEncode, OStream.put]
  · simp only [Enc.encode, utf8Encode]
    by_cases h1 : cp < 0x80
    · simp [h1, OStream.put]
    by_cases h2 : cp ≤ 0x7FF
    · simp [h1, h2, OStream.put]
    by_cases h3 : cp ≤ 0xFFFF
    · simp [h1, h2, h3, OStream.put]
    by_cases h4 : cp ≤ 0x10FFFF
    · simp [h1, h2, h3, h4, OStream.put]
    · simp [h1, h2, h3, h4, OStream.setFail]
  · simp only [Enc.encode, utf16Encode]
    by_cases h3 : cp ≤ 0xFFFF
    · simp [h3, OStream.put]
    by_cases h4 : cp ≤ 0x10FFFF
    · simp [h3, h4, OStream.put]
    · simp [h3, h4, OStream.setFail]
  · simp only [Enc.encode, utf32Encode]
    by_cases h4 : cp > 0x10FFFF
    · simp [h4, OStream.setFail, OStream.put]
    · simp [h4, OStream.put]

/-! ## The indent buffer -/

variable {F : Type} {A : DumpArgs F}

/-- The layout of a call. -/
def DumpArgs.style (A : DumpArgs F) : Style := ⟨A.pretty, A.step, A.ch⟩

/-- The indent object at nesting depth `d`: its buffer is long enough for every depth up to `d`. -/
structure IndOk (A : DumpArgs F) (d : Nat) (i : Indent) : Prop where
  step : i.step = A.step
  ch : i.ch = A.ch
  depth : i.depth = d % 65536
  nul : A.ch = 0 → i.str = []
  buf : A.ch ≠ 0 → ∃ n, i.str = List.replicate n A.ch ∧ ∀ d' ≤ d, d' % 65536 * A.step ≤ n

theorem reserve_fields (i : Indent) (l : Nat) : (i.reserve l).step = i.step ∧ (i.reserve l).ch = i.ch ∧
    (i.reserve l).depth = i.depth := by
  unfold Indent.reserve; split <;> (try split) <;> exact ⟨rfl, rfl, rfl⟩

theorem reserve_buf {i : Indent} {c n : Nat} (l : Nat) (hc : i.ch = c) (h0 : c ≠ 0) (hs : i.str = List.replicate n c) :
    ∃ m, (i.reserve l).str = List.replicate m c ∧ n ≤ m ∧ l ≤ m := by
  unfold Indent.reserve
  rw [if_pos (by rw [hc]; exact h0)]
  have hl : i.str.length = n := by rw [hs]; simp
  split
  · refine ⟨n + (l + i.step * 2 - n), ?_, by omega, by omega⟩
    simp only [hs, hc, List.length_replicate, List.replicate_append_replicate]
  · exact ⟨n, hs, Nat.le_refl _, by omega⟩

theorem reserve_nul {i : Indent} (l : Nat) (hc : i.ch = 0) : i.reserve l = i := by
  unfold Indent.reserve; rw [if_neg (by simp [hc])]

theorem IndOk.reserve {d : Nat} {i : Indent} (h : IndOk A d i) (l : Nat) : IndOk A d (i.reserve l) := by
  obtain ⟨h1, h2, h3⟩ := reserve_fields i l
  refine ⟨h1.trans h.step, h2.trans h.ch, h3.trans h.depth, ?_, ?_⟩
  · intro h0
    rw [reserve_nul l (h.ch.trans h0)]
    exact h.nul h0
  · intro h0
    obtain ⟨n, hn, hb⟩ := h.buf h0
    obtain ⟨m, hm, hle, _⟩ := reserve_buf l h.ch h0 hn
    exact ⟨m, hm, fun d' hd => Nat.le_trans (hb d' hd) hle⟩

theorem indOk_make (A : DumpArgs F) : IndOk A 0 (.make A.step A.ch) := by
  have h : IndOk A 0 ⟨A.step, 0, A.ch, []⟩ :=
    ⟨rfl, rfl, rfl, fun _ => rfl, fun _ => ⟨0, rfl, fun d' hd => by
      have : d' = 0 := by omega
      subst this; simp⟩⟩
  exact h.reserve _

theorem IndOk.inc {d : Nat} {i : Indent} (h : IndOk A d i) : IndOk A (d + 1) i.inc := by
  unfold Indent.inc
  simp only
  have hd : (i.depth + 1) % 65536 = (d + 1) % 65536 := by rw [h.depth]; omega
  obtain ⟨h1, h2, h3⟩ := reserve_fields { i with depth := (i.depth + 1) % 65536 } ((i.depth + 1) % 65536 * i.step)
  refine ⟨h1.trans h.step, h2.trans h.ch, h3.trans hd, ?_, ?_⟩
  · intro h0
    rw [reserve_nul (i := { i with depth := (i.depth + 1) % 65536 }) _ (h.ch.trans h0)]
    exact h.nul h0
  · intro h0
    obtain ⟨n, hn, hb⟩ := h.buf h0
    obtain ⟨m, hm, hle, hl⟩ := reserve_buf (i := { i with depth := (i.depth + 1) % 65536 })
      ((i.depth + 1) % 65536 * i.step) h.ch h0 hn
    refine ⟨m, hm, fun d' hd' => ?_⟩
    by_cases he : d' = d + 1
    · rw [he, ← hd, ← h.step]; exact hl
    · exact Nat.le_trans (hb d' (by omega)) hle

theorem depth_dec (d : Nat) : ((d + 1) % 65536 + 65535) % 65536 = d % 65536 := by omega

theorem IndOk.dec {d : Nat} {i : Indent} (h : IndOk A (d + 1) i) : IndOk A d i.dec := by
  unfold Indent.dec
  rw [h.depth, depth_dec]
  refine ⟨h.step, h.ch, rfl, h.nul, ?_⟩
  · intro h0
    obtain ⟨n, hn, hb⟩ := h.buf h0
    exact ⟨n, hn, fun d' hd' => hb d' (by omega)⟩

/-! ## The states of the serializer -/

/-- A state in which `out` is written, at depth `d`. -/
structure Is (A : DumpArgs F) (d : Nat) (b : Bool) (t : Token) (out : List Nat) (s : Ser) : Prop where
  os : s.os = ⟨out, false⟩
  began : s.began = b
  last : s.last = t
  ind : IndOk A d s.ind

variable {d : Nat} {b : Bool} {t : Token} {out : List Nat} {s : Ser}

/-- A computation writes `cs`. -/
def Wr (m : M Ser Unit) (s : Ser) (s' : Ser) : Prop := m s = (.ok (), s')

theorem Wr.bind {m : M Ser Unit} {f : Unit → M Ser Unit} {s s' : Ser} {s'' : Ser} (h : Wr m s s') (h' : Wr (f ()) s' s'') :
    Wr (m >>= f) s s'' := by
  unfold Wr at *
  rw [M.bind_ok h, h']

theorem wr_output (h : Is A d b t out s) (cs : List Nat) :
    ∃ s', Wr (output cs) s s' ∧ Is A d b t (out ++ cs) s' := by
  refine ⟨_, rfl, ?_, h.began, h.last, h.ind⟩
  simp [h.os, OStream.write]

theorem wr_newline (h : Is A d b t out s) :
    ∃ s', Wr (newline A) s s' ∧ Is A d b t (out ++ A.style.nl) s' := by
  unfold newline Style.nl DumpArgs.style
  simp only
  split
  · exact wr_output h _
  · exact ⟨s, rfl, by simpa using h⟩

theorem chars_ok {i : Indent} (h : IndOk A d i) (h0 : A.ch ≠ 0) : i.chars (d % 65536 * A.step) =
    some (List.replicate (d % 65536 * A.step) A.ch) := by
  obtain ⟨n, hn, hb⟩ := h.buf h0
  have := hb d (Nat.le_refl _)
  unfold Indent.chars
  rw [hn, if_pos (by simp; omega)]
  simp [List.take_append, List.take_replicate, Nat.min_eq_left this, Nat.sub_eq_zero_of_le this]

theorem wr_outputIndent (h : Is A d b t out s) :
    ∃ s', Wr (outputIndent A) s s' ∧ Is A d b t (out ++ A.style.indent d) s' := by
  unfold outputIndent Style.indent DumpArgs.style
  simp only
  by_cases hp : A.pretty = true
  · rw [if_pos hp]
    by_cases hc : s.ind.ch ≠ 0 ∧ s.ind.step > 0 ∧ s.ind.depth > 0
    · have h0 : A.ch ≠ 0 := h.ind.ch ▸ hc.1
      rw [if_pos ⟨hp, h0⟩]
      refine ⟨{ s with os := s.os.write (List.replicate (d % 65536 * A.step) A.ch) }, ?_, ?_, h.began, h.last, h.ind⟩
      · unfold Wr
        rw [get_bind]
        rw [if_pos hc]
        unfold writeIndent
        rw [h.ind.depth, h.ind.step, chars_ok h.ind h0]
      · simp [h.os, OStream.write]
    · refine ⟨s, ?_, ?_⟩
      · unfold Wr
        rw [get_bind]
        rw [if_neg hc]; rfl
      · have he : (if A.pretty = true ∧ A.ch ≠ 0 then List.replicate (d % 65536 * A.step) A.ch else []) = [] := by
          split
          · rename_i h2
            rw [h.ind.ch, h.ind.step, h.ind.depth] at hc
            have : d % 65536 = 0 ∨ A.step = 0 := by
              rcases Nat.eq_zero_or_pos (d % 65536) with h3 | h3
              · exact Or.inl h3
              · rcases Nat.eq_zero_or_pos A.step with h4 | h4
                · exact Or.inr h4
                · exact absurd ⟨h2.2, h4, h3⟩ hc
            rcases this with h3 | h3 <;> simp [h3]
          · rfl
        rw [he]; simpa using h
  · rw [if_neg hp, if_neg (fun h => hp h.1)]
    exact ⟨s, rfl, by simpa using h⟩

theorem wr_outputIndent1 (h : Is A d b t out s) :
    ∃ s', Wr (outputIndent1 A) s s' ∧ Is A d b t (out ++ A.style.space) s' := by
  unfold outputIndent1 Style.space DumpArgs.style
  simp only
  split
  · refine ⟨{ s with ind := s.ind.reserve 1, os := s.os.write [A.ch] }, ?_, ?_, h.began, h.last, h.ind.reserve 1⟩
    · unfold Wr
      rw [modify_bind]
      unfold writeIndent
      have hc : (s.ind.reserve 1).chars 1 = some [A.ch] := by
        by_cases h0 : A.ch = 0
        · rw [reserve_nul _ (h.ind.ch.trans h0)]
          unfold Indent.chars
          rw [h.ind.nul h0, h0]; rfl
        · obtain ⟨n, hn, _⟩ := h.ind.buf h0
          obtain ⟨m, hm, _, hl⟩ := reserve_buf 1 h.ind.ch h0 hn
          unfold Indent.chars
          rw [hm, if_pos (by simp)]
          obtain ⟨m, rfl⟩ : ∃ k, m = k + 1 := ⟨m - 1, by omega⟩
          simp [List.replicate_succ]
      simp only [hc]
    · simp [h.os, OStream.write]
  · exact ⟨s, rfl, by simpa using h⟩

/-- What is written before a value. -/
def pre (st : Style) (d : Nat) (b : Bool) (t : Token) : List Nat :=
  (if b then st.nl else []) ++ if t = .nameSeparator then [] else st.indent d

theorem indent_plain {st : Style} (h : st.pretty = false) (d : Nat) : st.indent d = [] := by
  unfold Style.indent; simp [h]

theorem wr_began {tk : Token} (h : Is A d b t out s) :
    ∃ s', Wr (nextBegan A tk) s s' ∧ Is A d false t (out ++ if b && startsValue tk then A.style.nl else []) s' := by
  unfold nextBegan
  have hb := h.began
  cases b with
  | false =>
    refine ⟨s, ?_, by simpa using h⟩
    unfold Wr
    rw [gets_bind, hb]
    rfl
  | true =>
    have h1 : Is A d false t out { s with began := false } := ⟨h.os, rfl, h.last, h.ind⟩
    cases hs : startsValue tk with
    | true =>
      obtain ⟨s', h2, h3⟩ := wr_newline h1
      refine ⟨s', ?_, by simpa using h3⟩
      unfold Wr
      rw [gets_bind, hb]
      exact Wr.bind (s' := { s with began := false }) rfl h2
    | false =>
      refine ⟨_, ?_, by simpa using h1⟩
      unfold Wr
      rw [gets_bind, hb]
      rfl

theorem wr_indent {tk : Token} (h : Is A d b t out s) :
    ∃ s', Wr (nextIndent A tk) s s' ∧
      Is A d b t (out ++ if startsValue tk = true ∧ t ≠ .nameSeparator then A.style.indent d else []) s' := by
  unfold nextIndent
  have hl := h.last
  by_cases hc : A.pretty = true ∧ t ≠ .nameSeparator ∧ startsValue tk = true
  · obtain ⟨s', h2, h3⟩ := wr_outputIndent h
    refine ⟨s', ?_, by rw [if_pos ⟨hc.2.2, hc.2.1⟩]; exact h3⟩
    unfold Wr
    rw [gets_bind, hl]
    rw [if_pos hc]; exact h2
  · refine ⟨s, ?_, ?_⟩
    · unfold Wr
      rw [gets_bind, hl]
      rw [if_neg hc]; rfl
    · have : (if startsValue tk = true ∧ t ≠ .nameSeparator then A.style.indent d else []) = [] := by
        split
        · rename_i h2
          cases hp : A.pretty with
          | true => exact absurd ⟨hp, h2.2, h2.1⟩ hc
          | false => exact indent_plain (by exact hp) d
        · rfl
      rw [this]; simpa using h

theorem wr_next {tk : Token} {d' : Nat} {b' : Bool} {cs : List Nat} (h : Is A d b t out s)
    (ho : ∀ s1 out1, Is A d false t out1 s1 → ∃ s2, Wr (nextOutput A tk) s1 s2 ∧ Is A d' b' t (out1 ++ cs) s2) :
    ∃ s', Wr (next A tk) s s' ∧
      Is A d' b' tk (out ++ (if startsValue tk then pre A.style d b t else []) ++ cs) s' := by
  obtain ⟨s1, h1, i1⟩ := wr_began (tk := tk) h
  obtain ⟨s2, h2, i2⟩ := wr_indent (tk := tk) i1
  obtain ⟨s3, h3, i3⟩ := ho _ _ i2
  refine ⟨{ s3 with last := tk }, h1.bind (h2.bind (h3.bind rfl)), ?_, i3.began, rfl, i3.ind⟩
  show s3.os = _
  rw [i3.os]
  unfold pre
  cases startsValue tk <;> cases b <;> by_cases ht : t = .nameSeparator <;> simp [ht]

end Configor
