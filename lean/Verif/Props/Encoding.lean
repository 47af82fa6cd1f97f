import Verif.Proofs.Encoding
import Verif.Spec.Decoding
/-!
# Properties C01-C09: encodings
-/
namespace Configor.Props
open Configor Spec

/-- C02. The UTF-8 encoder writes exactly the octets RFC 3629 prescribes. -/
theorem C02_utf8_encode_rfc3629 (o : OStream) (ho : o.good = true) (cp : Nat) (h : cp ≤ maxCp) :
    utf8Encode 8 o cp = ⟨o.out ++ Spec.utf8 cp, false⟩ :=
  utf8Encode_ok (by simpa [OStream.good] using ho) h

/-- C02. Above U+10FFFF nothing is written and failbit is set. -/
theorem C02_utf8_encode_out_of_range (o : OStream) (cp : Nat) (h : maxCp < cp) :
    (utf8Encode 8 o cp).out = o.out ∧ (utf8Encode 8 o cp).good = false := by
  rw [utf8Encode_fail 8 o h]; simp [OStream.setFail, OStream.good]

example : utf8Encode 8 ⟨[0x41], false⟩ 0x20AC = ⟨[0x41, 0xE2, 0x82, 0xAC], false⟩ := by decide +kernel
example : (⟨[0x41], false⟩ : OStream).good = true ∧ 0x20AC ≤ maxCp ∧ maxCp < 0x110000 := by decide

/-- The decoder of a built-in encoding started on a good string stream reads one
encoded code point and stops exactly behind it. -/
theorem decode_one {e : Enc} {w cp : Nat} {u pre suf : List Nat}
    (hstep : ∀ rest, e.step w (ints u ++ rest) = some (some cp, rest))
    (hc : NoEof w (pre ++ u ++ suf)) :
    e.decode w (strSBuf w) (readUpTo (pre ++ u ++ suf) pre.length) =
      (true, cp, readUpTo (pre ++ u ++ suf) (pre ++ u).length) := by
  have V := strAtView w hc
  have F := e.follows w V
  have h0 : StrAt (pre ++ u ++ suf) ⟨pre ++ u ++ suf, pre.length⟩ (ints u ++ ints suf) := by
    have := strAt_start pre (u ++ suf)
    rwa [← List.append_assoc, ints_append] at this
  obtain ⟨s', h1, h2⟩ := F.good h0 (hstep _)
  rw [show readUpTo (pre ++ u ++ suf) pre.length = ⟨⟨pre ++ u ++ suf, pre.length⟩, false, false⟩ from rfl,
    h1, h2.idx_eq (pre := pre ++ u) rfl]
  rfl

/-- C01. UTF-8 round trip of one code point in any surroundings. -/
theorem C01_utf8_roundtrip (cp : Nat) (h : cp ≤ maxCp) (pre suf : List Nat) :
    let bytes := (utf8Encode 8 (.ofString pre) cp).out
    (utf8Encode 8 (.ofString pre) cp).good = true ∧
    utf8Decode (strSBuf 8) (readUpTo (bytes ++ suf) pre.length) =
      (true, cp, readUpTo (bytes ++ suf) bytes.length) := by
  rw [utf8Encode_ok (o := .ofString pre) rfl h]
  exact ⟨rfl, decode_one (e := .utf8) (w := 8) (fun rest => utf8Step_enc h rest)
    (fun u _ => Or.inl rfl)⟩

example : (0x1F600 : Nat) ≤ maxCp := by decide

/-- How many octets a UTF-8 lead octet announces (the historical 1..6 octet form;
RFC 3629 uses only 1..4). -/
def announced (b : Nat) : Nat :=
  if b < 0xC0 then 1 else if b < 0xE0 then 2 else if b < 0xF0 then 3
  else if b < 0xF8 then 4 else if b < 0xFC then 5 else 6

theorem announced_eq {b : Nat} (h : b < 256) : announced b = utf8ExtraTable.getD b 0 + 1 := by
  rw [utf8Extra_eq b h]; unfold announced; split
  · rfl
  split
  · rfl
  split
  · rfl
  split
  · rfl
  split <;> rfl

/-- The decoder on a string position, case by case. -/
theorem decode_at (e : Enc) (w : Nat) (str : List Nat) (n : Nat) (hn : n ≤ str.length)
    (hc : NoEof w str) :
    (str.drop n = [] ∧ (e.decode w (strSBuf w) (readUpTo str n)).1 = false) ∨
    (∃ cp k, 1 ≤ k ∧ n + k ≤ str.length ∧
      e.step w (ints (str.drop n)) = some (some cp, ints (str.drop (n + k))) ∧
      e.decode w (strSBuf w) (readUpTo str n) = (true, cp, readUpTo str (n + k))) ∨
    (∃ rest, e.step w (ints (str.drop n)) = some (none, rest) ∧
      (e.decode w (strSBuf w) (readUpTo str n)).1 = true ∧
      (e.decode w (strSBuf w) (readUpTo str n)).2.2.good = false) := by
  have V := strAtView w hc
  have F := e.follows w V
  have h0 : StrAt str ⟨str, n⟩ (ints (str.drop n)) := ⟨rfl, hn, rfl⟩
  cases hst : e.step w (ints (str.drop n)) with
  | none =>
    left
    cases hd : str.drop n with
    | nil =>
      rw [hd] at h0
      exact ⟨rfl, (F.nil h0).1⟩
    | cons a as =>
      rw [hd] at hst
      exact absurd hst (F.stepcons _ _)
  | some p =>
    obtain ⟨o, rest⟩ := p
    right
    cases o with
    | none => exact Or.inr ⟨rest, rfl, F.bad h0 hst⟩
    | some cp =>
      left
      obtain ⟨k, k1, k2, k3⟩ := Enc.step_good hst
      rw [ints_length, List.length_drop] at k2
      obtain ⟨s', h1, h2⟩ := F.good h0 hst
      have e1 : str = str.take (n + k) ++ str.drop (n + k) := (List.take_append_drop _ _).symm
      have e2 : rest = ints (str.drop (n + k)) := by
        rw [k3, ints_drop, ints_drop, List.drop_drop]
      rw [e2] at h2
      have h3 := h2.idx_eq e1
      refine ⟨cp, k, k1, by omega, by rw [e2], ?_⟩
      rw [show readUpTo str n = ⟨⟨str, n⟩, false, false⟩ from rfl, h1, h3]
      simp only [readUpTo, IStream.ofBuf, List.length_take]
      rw [Nat.min_eq_left (by omega)]

/-- C03. A code point reported with a good stream is at most U+10FFFF, and exactly
as many octets as its lead octet announces were present and consumed. -/
theorem C03_utf8_decode_accepted (str : List Nat) (hb : ∀ b ∈ str, b < 256) (n : Nat)
    (hn : n ≤ str.length) (cp : Nat) (s' : IStream StrBuf)
    (h : utf8Decode (strSBuf 8) (readUpTo str n) = (true, cp, s')) (hg : s'.good = true) :
    cp ≤ maxCp ∧ ∃ b, str[n]? = some b ∧ n + announced b ≤ str.length ∧
      s' = readUpTo str (n + announced b) := by
  rcases decode_at .utf8 8 str n hn (fun u _ => Or.inl rfl) with ⟨_, h1⟩ | ⟨cp', k, k1, k2, hs, hd⟩ | ⟨_, _, _, h1⟩
  · simp only [Enc.decode] at h1; rw [h] at h1; simp at h1
  · simp only [Enc.decode] at hd
    rw [h] at hd
    simp only [Prod.mk.injEq, true_and] at hd
    obtain ⟨rfl, rfl⟩ := hd
    obtain ⟨b, bs, hl, h1, h2, h3⟩ := utf8Step_good hs
    refine ⟨h3, ?_⟩
    cases hdr : str.drop n with
    | nil => rw [hdr] at hl; simp [ints] at hl
    | cons a as =>
      have ha : str[n]? = some a := by rw [← List.head?_drop, hdr]; rfl
      have ha2 : a < 256 := hb a (List.mem_of_getElem? ha)
      rw [hdr] at hl
      have hba : b = (a : Int) := by simp [ints] at hl; exact hl.1.symm
      rw [hba, castU8_nat ha2, ← announced_eq ha2, ints_length, List.length_drop] at h1
      rw [hba, castU8_nat ha2, ← announced_eq ha2] at h2
      have := congrArg List.length h2
      simp only [ints_length, List.length_drop] at this
      have : k = announced a := by omega
      exact ⟨a, ha, by omega, by rw [this]⟩
  · simp only [Enc.decode] at h1; rw [h] at h1; simp [hg] at h1

/-- C03. A sequence cut off by the end of the input leaves the stream not good. -/
theorem C03_utf8_truncated_rejected (str : List Nat) (hb : ∀ b ∈ str, b < 256) (n b : Nat)
    (hget : str[n]? = some b) (hcut : str.length < n + announced b) :
    (utf8Decode (strSBuf 8) (readUpTo str n)).1 = true ∧
    (utf8Decode (strSBuf 8) (readUpTo str n)).2.2.good = false := by
  have hn : n < str.length := by
    rcases Nat.lt_or_ge n str.length with h | h
    · exact h
    · rw [List.getElem?_eq_none h] at hget; simp at hget
  rcases decode_at .utf8 8 str n (by omega) (fun u _ => Or.inl rfl) with ⟨h0, h1⟩ | ⟨cp', k, k1, k2, hs, hd⟩ | ⟨_, _, h1⟩
  · have := congrArg List.length h0; simp at this; omega
  · have := C03_utf8_decode_accepted str hb n (by omega) cp' _ hd (by rfl)
    obtain ⟨_, b', hb', h2, _⟩ := this
    rw [hget] at hb'
    simp only [Option.some.injEq] at hb'
    subst hb'; omega
  · exact h1

example : (utf8Decode (strSBuf 8) (readUpTo [0x41, 0xE2, 0x82] 1)).2.2.good = false := by decide +kernel
example : [0x41, 0xE2, 0x82][1]? = some 0xE2 ∧ [0x41, 0xE2, 0x82].length < 1 + announced 0xE2 := by decide

/-- C04 is violated: the decoder accepts octets that are not the UTF-8 form of the
code point it reports: an overlong form, a stray continuation octet, and a
sequence whose second octet is not a continuation octet. -/
theorem C04_violated :
    ReadsAs (utf8Decode (strSBuf 8)) (onString [0xC0, 0xAF]) [0x2F] ∧ [0xC0, 0xAF] ≠ Spec.utf8 0x2F ∧
    ReadsAs (utf8Decode (strSBuf 8)) (onString [0x80]) [0x80] ∧ [0x80] ≠ Spec.utf8 0x80 ∧
    ReadsAs (utf8Decode (strSBuf 8)) (onString [0xC3, 0x29]) [0x69] ∧ [0xC3, 0x29] ≠ Spec.utf8 0x69 := by
  refine ⟨?_, by decide, ?_, by decide, ?_, by decide⟩
  · exact .more (s' := readUpTo [0xC0, 0xAF] 2) (by decide +kernel) (by decide) (.done (by decide +kernel))
  · exact .more (s' := readUpTo [0x80] 1) (by decide +kernel) (by decide) (.done (by decide +kernel))
  · exact .more (s' := readUpTo [0xC3, 0x29] 2) (by decide +kernel) (by decide) (.done (by decide +kernel))

theorem utf8Step_good' {bs : List Nat} (hb : ∀ b ∈ bs, b < 256) {a : Nat} {as : List Nat}
    (hbs : bs = a :: as) {rest : List Int} {cp : Nat}
    (h : utf8Step (ints bs) = some (some cp, rest)) :
    (a < 0xC0 ∧ cp = a) ∨
    (∃ b t, as = b :: t ∧ 0xC0 ≤ a ∧ a < 0xE0 ∧ u32sub (a * 64 + b) 0x3080 = cp) ∨
    (∃ b c t, as = b :: c :: t ∧ 0xE0 ≤ a ∧ a < 0xF0 ∧ u32sub ((a * 64 + b) * 64 + c) 0xE2080 = cp) ∨
    (∃ b c d t, as = b :: c :: d :: t ∧ 0xF0 ≤ a ∧ a < 0xF8 ∧
      u32sub (((a * 64 + b) * 64 + c) * 64 + d) 0x3C82080 = cp) ∨
    (0xF8 ≤ a) := by
  subst hbs
  have ha : a < 256 := hb a (by simp)
  by_cases h1 : a < 0xC0
  · left
    rw [show ints (a :: as) = (a : Int) :: ints as from rfl, utf8Step_1 h1] at h
    simp at h; exact ⟨h1, h.1.symm⟩
  right
  by_cases h2 : a < 0xE0
  · left
    simp only [ints, List.map_cons, utf8Step] at h
    rw [castU8_nat ha, utf8Extra_eq _ ha, if_neg h1, if_pos h2] at h
    cases as with
    | nil => simp [utf8Sum] at h
    | cons b t =>
      have hb' : b < 256 := hb b (by simp)
      simp only [utf8Sum, List.map_cons] at h
      rw [castU8_nat ha, castU8_nat hb', Nat.zero_add, u32_of_lt (n := a) (by omega), Nat.shiftLeft_eq,
        u32_of_lt (n := a * 2 ^ 6) (by omega), u32_of_lt (by omega)] at h
      refine ⟨b, t, rfl, by omega, h2, ?_⟩
      split at h
      · simp at h
      · simp at h; exact h.1
  right
  by_cases h3 : a < 0xF0
  · left
    simp only [ints, List.map_cons, utf8Step] at h
    rw [castU8_nat ha, utf8Extra_eq _ ha, if_neg h1, if_neg h2, if_pos h3] at h
    rcases as with _ | ⟨b, _ | ⟨c, t⟩⟩
    · simp [utf8Sum] at h
    · simp [utf8Sum] at h
    · have hb' : b < 256 := hb b (by simp)
      have hc' : c < 256 := hb c (by simp)
      simp only [utf8Sum, List.map_cons] at h
      rw [castU8_nat ha, castU8_nat hb', castU8_nat hc', Nat.zero_add, u32_of_lt (n := a) (by omega),
        Nat.shiftLeft_eq, Nat.shiftLeft_eq,
        u32_of_lt (n := a * 2 ^ 6) (by omega), u32_of_lt (n := a * 2 ^ 6 + b) (by omega),
        u32_of_lt (n := (a * 2 ^ 6 + b) * 2 ^ 6) (by omega), u32_of_lt (by omega)] at h
      refine ⟨b, c, t, rfl, by omega, h3, ?_⟩
      split at h
      · simp at h
      · simp at h; exact h.1
  right
  by_cases h4 : a < 0xF8
  · left
    simp only [ints, List.map_cons, utf8Step] at h
    rw [castU8_nat ha, utf8Extra_eq _ ha, if_neg h1, if_neg h2, if_neg h3, if_pos h4] at h
    rcases as with _ | ⟨b, _ | ⟨c, _ | ⟨d, t⟩⟩⟩
    · simp [utf8Sum] at h
    · simp [utf8Sum] at h
    · simp [utf8Sum] at h
    · have hb' : b < 256 := hb b (by simp)
      have hc' : c < 256 := hb c (by simp)
      have hd' : d < 256 := hb d (by simp)
      simp only [utf8Sum, List.map_cons] at h
      rw [castU8_nat ha, castU8_nat hb', castU8_nat hc', castU8_nat hd', Nat.zero_add,
        u32_of_lt (n := a) (by omega),
        Nat.shiftLeft_eq, Nat.shiftLeft_eq, Nat.shiftLeft_eq,
        u32_of_lt (n := a * 2 ^ 6) (by omega), u32_of_lt (n := a * 2 ^ 6 + b) (by omega),
        u32_of_lt (n := (a * 2 ^ 6 + b) * 2 ^ 6) (by omega),
        u32_of_lt (n := (a * 2 ^ 6 + b) * 2 ^ 6 + c) (by omega),
        u32_of_lt (n := ((a * 2 ^ 6 + b) * 2 ^ 6 + c) * 2 ^ 6) (by omega), u32_of_lt (by omega)] at h
      refine ⟨b, c, d, t, rfl, by omega, h4, ?_⟩
      split at h
      · simp at h
      · simp at h; exact h.1
  right
  omega

/-- C04, the part that holds: the three laxities are the only ones. If the lead
octet is not a stray continuation octet or a 5/6-octet lead, the octets after it are
continuation octets, and the form is not overlong, then the accepted octets are the
RFC 3629 form of the reported code point. Missing: the decoder itself does not check
these conditions. -/
theorem C04_utf8_wellformed_partial (str : List Nat) (hb : ∀ b ∈ str, b < 256) (n : Nat)
    (hn : n ≤ str.length) (cp : Nat) (m : Nat)
    (h : utf8Decode (strSBuf 8) (readUpTo str n) = (true, cp, readUpTo str (n + m)))
    (hlead : ∀ b, str[n]? = some b → ¬ (0x80 ≤ b ∧ b < 0xC0) ∧ b < 0xF8)
    (hcont : ∀ i, 0 < i → i < m → ∃ b, str[n + i]? = some b ∧ 0x80 ≤ b ∧ b < 0xC0)
    (hmin : m ≤ (Spec.utf8 cp).length) :
    (str.drop n).take m = Spec.utf8 cp := by
  have hacc := C03_utf8_decode_accepted str hb n hn cp _ h rfl
  obtain ⟨hle, a, ha, hlen, heq⟩ := hacc
  have ha256 := hb a (List.mem_of_getElem? ha)
  have hm : m = announced a := by
    simp [readUpTo, IStream.ofBuf] at heq; exact heq
  rcases decode_at .utf8 8 str n hn (fun u _ => Or.inl rfl) with ⟨_, h1⟩ | ⟨cp', k, k1, k2, hs, hd⟩ | ⟨_, _, _, h1⟩
  · simp only [Enc.decode] at h1; rw [h] at h1; simp at h1
  · simp only [Enc.decode] at hd
    rw [h] at hd
    simp only [Prod.mk.injEq, true_and] at hd
    obtain ⟨rfl, _⟩ := hd
    have hl := hlead a ha
    have hdr : str.drop n = a :: str.drop (n + 1) := by
      cases hd : str.drop n with
      | nil => rw [← List.head?_drop, hd] at ha; simp at ha
      | cons x xs =>
        have := congrArg List.tail hd
        rw [← List.head?_drop, hd] at ha
        simp at ha
        simp [List.tail_drop] at this
        rw [ha, this]
    have hmem : ∀ b ∈ str.drop n, b < 256 := fun b hb' => hb b (List.mem_of_mem_drop hb')
    have key := utf8Step_good' hmem hdr hs
    have hget : ∀ i x t, str.drop (n + i) = x :: t → str[n + i]? = some x := by
      intro i x t hx; rw [← List.head?_drop, hx]; rfl
    unfold announced at hm
    unfold maxCp at hle
    rcases key with ⟨h1, h2⟩ | ⟨b, t, h0, h1, h2, h3⟩ | ⟨b, c, t, h0, h1, h2, h3⟩ | ⟨b, c, d, t, h0, h1, h2, h3⟩ | h1
    · rw [if_pos h1] at hm
      rw [hm, hdr, h2]
      unfold Spec.utf8
      rw [if_pos (by omega)]
      simp
    · rw [if_neg (by omega), if_pos h2] at hm
      obtain ⟨b', hb1, hb2⟩ := hcont 1 (by omega) (by omega)
      rw [← List.head?_drop, h0] at hb1; simp at hb1; subst hb1
      have : cp = a * 64 + b - 0x3080 := by unfold u32sub at h3; omega
      unfold Spec.utf8 at hmin ⊢
      split at hmin
      · rename_i hlt
        rw [hm] at hmin; simp at hmin
      · rename_i hge
        rw [if_neg hge, if_pos (by omega), hm, hdr, h0]
        simp; omega
    · rw [if_neg (by omega), if_neg (by omega), if_pos h2] at hm
      obtain ⟨b', hb1, hb2⟩ := hcont 1 (by omega) (by omega)
      rw [← List.head?_drop, h0] at hb1; simp at hb1; subst hb1
      obtain ⟨c', hc1, hc2⟩ := hcont 2 (by omega) (by omega)
      rw [← List.head?_drop, ← List.drop_drop (i := 1) (j := n + 1), h0] at hc1
      simp at hc1; subst hc1
      have : cp = (a * 64 + b) * 64 + c - 0xE2080 := by unfold u32sub at h3; omega
      unfold Spec.utf8 at hmin ⊢
      split at hmin
      · rw [hm] at hmin; simp at hmin
      split at hmin
      · rw [hm] at hmin; simp at hmin
      · rename_i hge hge2
        rw [if_neg hge, if_neg hge2, if_pos (by omega), hm, hdr, h0]
        simp; omega
    · rw [if_neg (by omega), if_neg (by omega), if_neg (by omega), if_pos h2] at hm
      obtain ⟨b', hb1, hb2⟩ := hcont 1 (by omega) (by omega)
      rw [← List.head?_drop, h0] at hb1; simp at hb1; subst hb1
      obtain ⟨c', hc1, hc2⟩ := hcont 2 (by omega) (by omega)
      rw [← List.head?_drop, ← List.drop_drop (i := 1) (j := n + 1), h0] at hc1
      simp at hc1; subst hc1
      obtain ⟨d', hd1, hd2⟩ := hcont 3 (by omega) (by omega)
      rw [← List.head?_drop, ← List.drop_drop (i := 2) (j := n + 1), h0] at hd1
      simp at hd1; subst hd1
      have : cp = ((a * 64 + b) * 64 + c) * 64 + d - 0x3C82080 := by unfold u32sub at h3; omega
      unfold Spec.utf8 at hmin ⊢
      split at hmin
      · rw [hm] at hmin; simp at hmin
      split at hmin
      · rw [hm] at hmin; simp at hmin
      split at hmin
      · rw [hm] at hmin; simp at hmin
      · rename_i hge hge2 hge3
        rw [if_neg hge, if_neg hge2, if_neg hge3, hm, hdr, h0]
        simp; omega
    · omega
  · simp only [Enc.decode] at h1; rw [h] at h1; simp [readUpTo, IStream.ofBuf, IStream.good] at h1

example : utf8Decode (strSBuf 8) (readUpTo [0x41, 0xC3, 0xA9, 0x42] 1) =
    (true, 0xE9, readUpTo [0x41, 0xC3, 0xA9, 0x42] (1 + 2)) ∧ 2 ≤ (Spec.utf8 0xE9).length := by decide +kernel

/-- C05. UTF-16 round trip for 16 and 32 bit character types, but for U+FFFF on a 16 bit type. -/
theorem C05_utf16_roundtrip (w : Nat) (hw : w = 16 ∨ w = 32) (cp : Nat) (h : cp ≤ maxCp)
    (hns : isLead cp = false) (hne : w = 16 → cp ≠ 0xFFFF) (pre suf : List Nat)
    (hc : NoEof w ((utf16Encode w (.ofString pre) cp).out ++ suf)) :
    let units := (utf16Encode w (.ofString pre) cp).out
    (utf16Encode w (.ofString pre) cp).good = true ∧
    utf16Decode (strSBuf w) (readUpTo (units ++ suf) pre.length) =
      (true, cp, readUpTo (units ++ suf) units.length) := by
  rw [utf16Encode_ok hw (o := .ofString pre) rfl ⟨h, hne⟩] at hc ⊢
  exact ⟨rfl, decode_one (e := .utf16) (fun rest => utf16Step_enc h hns rest) hc⟩

/-- C05. UTF-16 units are those of the Unicode standard; out of range sets failbit
and writes nothing. -/
theorem C05_utf16_encode (w : Nat) (hw : w = 16 ∨ w = 32) (o : OStream) (ho : o.good = true) (cp : Nat) :
    (cp ≤ maxCp ∧ (w = 16 → cp ≠ 0xFFFF) → utf16Encode w o cp = ⟨o.out ++ Spec.utf16 cp, false⟩) ∧
    (maxCp < cp → (utf16Encode w o cp).out = o.out ∧ (utf16Encode w o cp).good = false) := by
  refine ⟨utf16Encode_ok hw (by simpa [OStream.good] using ho), fun h => ?_⟩
  rw [utf16Encode_fail w o h]; simp [OStream.setFail, OStream.good]

example : (0x1F600 : Nat) ≤ maxCp ∧ isLead 0x1F600 = false ∧
    NoEof 16 ((utf16Encode 16 (.ofString [0x41]) 0x1F600).out ++ [0x42]) := by
  refine ⟨by decide, by decide, ?_⟩
  have : (utf16Encode 16 (.ofString [0x41]) 0x1F600).out = [0x41, 0xD83D, 0xDE00] := by decide +kernel
  rw [this]; intro u hu; simp at hu; right; omega

/-- C06. A lead surrogate that is last, or not followed by a trail surrogate, leaves
the stream not good. -/
theorem C06_utf16_unpaired_rejected (w : Nat) (str : List Nat) (hu : ∀ u ∈ str, u < 65536)
    (hc : NoEof w str) (n lead : Nat) (hl : str[n]? = some lead) (hlead : 0xD800 ≤ lead ∧ lead ≤ 0xDBFF)
    (hnext : ∀ t, str[n + 1]? = some t → ¬ (0xDC00 ≤ t ∧ t ≤ 0xDFFF)) :
    (utf16Decode (strSBuf w) (readUpTo str n)).2.2.good = false := by
  have hn : n < str.length := by
    rcases Nat.lt_or_ge n str.length with h | h
    · exact h
    · rw [List.getElem?_eq_none h] at hl; simp at hl
  have hdr : str.drop n = lead :: str.drop (n + 1) := by
    rw [List.drop_eq_getElem_cons hn]
    rw [List.getElem?_eq_getElem hn] at hl
    simp at hl; rw [hl]
  have hisl : isLead (castU 16 (lead : Int)) = true := by
    rw [castU_nat, Nat.mod_eq_of_lt (by simp only [Nat.reducePow]; omega)]
    simp [isLead]; exact hlead
  have hst : ∃ rest, utf16Step (ints (str.drop n)) = some (none, rest) := by
    rw [hdr]
    simp only [ints, List.map_cons, utf16Step]
    rw [hisl]
    simp only [if_true]
    cases hd : str.drop (n + 1) with
    | nil => simp
    | cons t ts =>
      have ht : str[n + 1]? = some t := by rw [← List.head?_drop, hd]; rfl
      have h1 := hnext t ht
      have h2 := hu t (List.mem_of_getElem? ht)
      have : isTrail (castU 16 (t : Int)) = false := by
        rw [castU_nat, Nat.mod_eq_of_lt (by simp only [Nat.reducePow]; omega)]
        simp [isTrail]; omega
      simp [this]
  obtain ⟨rest, hst⟩ := hst
  rcases decode_at .utf16 w str n (by omega) hc with ⟨h1, _⟩ | ⟨cp', k, k1, k2, hs, hd⟩ | ⟨_, _, _, h1⟩
  · rw [hdr] at h1; simp at h1
  · simp only [Enc.step] at hs; rw [hst] at hs; simp at hs
  · exact h1

/-- C06. Every code point the UTF-16 decoder reports with a good stream is at most
U+10FFFF and not a lead surrogate. -/
theorem C06_utf16_accepted (w : Nat) (str : List Nat) (hc : NoEof w str) (n : Nat)
    (hn : n ≤ str.length) (cp : Nat) (s' : IStream StrBuf)
    (h : utf16Decode (strSBuf w) (readUpTo str n) = (true, cp, s')) (hg : s'.good = true) :
    cp ≤ maxCp ∧ isLead cp = false := by
  rcases decode_at .utf16 w str n hn hc with ⟨_, h1⟩ | ⟨cp', k, k1, k2, hs, hd⟩ | ⟨_, _, _, h1⟩
  · simp only [Enc.decode] at h1; rw [h] at h1; simp at h1
  · simp only [Enc.decode] at hd
    rw [h] at hd
    simp only [Prod.mk.injEq, true_and] at hd
    obtain ⟨rfl, _⟩ := hd
    simp only [Enc.step] at hs
    cases hd : ints (str.drop n) with
    | nil => rw [hd] at hs; simp [utf16Step] at hs
    | cons u us =>
      rw [hd] at hs
      simp only [utf16Step] at hs
      split at hs
      · rename_i hl
        cases us with
        | nil => simp at hs
        | cons t ts =>
          simp only at hs
          split at hs
          · rename_i ht
            simp only [Option.some.injEq, Prod.mk.injEq] at hs
            have := decodeSurrogates_le hl ht
            rw [hs.1] at this
            refine ⟨this.2, ?_⟩
            simp [isLead]; omega
          · simp at hs
      · rename_i hl
        simp only [Option.some.injEq, Prod.mk.injEq] at hs
        rw [← hs.1]
        have := castU16_lt u
        refine ⟨by unfold maxCp; omega, by simpa using hl⟩
  · simp only [Enc.decode] at h1; rw [h] at h1; simp [hg] at h1

example : (utf16Decode (strSBuf 16) (readUpTo [0xD800, 0x41] 0)).2.2.good = false := by decide +kernel
example : [0xD800, 0x41][0]? = some 0xD800 ∧ [0xD800, 0x41][0 + 1]? = some 0x41 ∧
    ¬ (0xDC00 ≤ 0x41 ∧ 0x41 ≤ 0xDFFF) := by decide
example : utf16Decode (strSBuf 16) (readUpTo [0xD83D, 0xDE00] 0) =
    (true, 0x1F600, readUpTo [0xD83D, 0xDE00] 2) := by decide +kernel

/-- C07. UTF-32 round trip. -/
theorem C07_utf32_roundtrip (cp : Nat) (h : cp ≤ maxCp) (pre suf : List Nat)
    (hc : NoEof 32 (pre ++ suf)) :
    let units := (utf32Encode 32 (.ofString pre) cp).out
    (utf32Encode 32 (.ofString pre) cp).good = true ∧ units = pre ++ [cp] ∧
    utf32Decode (strSBuf 32) (readUpTo (units ++ suf) pre.length) =
      (true, cp, readUpTo (units ++ suf) units.length) := by
  rw [utf32Encode_ok (o := .ofString pre) rfl h]
  refine ⟨rfl, rfl, decode_one (e := .utf32) (fun rest => utf32Step_enc h rest) ?_⟩
  intro u hu
  unfold maxCp at h
  simp only [Spec.utf32, OStream.ofString, List.append_assoc, List.mem_append, List.mem_singleton] at hu
  rcases hu with hu | hu | hu
  · exact hc u (by simp [hu])
  · right; simp only [Nat.reducePow]; omega
  · exact hc u (by simp [hu])

/-- C07. A unit above U+10FFFF is rejected in both directions. -/
theorem C07_utf32_out_of_range (cp : Nat) (h : maxCp < cp) (hu : cp < 2 ^ 32 - 1) (pre suf : List Nat)
    (hc : NoEof 32 (pre ++ suf)) (o : OStream) :
    (utf32Encode 32 o cp).out = o.out ∧ (utf32Encode 32 o cp).good = false ∧
    (utf32Decode (strSBuf 32) (readUpTo (pre ++ cp :: suf) pre.length)).2.2.good = false := by
  rw [utf32Encode_fail 32 o h]
  refine ⟨rfl, rfl, ?_⟩
  have hc' : NoEof 32 (pre ++ cp :: suf) := by
    intro u hu'
    simp only [List.mem_append, List.mem_cons] at hu'
    rcases hu' with hu' | hu' | hu'
    · exact hc u (by simp [hu'])
    · right; omega
    · exact hc u (by simp [hu'])
  have hst : utf32Step (ints (cp :: suf)) = some (none, ints suf) := by
    simp only [ints, List.map_cons, utf32Step]
    unfold maxCp at h
    rw [castU_nat, Nat.mod_eq_of_lt (by omega), if_pos (by omega)]
  rcases decode_at .utf32 32 (pre ++ cp :: suf) pre.length (by simp) hc' with ⟨h1, _⟩ | ⟨cp', k, k1, k2, hs, hd⟩ | ⟨_, _, _, h1⟩
  · simp at h1
  · simp only [Enc.step, List.drop_left] at hs; rw [hst] at hs; simp at hs
  · exact h1

example : maxCp < 0x110000 ∧ 0x110000 < 2 ^ 32 - 1 ∧ NoEof 32 ([0x41] ++ [0x42]) := by
  refine ⟨by decide, by decide, ?_⟩
  intro u hu; simp at hu; right; omega

/-- C08. Splitting a supplementary code point gives a lead and a trail surrogate,
and joining them gives the code point back. -/
theorem C08_surrogates_split_join (cp : Nat) (h1 : 0x10000 ≤ cp) (h2 : cp ≤ maxCp) :
    isLead (encodeSurrogates cp).1 = true ∧ isTrail (encodeSurrogates cp).2 = true ∧
    decodeSurrogates (encodeSurrogates cp).1 (encodeSurrogates cp).2 = cp := by
  unfold maxCp at h2
  rw [encodeSurrogates_eq h1 h2]
  have hl : isLead (55296 + (cp - 65536) / 1024) = true := by simp [isLead]; omega
  have ht : isTrail (56320 + (cp - 65536) % 1024) = true := by simp [isTrail]; omega
  refine ⟨hl, ht, ?_⟩
  rw [decodeSurrogates_eq hl ht]; omega

/-- C08. Joining a surrogate pair gives a supplementary code point, and splitting it
gives the pair back. -/
theorem C08_surrogates_join_split (l t : Nat) (hl : isLead l = true) (ht : isTrail t = true) :
    0x10000 ≤ decodeSurrogates l t ∧ decodeSurrogates l t ≤ maxCp ∧
    encodeSurrogates (decodeSurrogates l t) = (l, t) := by
  have hr := decodeSurrogates_le hl ht
  refine ⟨hr.1, hr.2, ?_⟩
  rw [encodeSurrogates_eq hr.1 hr.2, decodeSurrogates_eq hl ht]
  simp only [isLead, isTrail, Bool.and_eq_true, decide_eq_true_eq] at hl ht
  simp; omega

example : isLead 0xD83D = true ∧ isTrail 0xDE00 = true ∧ decodeSurrogates 0xD83D 0xDE00 = 0x1F600 := by
  decide +kernel

/-! ### Whole texts -/

theorem writeAll_out {enc : Encoder} {spec : Nat → List Nat} {P : Nat → Prop}
    (h : ∀ (o : OStream) cp, o.failb = false → P cp → enc o cp = ⟨o.out ++ spec cp, false⟩)
    (cps : List Nat) (hp : ∀ c ∈ cps, P c) (o : OStream) (ho : o.failb = false) :
    writeAll enc o cps = ⟨o.out ++ (cps.flatMap spec), false⟩ := by
  induction cps generalizing o with
  | nil => cases o; simp_all [writeAll]
  | cons c cs ih =>
    simp only [writeAll, List.foldl_cons] at ih ⊢
    rw [h o c ho (hp c (by simp)), ih (fun x hx => hp x (by simp [hx])) _ rfl]
    simp

theorem reads_from {e : Enc} {w : Nat} {spec : Nat → List Nat} {P : Nat → Prop}
    (hstep : ∀ cp rest, P cp → e.step w (ints (spec cp) ++ rest) = some (some cp, rest))
    (cps : List Nat) (hp : ∀ c ∈ cps, P c) (pre : List Nat) (hc : NoEof w (pre ++ cps.flatMap spec)) :
    ReadsAs (e.decode w (strSBuf w)) (readUpTo (pre ++ cps.flatMap spec) pre.length) cps := by
  induction cps generalizing pre with
  | nil =>
    refine .done ?_
    rcases decode_at e w (pre ++ List.flatMap spec []) pre.length (by simp) hc with
      ⟨_, h⟩ | ⟨_, k, h1, h2, _⟩ | ⟨rest, h, _⟩
    · exact h
    · simp at h2; omega
    · have : e.step w [] = none := (e.follows w (strAtView w hc)).stepnil
      simp [ints] at h; rw [this] at h; simp at h
  | cons c cs ih =>
    simp only [List.flatMap_cons] at hc ⊢
    rw [← List.append_assoc] at hc ⊢
    refine .more (decode_one (fun rest => hstep c rest (hp c (by simp))) hc) rfl ?_
    exact ih (fun x hx => hp x (by simp [hx])) (pre ++ spec c) hc

/-- C09. Writing any text as UTF-8 and reading it to the end gives the same text. -/
theorem C09_utf8_text_roundtrip (cps : List Nat) (h : ∀ c ∈ cps, c ≤ maxCp) :
    ReadsAs (utf8Decode (strSBuf 8)) (onString (writeAll (utf8Encode 8) (.ofString []) cps).out) cps := by
  rw [writeAll_out (spec := Spec.utf8) (fun o cp ho hc => utf8Encode_ok ho hc) cps h _ rfl]
  have := reads_from (e := .utf8) (w := 8) (spec := Spec.utf8)
    (fun cp rest hc => utf8Step_enc hc rest) cps h [] (fun _ _ => Or.inl rfl)
  simpa [onString, readUpTo, StrBuf.ofString, OStream.ofString, Enc.decode] using this

/-- C09. The same for UTF-16 (texts without lead surrogates, and without U+FFFF for a
16 bit type). -/
theorem C09_utf16_text_roundtrip (w : Nat) (hw : w = 16 ∨ w = 32) (cps : List Nat)
    (h : ∀ c ∈ cps, c ≤ maxCp ∧ isLead c = false ∧ (w = 16 → c ≠ 0xFFFF)) :
    ReadsAs (utf16Decode (strSBuf w)) (onString (writeAll (utf16Encode w) (.ofString []) cps).out) cps := by
  rw [writeAll_out (spec := Spec.utf16) (P := fun c => c ≤ maxCp ∧ isLead c = false ∧ (w = 16 → c ≠ 0xFFFF))
    (fun o cp ho hc => utf16Encode_ok hw ho ⟨hc.1, hc.2.2⟩) cps h _ rfl]
  have := reads_from (e := .utf16) (w := w) (spec := Spec.utf16)
    (P := fun c => c ≤ maxCp ∧ isLead c = false ∧ (w = 16 → c ≠ 0xFFFF))
    (fun cp rest hc => utf16Step_enc hc.1 hc.2.1 rest) cps h []
    (by
      intro u hu
      right
      simp only [List.nil_append] at hu
      obtain ⟨c, hm, hu⟩ := List.mem_flatMap.1 hu
      obtain ⟨h1, _, h3⟩ := h c hm
      unfold maxCp at h1
      simp only [Spec.utf16] at hu
      rcases hw with rfl | rfl
      · have h3 := h3 rfl
        simp only [Nat.reducePow, Nat.reduceSub]
        split at hu
        · simp only [List.mem_cons, List.not_mem_nil, or_false] at hu
          omega
        · simp only [List.mem_cons, List.not_mem_nil, or_false] at hu
          omega
      · simp only [Nat.reducePow, Nat.reduceSub]
        split at hu
        · simp only [List.mem_cons, List.not_mem_nil, or_false] at hu
          omega
        · simp only [List.mem_cons, List.not_mem_nil, or_false] at hu
          omega)
  simpa [onString, readUpTo, StrBuf.ofString, OStream.ofString, Enc.decode] using this

/-- C09. The same for UTF-32. -/
theorem C09_utf32_text_roundtrip (cps : List Nat) (h : ∀ c ∈ cps, c ≤ maxCp) :
    ReadsAs (utf32Decode (strSBuf 32)) (onString (writeAll (utf32Encode 32) (.ofString []) cps).out) cps := by
  rw [writeAll_out (spec := Spec.utf32) (fun o cp ho hc => utf32Encode_ok ho hc) cps h _ rfl]
  have := reads_from (e := .utf32) (w := 32) (spec := Spec.utf32)
    (fun cp rest hc => utf32Step_enc hc rest) cps h [] (by
      intro u hu
      simp [Spec.utf32] at hu
      have := h u hu
      unfold maxCp at this
      right; simp only [Nat.reducePow]; omega)
  simpa [onString, readUpTo, StrBuf.ofString, OStream.ofString, Enc.decode] using this

/-- A stream reads as at most one text. -/
theorem ReadsAs.unique {σ : Type} {dec : IStream σ → Decoded σ} {s : IStream σ} {a b : List Nat}
    (ha : ReadsAs dec s a) (hb : ReadsAs dec s b) : a = b := by
  induction ha generalizing b with
  | done h =>
    cases hb with
    | done => rfl
    | more h' _ _ => rw [h'] at h; simp at h
  | more h _ _ ih =>
    cases hb with
    | done h' => rw [h] at h'; simp at h'
    | more h' _ hr =>
      rw [h] at h'
      simp only [Prod.mk.injEq, true_and] at h'
      obtain ⟨rfl, rfl⟩ := h'
      rw [ih hr]

/-- C09. Different texts never have the same UTF-8 form. -/
theorem C09_utf8_injective (a b : List Nat) (ha : ∀ c ∈ a, c ≤ maxCp) (hb : ∀ c ∈ b, c ≤ maxCp)
    (h : (writeAll (utf8Encode 8) (.ofString []) a).out = (writeAll (utf8Encode 8) (.ofString []) b).out) :
    a = b :=
  ReadsAs.unique (C09_utf8_text_roundtrip a ha) (h ▸ C09_utf8_text_roundtrip b hb)

/-- C09. Nor the same UTF-16 form (texts without lead surrogates, and without U+FFFF on 16 bits), on a character type of 16
or 32 bits. -/
theorem C09_utf16_injective (w : Nat) (hw : w = 16 ∨ w = 32) (a b : List Nat)
    (ha : ∀ c ∈ a, c ≤ maxCp ∧ isLead c = false ∧ (w = 16 → c ≠ 0xFFFF))
    (hb : ∀ c ∈ b, c ≤ maxCp ∧ isLead c = false ∧ (w = 16 → c ≠ 0xFFFF))
    (h : (writeAll (utf16Encode w) (.ofString []) a).out = (writeAll (utf16Encode w) (.ofString []) b).out) : a = b := by
  exact ReadsAs.unique (C09_utf16_text_roundtrip w hw a ha) (h ▸ C09_utf16_text_roundtrip w hw b hb)

/-- C09. Nor the same UTF-32 form. -/
theorem C09_utf32_injective (a b : List Nat) (ha : ∀ c ∈ a, c ≤ maxCp) (hb : ∀ c ∈ b, c ≤ maxCp)
    (h : (writeAll (utf32Encode 32) (.ofString []) a).out = (writeAll (utf32Encode 32) (.ofString []) b).out) : a = b :=
  ReadsAs.unique (C09_utf32_text_roundtrip a ha) (h ▸ C09_utf32_text_roundtrip b hb)

/-- C09. The default encoding of a character type (`encoding::auto_utf`): UTF-8, UTF-16 or UTF-32 by its size. Writing a text
with it gives the standard form, and reading that to the end gives the text. -/
theorem C09_default_encoding (w : Nat) (hw : w = 8 ∨ w = 16 ∨ w = 32) (cps : List Nat) (h : ∀ c ∈ cps, Spec.IsScalar c)
    (hc : w = 16 → 0xFFFF ∉ cps) :
    (writeAll ((autoUtf w).encode w) (.ofString []) cps).out =
      cps.flatMap (if w = 8 then Spec.utf8 else if w = 16 then Spec.utf16 else Spec.utf32) ∧
    ReadsAs ((autoUtf w).decode w (strSBuf w)) (onString (writeAll ((autoUtf w).encode w) (.ofString []) cps).out) cps := by
  have h1 : ∀ c ∈ cps, c ≤ maxCp := fun c hm => (h c hm).1
  have h2 : ∀ c ∈ cps, c ≤ maxCp ∧ isLead c = false := by
    intro c hm
    refine ⟨h1 c hm, ?_⟩
    have := (h c hm).2
    simp only [Spec.IsSurrogate] at this
    simp [isLead]
    omega
  rcases hw with rfl | rfl | rfl
  · refine ⟨?_, C09_utf8_text_roundtrip cps h1⟩
    show (writeAll (utf8Encode 8) (.ofString []) cps).out = _
    rw [writeAll_out (spec := Spec.utf8) (fun o cp ho hc => utf8Encode_ok ho hc) cps h1 _ rfl]
    rfl
  · refine ⟨?_, C09_utf16_text_roundtrip 16 (.inl rfl) cps fun c hm => ⟨(h2 c hm).1, (h2 c hm).2, fun _ he => hc rfl (he ▸ hm)⟩⟩
    show (writeAll (utf16Encode 16) (.ofString []) cps).out = _
    rw [writeAll_out (spec := Spec.utf16) (P := fun c => c ≤ maxCp ∧ c ≠ 0xFFFF)
      (fun o cp ho hc => utf16Encode_ok (.inl rfl) ho ⟨hc.1, fun _ => hc.2⟩) cps
      (fun c hm => ⟨(h2 c hm).1, fun he => hc rfl (he ▸ hm)⟩) _ rfl]
    rfl
  · refine ⟨?_, C09_utf32_text_roundtrip cps h1⟩
    show (writeAll (utf32Encode 32) (.ofString []) cps).out = _
    rw [writeAll_out (spec := Spec.utf32) (fun o cp ho hc => utf32Encode_ok ho hc) cps h1 _ rfl]
    rfl

example : ∀ c ∈ [0x41, 0xE9, 0x20AC, 0x1F600], Spec.IsScalar c ∧ c ≠ 0xFFFF := by
  simp [Spec.IsScalar, Spec.IsSurrogate, Spec.maxCp]

example : ∀ c ∈ [0x41, 0xE9, 0x20AC, 0x1F600], c ≤ maxCp ∧ isLead c = false := by decide
example : (writeAll (utf8Encode 8) (.ofString []) [0x41, 0xE9, 0x20AC, 0x1F600]).out =
    [0x41, 0xC3, 0xA9, 0xE2, 0x82, 0xAC, 0xF0, 0x9F, 0x98, 0x80] := by decide +kernel

end Configor.Props
