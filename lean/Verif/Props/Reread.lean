import Verif.Proofs.Reread
import Verif.Props.Dump
/-!
# Exactly which strings are read back
-/
set_option autoImplicit false
namespace Configor.Props
open Spec

variable {F : Type}

theorem flatMap_congr' {f g : Nat → List Nat} {l : List Nat} (h : ∀ c ∈ l, f c = g c) : l.flatMap f = l.flatMap g := by
  induction l with
  | nil => rfl
  | cons c l ih => simp [h c (by simp), ih (fun c hc => h c (by simp [hc]))]

/-- Two texts with the same units have as many characters. -/
theorem target_length {e : Enc} {w : Nat} {spec : Nat → List Nat} (ht : Target e w spec) {a b : List Nat}
    (ha : ∀ c ∈ a, c ≤ maxCp ∧ isLead c = false) (hb : ∀ c ∈ b, c ≤ maxCp ∧ isLead c = false)
    (h : a.flatMap spec = b.flatMap spec) : a.length = b.length := by
  have h16 : ∀ a b : List Nat, (∀ c ∈ a, c ≤ maxCp ∧ isLead c = false) → (∀ c ∈ b, c ≤ maxCp ∧ isLead c = false) →
      a.flatMap Spec.utf16 = b.flatMap Spec.utf16 → a = b := by
    intro a b ha hb h
    refine C09_utf16_injective 32 (.inr rfl) a b (fun c hc => ⟨(ha c hc).1, (ha c hc).2, fun h => by cases h⟩)
      (fun c hc => ⟨(hb c hc).1, (hb c hc).2, fun h => by cases h⟩) ?_
    rw [writeAll_out (spec := Spec.utf16) (P := fun c => c ≤ maxCp)
        (fun o cp ho hc => utf16Encode_ok (Or.inr rfl) ho ⟨hc, nofun⟩) a (fun c hc => (ha c hc).1) _ rfl,
      writeAll_out (spec := Spec.utf16) (P := fun c => c ≤ maxCp)
        (fun o cp ho hc => utf16Encode_ok (Or.inr rfl) ho ⟨hc, nofun⟩) b (fun c hc => (hb c hc).1) _ rfl, h]
  cases ht with
  | utf8 =>
    refine congrArg List.length (C09_utf8_injective a b (fun c hc => (ha c hc).1) (fun c hc => (hb c hc).1) ?_)
    rw [writeAll_out (spec := Spec.utf8) (P := fun c => c ≤ maxCp) (fun o cp ho hc => utf8Encode_ok ho hc) a (fun c hc => (ha c hc).1) _ rfl,
      writeAll_out (spec := Spec.utf8) (P := fun c => c ≤ maxCp) (fun o cp ho hc => utf8Encode_ok ho hc) b (fun c hc => (hb c hc).1) _ rfl, h]
  | utf16 =>
    have hm : ∀ l : List Nat, l.flatMap Spec.utf16c = (l.map fun c => if c = 0xFFFF then 0xFFFD else c).flatMap Spec.utf16 := by
      intro l
      rw [List.flatMap_map]
      refine flatMap_congr' fun c _ => ?_
      unfold Spec.utf16c
      split
      · decide
      · rfl
    have hm' : ∀ l : List Nat, (∀ c ∈ l, c ≤ maxCp ∧ isLead c = false) →
        ∀ c ∈ l.map (fun c => if c = 0xFFFF then 0xFFFD else c), c ≤ maxCp ∧ isLead c = false := by
      intro l hl c hc
      obtain ⟨x, hx, rfl⟩ := List.mem_map.1 hc
      split
      · decide
      · exact hl x hx
    rw [hm, hm] at h
    have := congrArg List.length (h16 _ _ (hm' a ha) (hm' b hb) h)
    simpa using this
  | utf16w => exact congrArg List.length (h16 a b ha hb h)
  | utf32 =>
    refine congrArg List.length (C09_utf32_injective a b (fun c hc => (ha c hc).1) (fun c hc => (hb c hc).1) ?_)
    rw [writeAll_out (spec := Spec.utf32) (P := fun c => c ≤ maxCp) (fun o cp ho hc => utf32Encode_ok ho hc) a (fun c hc => (ha c hc).1) _ rfl,
      writeAll_out (spec := Spec.utf32) (P := fun c => c ≤ maxCp) (fun o cp ho hc => utf32Encode_ok ho hc) b (fun c hc => (hb c hc).1) _ rfl, h]

theorem scalar_noLead {c : Nat} (h : IsScalar c) : c ≤ maxCp ∧ isLead c = false := by
  refine ⟨h.1, ?_⟩
  have := h.2
  unfold IsSurrogate at this
  simp [isLead]
  omega

/-- C33, exactly. A string of Unicode scalar values is read back if and only if each of its characters is one of `\t \r \n \b \f`, or is
no control character and, if Unicode is escaped, not in the range from U+007F to U+0FFF. If one is not, then the text is either refused or
read as a string with fewer characters.
Missing to C33: the characters excluded. -/
theorem C33_exactly_partial (A : DumpArgs F) (B : ParseArgs F) (hAB : Reverses A B) (spec spec' : Nat → List Nat)
    (hs : Target A.se A.sw spec) (ht : Target A.te A.tw spec') (hb : A.pretty = true → A.ch = 0x20 ∨ A.ch = 0x09)
    (cps : List Nat) (hc : ∀ c ∈ cps, IsScalar c ∧ (A.sw = 16 ∨ A.tw = 16 → c ≠ 0xFFFF)) :
    ∃ t, (∀ str, jsonDump A none str (.str (cps.flatMap spec)) = (.ok (), str ++ t)) ∧
      ((∀ h c, jsonParse B h c t = (.ok (), .str (cps.flatMap spec))) ↔
        ∀ c ∈ cps, c = 0x09 ∨ c = 0x0D ∨ c = 0x0A ∨ c = 0x08 ∨ c = 0x0C
          ∨ (0x20 ≤ c ∧ (A.uesc = true → c < 0x7F ∨ 0x1000 ≤ c))) ∧
      ((∃ x ∈ cps, (x < 0x20 ∧ x ≠ 0x09 ∧ x ≠ 0x0D ∧ x ≠ 0x0A ∧ x ≠ 0x08 ∧ x ≠ 0x0C) ∨ (A.uesc = true ∧ 0x7F ≤ x ∧ x < 0x1000)) →
        ∀ c v, jsonParse B none c t = (.ok (), v) → ∃ cps' : List Nat, v = .str (cps'.flatMap spec) ∧ cps'.length < cps.length) := by
  have hB : B.Usual := ⟨by rw [hAB.sw]; exact ht.width, by rw [hAB.tw]; exact hs.width⟩
  have htx : ∀ s, HasText (.str (cps.flatMap spec) : Value F) s →
      ∃ cps : List Nat, s = cps.flatMap spec ∧ ∀ c ∈ cps, IsScalar c ∧ (A.sw = 16 ∨ A.tw = 16 → c ≠ 0xFFFF) := by
    intro s h
    cases h
    exact ⟨cps, rfl, hc⟩
  obtain ⟨h1, h2, h3⟩ := dump_reads_any hAB hs ht hb (.str (cps.flatMap spec)) (fun f h => by cases h) htx
  have htxt : (A.printer self).txt (cps.flatMap spec) = cps :=
    items_txt (hs.reads (fun c h => (hc c h).1) (fun hw c h => (hc c h).2 (Or.inl hw)))
  have hlit : (A.printer self).text 0 (.str (cps.flatMap spec)) = 0x22 :: litText A.uesc cps := by
    show 0x22 :: (((A.printer self).txt (cps.flatMap spec)).flatMap _ ++ [0x22]) = _
    rw [htxt]
    rfl
  have hst : Target B.te B.tw spec := by rw [hAB.te, hAB.tw]; exact hs
  rw [hlit] at h2
  -- what is read
  have key : ∀ c v, jsonParse B none c ((A.printer spec').text 0 (.str (cps.flatMap spec))) = (.ok (), v) →
      ∃ cps' : List Nat, v = .str (cps'.flatMap spec) ∧ (∀ c ∈ cps', c ≤ maxCp ∧ isLead c = false)
        ∧ ((∃ x ∈ cps, ¬ Rereadable A.uesc x) → cps'.length < cps.length) := by
    intro c v h
    obtain ⟨u, e, cps', s, h4, h5, h6, rfl⟩ := document_quote ((parse_document hB h2).1 h)
    obtain ⟨⟨rfl, _⟩, h7⟩ := litText_shorter e _ cps cps' u (Nat.le_refl _) (fun c h => (hc c h).1) h5 h4
    obtain ⟨_, rfl⟩ := (hst.store cps' s).1 h6
    refine ⟨cps', rfl, strChars_noLead h5 ?_, h7⟩
    intro x hx
    have hx' : x ∈ litText A.uesc cps := by rw [h4]; simpa using hx
    unfold litText at hx'
    rcases List.mem_append.1 hx' with hx' | hx'
    · obtain ⟨y, hy, hxy⟩ := List.mem_flatMap.1 hx'
      refine charText_all (Q := IsScalar) ?_ (fun _ _ => ?_) x hxy
      · intro c hc; unfold IsScalar IsSurrogate maxCp; omega
      · intro z hz
        have : z = y := by simpa [self] using hz
        rw [this]
        exact (hc y hy).1
    · have : x = 0x22 := by simpa using hx'
      subst this
      unfold IsScalar IsSurrogate maxCp
      omega
  have hR : ∀ x ∈ cps, Rereadable A.uesc x ↔ (x = 0x09 ∨ x = 0x0D ∨ x = 0x0A ∨ x = 0x08 ∨ x = 0x0C
      ∨ (0x20 ≤ x ∧ (A.uesc = true → x < 0x7F ∨ 0x1000 ≤ x))) := by
    intro x hx
    unfold Rereadable
    have hsx : shortEscape x ≠ none ↔ (x = 0x09 ∨ x = 0x0D ∨ x = 0x0A ∨ x = 0x08 ∨ x = 0x0C ∨ x = 0x22 ∨ x = 0x5C) := by
      unfold shortEscape
      grind
    rw [hsx]
    have := (hc x hx).1
    grind
  refine ⟨_, h1, ⟨fun h x hx => ?_, fun h => ?_⟩, ?_⟩
  · refine (hR x hx).1 ?_
    refine Classical.byContradiction fun hn => ?_
    obtain ⟨cps', h4, h5, h6⟩ := key .null _ (h none .null)
    have h7 := h6 ⟨x, hx, hn⟩
    have h8 : cps.flatMap spec = cps'.flatMap spec := by simpa using h4
    have := target_length hs (fun c h => scalar_noLead (hc c h).1) h5 h8
    omega
  · intro hd c
    exact (dump_parse hAB hs ht hb (.str (cps.flatMap spec)) (fun ms h => by cases h) (fun i h => by cases h) (fun f h => by cases h) (fun s hs' => by
      cases hs'
      exact ⟨cps, rfl, fun x hx => ⟨(hR x hx).2 (h x hx), (hc x hx).2⟩⟩)).2 hd c
  · rintro ⟨x, hx, hbad⟩ c v h
    obtain ⟨cps', h4, _, h6⟩ := key c v h
    refine ⟨cps', h4, h6 ⟨x, hx, fun hr => ?_⟩⟩
    have := (hR x hx).1 hr
    grind

/-- C32, exactly: without escaping of Unicode, a string is read back if and only if its control characters are `\t \r \n \b \f`.
Missing to C32: the other control characters. -/
theorem C32_exactly_partial (A : DumpArgs F) (B : ParseArgs F) (hAB : Reverses A B) (spec spec' : Nat → List Nat)
    (hs : Target A.se A.sw spec) (ht : Target A.te A.tw spec') (hb : A.pretty = true → A.ch = 0x20 ∨ A.ch = 0x09)
    (hu : A.uesc = false) (cps : List Nat) (hc : ∀ c ∈ cps, IsScalar c ∧ (A.sw = 16 ∨ A.tw = 16 → c ≠ 0xFFFF)) :
    ∃ t, (∀ str, jsonDump A none str (.str (cps.flatMap spec)) = (.ok (), str ++ t)) ∧
      ((∀ h c, jsonParse B h c t = (.ok (), .str (cps.flatMap spec))) ↔
        ∀ c ∈ cps, c < 0x20 → c = 0x09 ∨ c = 0x0D ∨ c = 0x0A ∨ c = 0x08 ∨ c = 0x0C) := by
  obtain ⟨t, h1, h2, _⟩ := C33_exactly_partial A B hAB spec spec' hs ht hb cps hc
  refine ⟨t, h1, h2.trans ?_⟩
  constructor
  · intro h c hc hlt
    rcases h c hc with h | h | h | h | h | h
    · exact .inl h
    · exact .inr (.inl h)
    · exact .inr (.inr (.inl h))
    · exact .inr (.inr (.inr (.inl h)))
    · exact .inr (.inr (.inr (.inr h)))
    · omega
  · intro h c hc
    by_cases hlt : c < 0x20
    · rcases h c hc hlt with h | h | h | h | h
      · exact .inl h
      · exact .inr (.inl h)
      · exact .inr (.inr (.inl h))
      · exact .inr (.inr (.inr (.inl h)))
      · exact .inr (.inr (.inr (.inr (.inl h))))
    · exact .inr (.inr (.inr (.inr (.inr ⟨by omega, fun h => by rw [hu] at h; cases h⟩))))

/-- U+0001 and `00`: read as one character. `\t` and U+00E9: read back without escaping. -/
example : (∀ c ∈ [0x01, 0x30, 0x30], IsScalar c) ∧ (∀ c ∈ [0x09, 0xE9], IsScalar c)
    ∧ jsonParse (utf8Args true) none .null (jsonDump (dumpArgs false false 0 0) none [] (.str ([0x01, 0x30, 0x30].flatMap utf8))).2
      = (.ok (), .str ([0x100].flatMap utf8))
    ∧ jsonParse (utf8Args true) none .null (jsonDump (dumpArgs false false 0 0) none [] (.str ([0x09, 0xE9].flatMap utf8))).2
      = (.ok (), .str ([0x09, 0xE9].flatMap utf8)) := by
  decide +kernel

end Configor.Props
