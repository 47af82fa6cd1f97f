import Verif.Proofs.DumpRun
import Verif.Props.ParserLit
/-! The text of a value belongs to the grammar of the parser. -/
namespace Configor
open Spec Props

variable {F : Type}

/-! ## Characters -/

theorem hexDigit_hexChar {d : Nat} (h : d < 16) : hexDigit (hexChar d) = some d := by
  unfold hexDigit hexChar
  by_cases h1 : d < 10
  · rw [if_pos h1, if_pos (by omega)]; congr 1; omega
  · rw [if_neg h1, if_neg (by omega), if_pos (by omega)]; congr 1; omega

theorem hex4_arith (n : Nat) (h : n < 65536) :
    (((n / 4096 % 16) * 16 + n / 256 % 16) * 16 + n / 16 % 16) * 16 + n % 16 = n := by omega

theorem hex4_spec {n : Nat} (h : n < 65536) : Hex4 (hex4 n) n := by
  have := Hex4.mk (hexDigit_hexChar (Nat.mod_lt (n / 4096) (by decide))) (hexDigit_hexChar (Nat.mod_lt (n / 256) (by decide)))
    (hexDigit_hexChar (Nat.mod_lt (n / 16) (by decide))) (hexDigit_hexChar (Nat.mod_lt n (y := 16) (by decide)))
  rwa [hex4_arith n h] at this

theorem pair_arith (c : Nat) (h : 0x10000 ≤ c) (h' : c ≤ 0x10FFFF) :
    0x10000 + (0xD800 + (c - 0x10000) / 1024 - 0xD800) * 0x400 + (0xDC00 + (c - 0x10000) % 1024 - 0xDC00) = c := by omega

theorem shortEscape_simple {c e : Nat} (h : shortEscape c = some e) : simpleEscape e = some c := by
  unfold shortEscape at h
  unfold simpleEscape
  split at h
  · cases h; subst c; rfl
  split at h
  · cases h; subst c; rfl
  split at h
  · cases h; subst c; rfl
  split at h
  · cases h; subst c; rfl
  split at h
  · cases h; subst c; rfl
  split at h
  · cases h; subst c; rfl
  split at h
  · cases h; subst c; rfl
  · cases h

theorem shortEscape_none {c : Nat} (h : shortEscape c = none) : c ≠ 0x22 ∧ c ≠ 0x5C := by
  constructor <;> (rintro rfl; revert h; decide)

/-- The units of a code point taken as they are. -/
def self (c : Nat) : List Nat := [c]

theorem charText_chars {uesc : Bool} {c : Nat} (h : Rereadable uesc c) {t cps : List Nat} (ht : StrChars t cps) :
    StrChars (charText uesc self c ++ t) (c :: cps) := by
  obtain ⟨⟨hm, hsur⟩, hc⟩ := h
  unfold maxCp at hm
  unfold IsSurrogate at hsur
  unfold charText
  cases hs : shortEscape c with
  | some e => exact .esc (shortEscape_simple hs) ht
  | none =>
    rw [hs] at hc
    obtain ⟨h1, h2⟩ := shortEscape_none hs
    have hc := hc.resolve_left (by simp)
    by_cases he : Escaped uesc c
    · simp only [if_pos he]
      have hu : uesc = true ∧ 0x7F ≤ c := by
        rcases he with he | he
        · omega
        · exact he
      have hlo := hc.2 hu.1
      unfold uniEscape
      by_cases hb : c < 0x10000
      · rw [if_pos hb]
        have hh : hexShort c = hex4 c := by
          unfold hexShort; rw [if_neg (by omega), if_neg (by omega)]
        rw [hh]
        exact .uni (hex4_spec hb) (by omega) ht
      · rw [if_neg hb]
        have := StrChars.pair (hex4_spec (n := 0xD800 + (c - 0x10000) / 1024) (by omega)) (by omega)
          (hex4_spec (n := 0xDC00 + (c - 0x10000) % 1024) (by omega)) (by omega) ht
        rw [pair_arith c (by omega) hm] at this
        simpa using this
    · simp only [if_neg he]
      exact .raw hc.1 h1 h2 ht

theorem literal_chars {uesc : Bool} {cps : List Nat} (h : ∀ c ∈ cps, Rereadable uesc c) :
    StrChars (cps.flatMap (charText uesc self) ++ [0x22]) cps := by
  induction cps with
  | nil => exact .close
  | cons c cps ih =>
    have := charText_chars (h c (by simp)) (ih fun x hx => h x (by simp [hx]))
    simpa using this

/-! ## Numbers -/

theorem digit_char {d : Nat} (h : d < 10) : digitChar d = 0x30 + d := by unfold digitChar; rw [if_pos h]

theorem decimal_snoc (ds : List Nat) (c : Nat) : Rfc.decimal (ds ++ [c]) = Rfc.decimal ds * 10 + (c - 0x30) := by
  unfold Rfc.decimal; rw [List.foldl_append]; rfl

theorem digits_decimal (n : Nat) : Rfc.decimal ((digits 10 n).map digitChar) = n ∧
    (∀ d ∈ (digits 10 n).map digitChar, Rfc.Digit d) ∧ (digits 10 n).map digitChar ≠ [] ∧
    (n ≠ 0 → ((digits 10 n).map digitChar).head? ≠ some 0x30) := by
  induction n using Nat.strongRecOn with
  | _ n ih =>
    rw [digits_eq (by decide)]
    by_cases h : n < 10
    · rw [if_pos h]
      simp only [List.map_cons, List.map_nil, digit_char h]
      refine ⟨by simp [Rfc.decimal], ?_, by simp, ?_⟩
      · intro d hd; simp at hd; unfold Rfc.Digit; omega
      · intro h0; simp; omega
    · rw [if_neg h]
      obtain ⟨h1, h2, h3, h4⟩ := ih (n / 10) (by omega)
      have hm : n % 10 < 10 := Nat.mod_lt _ (by decide)
      rw [List.map_append]
      simp only [List.map_cons, List.map_nil, digit_char hm]
      refine ⟨?_, ?_, by simp, ?_⟩
      · rw [decimal_snoc, h1]; omega
      · intro d hd
        rcases List.mem_append.1 hd with hd | hd
        · exact h2 d hd
        · simp at hd; unfold Rfc.Digit; omega
      · intro _
        have := h4 (by omega)
        cases hx : (digits 10 (n / 10)).map digitChar with
        | nil => exact absurd hx h3
        | cons a b => rw [hx] at this; simpa using this

theorem digits_int (n : Nat) : IntDigits ((digits 10 n).map digitChar) := by
  obtain ⟨_, h2, h3, h4⟩ := digits_decimal n
  by_cases h : n = 0
  · subst h; exact Or.inl rfl
  · exact Or.inr ⟨h3, h4 h, h2⟩

theorem decText_val (B : ParseArgs F) (hB : B.Usual) {i : Int} (h1 : -9223372036854775808 < i) (h2 : i < 9223372036854775808)
    (nx : Option Nat) (hn : After nx) : Val B.dialect (decText i) nx (.int i) := by
  have hd := digits_decimal i.natAbs
  have hm : Rfc.decimal ((digits 10 i.natAbs).map digitChar) ≤ 9223372036854775807 := by rw [hd.1]; omega
  unfold decText
  by_cases hi : i < 0
  · have := C20_integer_value B hB [0x2D] _ true .minus (digits_int i.natAbs) hm nx hn
    rw [hd.1] at this
    rw [if_pos hi]
    have he : (if true = true then -((i.natAbs : Nat) : Int) else (i.natAbs : Nat)) = i := by rw [if_pos rfl]; omega
    rwa [he] at this
  · have := C20_integer_value B hB [] _ false .none (digits_int i.natAbs) hm nx hn
    rw [hd.1] at this
    rw [if_neg hi]
    have he : (if false = true then -((i.natAbs : Nat) : Int) else (i.natAbs : Nat)) = i := by rw [if_neg (by decide)]; omega
    rwa [he] at this

/-! ## Values -/

/-- The layout is made of blanks. -/
def BlankStyle (st : Style) : Prop := st.pretty = true → st.ch = 0x20 ∨ st.ch = 0x09

theorem gap_blanks {g : List Nat} (h : ∀ c ∈ g, IsBlank c) : Gap g := by
  induction g with
  | nil => exact .nil
  | cons c g ih => exact .blank (h c (by simp)) (ih fun x hx => h x (by simp [hx]))

theorem nl_blank (st : Style) : ∀ c ∈ st.nl, IsBlank c := by
  intro c hc
  unfold Style.nl at hc
  split at hc <;> simp at hc
  subst hc; exact Or.inr (Or.inr (Or.inl rfl))

theorem ch_blank {st : Style} (h : BlankStyle st) (hp : st.pretty = true) : IsBlank st.ch := by
  unfold IsBlank; rcases h hp with h | h <;> omega

theorem indent_blank {st : Style} (h : BlankStyle st) (d : Nat) : ∀ c ∈ st.indent d, IsBlank c := by
  intro c hc
  unfold Style.indent at hc
  split at hc
  · rename_i hp
    rw [List.eq_of_mem_replicate hc]; exact ch_blank h hp.1
  · simp at hc

theorem space_blank {st : Style} (h : BlankStyle st) : ∀ c ∈ st.space, IsBlank c := by
  intro c hc
  unfold Style.space at hc
  split at hc
  · rename_i hp
    simp at hc; rw [hc]; exact ch_blank h hp
  · simp at hc

theorem blanks_append {g g' : List Nat} (h : ∀ c ∈ g, IsBlank c) (h' : ∀ c ∈ g', IsBlank c) : Gap (g ++ g') :=
  gap_blanks fun c hc => (List.mem_append.1 hc).elim (h c) (h' c)

theorem after_blanks {g : List Nat} (h : ∀ c ∈ g, IsBlank c) {c : Nat} (hc : c = 0x2C ∨ c = 0x5D ∨ c = 0x7D) : After (g ++ [c]).head? := by
  intro x hx
  cases g with
  | nil => simp at hx; subst hx; exact Or.inr (Or.inr hc)
  | cons y g => simp at hx; subst hx; exact Or.inl (h y (by simp))

theorem keyword_ascii {w : Nat} (hw : 8 ≤ w) {k : List Nat} (hk : ∀ c ∈ k, c < 128) : Keyword w k k := by
  refine ⟨rfl, ?_⟩
  have : ∀ c ∈ k, c % 2 ^ w = c := by
    intro c hc
    apply Nat.mod_eq_of_lt
    have : 2 ^ 8 ≤ 2 ^ w := Nat.pow_le_pow_right (by decide) hw
    have := hk c hc
    simp only [Nat.reducePow] at *
    omega
  rw [List.map_congr_left this]
  simp

/-- What makes the text of a value readable, if floats are read as `g` says. -/
structure ReadsBack (B : ParseArgs F) (P : Printer F) (fl : F → Value F) (v : Value F) : Prop where
  sorted : KeysSorted v
  ints : ∀ i, HasInt v i → -9223372036854775808 < i ∧ i < 9223372036854775808
  floats : ∀ f, HasFloat v f → ∀ nx, After nx → Val B.dialect (P.flt f) nx (fl f)
  texts : ∀ s, HasText v s → (∀ c ∈ P.txt s, Rereadable P.uesc c) ∧ B.dialect.store (P.txt s) = some s

theorem ReadsBack.elem {B : ParseArgs F} {P : Printer F} {fl : F → Value F} {xs : List (Value F)} (h : ReadsBack B P fl (.arr xs)) {x : Value F}
    (hx : x ∈ xs) : ReadsBack B P fl x :=
  ⟨fun ms hm => h.sorted ms (.elem hx hm), fun i hi => h.ints i (.elem hx hi), fun f hf => h.floats f (.elem hx hf),
   fun s hs => h.texts s (.elem hx hs)⟩

theorem ReadsBack.member {B : ParseArgs F} {P : Printer F} {fl : F → Value F} {ms : List (List Nat × Value F)} (h : ReadsBack B P fl (.obj ms))
    {k : List Nat} {v : Value F} (hx : (k, v) ∈ ms) : ReadsBack B P fl v :=
  ⟨fun ms hm => h.sorted ms (.member hx hm), fun i hi => h.ints i (.member hx hi), fun f hf => h.floats f (.member hx hf),
   fun s hs => h.texts s (.member hx hs)⟩

/-- A printer of code points. -/
structure CodePoints (P : Printer F) : Prop where
  style : BlankStyle P.style
  enc : P.enc = self
  num : ∀ i, P.num i = decText i

theorem literal_strLit {B : ParseArgs F} {P : Printer F} (H : CodePoints P) {s : List Nat}
    (h : (∀ c ∈ P.txt s, Rereadable P.uesc c) ∧ B.dialect.store (P.txt s) = some s) : StrLit B.dialect (P.literal s) s := by
  refine ⟨_, P.txt s, rfl, ?_, h.2⟩
  rw [H.enc]
  exact literal_chars h.1

theorem withFloatsMembers_keys (fl : F → Value F) (ms : List (List Nat × Value F)) :
    (withFloatsMembers fl ms).map Prod.fst = ms.map Prod.fst := by
  induction ms with
  | nil => rfl
  | cons m ms ih => simp [withFloatsMembers, ih]

theorem withFloatsMembers_sorted (fl : F → Value F) {ms : List (List Nat × Value F)} (h : ms.Pairwise fun a b => a.1 < b.1) :
    (withFloatsMembers fl ms).Pairwise fun a b => a.1 < b.1 := by
  have h1 : (ms.map Prod.fst).Pairwise (· < ·) := List.pairwise_map.2 h
  rw [← withFloatsMembers_keys fl ms] at h1
  exact List.pairwise_map.1 h1

mutual

theorem withFloats_flt (v : Value F) : withFloats .flt v = v := by
  match v with
  | .null | .bool _ | .int _ | .flt _ | .str _ => rfl
  | .arr xs => simp only [withFloats, withFloatsElems_flt xs]
  | .obj ms => simp only [withFloats, withFloatsMembers_flt ms]

theorem withFloatsElems_flt (xs : List (Value F)) : withFloatsElems .flt xs = xs := by
  match xs with
  | [] => rfl
  | x :: xs => simp only [withFloatsElems, withFloats_flt x, withFloatsElems_flt xs]

theorem withFloatsMembers_flt (ms : List (List Nat × Value F)) : withFloatsMembers .flt ms = ms := by
  match ms with
  | [] => rfl
  | (k, v) :: ms => simp only [withFloatsMembers, withFloats_flt v, withFloatsMembers_flt ms]

end

mutual

theorem text_val {B : ParseArgs F} (hB : B.Usual) {P : Printer F} (H : CodePoints P) {fl : F → Value F} (v : Value F) (h : ReadsBack B P fl v) (d : Nat)
    (nx : Option Nat) (hn : After nx) : Val B.dialect (P.text d v) nx (withFloats fl v) := by
  match v with
  | .null => exact .vnull (keyword_ascii hB.sw (by decide))
  | .bool true => exact .vtrue (keyword_ascii hB.sw (by decide))
  | .bool false => exact .vfalse (keyword_ascii hB.sw (by decide))
  | .int i =>
    simp only [Printer.text, H.num]
    exact decText_val B hB (h.ints i .int).1 (h.ints i .int).2 nx hn
  | .flt f =>
    simp only [Printer.text]
    exact h.floats f .flt nx hn
  | .str s =>
    simp only [Printer.text]
    exact .str (literal_strLit H (h.texts s .str))
  | .arr [] =>
    simp only [Printer.text, Printer.block, Printer.texts]
    have := Elems.close (D := B.dialect) (blanks_append (nl_blank P.style) (indent_blank H.style d))
    simpa [withFloats, withFloatsElems] using Val.arr (nx := nx) this
  | .arr (x :: xs) =>
    have := text_elems hB H (x :: xs) (by simp) (fun y hy => h.elem hy) (d + 1) (P.style.nl ++ P.style.indent d)
      (fun c hc => (List.mem_append.1 hc).elim (nl_blank _ c) (indent_blank H.style d c))
    have := Val.arr (nx := nx) this
    simpa [Printer.text, Printer.block, Printer.texts, withFloats] using this
  | .obj [] =>
    simp only [Printer.text, Printer.block, Printer.members]
    have := Members.close (D := B.dialect) (blanks_append (nl_blank P.style) (indent_blank H.style d))
    simpa [withFloats, withFloatsMembers] using Val.obj (nx := nx) this ⟨.nil, fun _ => rfl⟩
  | .obj ((k, v) :: ms) =>
    have := text_members hB H ((k, v) :: ms) (by simp) (fun k' v' hy => ⟨h.texts k' (.key hy), h.member hy⟩) (d + 1) (P.style.nl ++ P.style.indent d)
      (fun c hc => (List.mem_append.1 hc).elim (nl_blank _ c) (indent_blank H.style d c))
    have := Val.obj (nx := nx) this ⟨withFloatsMembers_sorted fl (h.sorted _ .refl), fun _ => rfl⟩
    simpa [Printer.text, Printer.block, Printer.members, withFloats] using this

theorem text_elems {B : ParseArgs F} (hB : B.Usual) {P : Printer F} (H : CodePoints P) {fl : F → Value F} (xs : List (Value F)) (hne : xs ≠ [])
    (h : ∀ y ∈ xs, ReadsBack B P fl y) (d : Nat) (g : List Nat) (hg : ∀ c ∈ g, IsBlank c) :
    Elems B.dialect (P.style.nl ++ P.items d (P.texts d xs) ++ g ++ [0x5D]) (withFloatsElems fl xs) := by
  match xs with
  | [] => exact absurd rfl hne
  | [x] =>
    have := Elems.last (D := B.dialect) (blanks_append (nl_blank P.style) (indent_blank H.style d))
      (text_val hB H x (h x (by simp)) d _ (after_blanks hg (Or.inr (Or.inl rfl)))) (gap_blanks hg)
    simpa [Printer.texts, Printer.items, withFloatsElems] using this
  | x :: y :: ys =>
    have := Elems.more (D := B.dialect) (blanks_append (nl_blank P.style) (indent_blank H.style d))
      (text_val hB H x (h x (by simp)) d _ (after_blanks (g := []) (by simp) (Or.inl rfl))) .nil
      (text_elems hB H (y :: ys) (by simp) (fun z hz => h z (by simp [hz])) d g hg)
    simp only [Printer.texts, printItems_cons P d _ (_ :: _), withFloatsElems] at this ⊢
    simpa using this

theorem text_members {B : ParseArgs F} (hB : B.Usual) {P : Printer F} (H : CodePoints P) {fl : F → Value F}
    (ms : List (List Nat × Value F)) (hne : ms ≠ [])
    (h : ∀ k' v', (k', v') ∈ ms →
      ((∀ c ∈ P.txt k', Rereadable P.uesc c) ∧ B.dialect.store (P.txt k') = some k') ∧ ReadsBack B P fl v')
    (d : Nat) (g : List Nat) (hg : ∀ c ∈ g, IsBlank c) :
    Members B.dialect (P.style.nl ++ P.items d (P.members d ms) ++ g ++ [0x7D]) (withFloatsMembers fl ms) := by
  match ms with
  | [] => exact absurd rfl hne
  | [(k, v)] =>
    have := Members.last (D := B.dialect) (g1 := []) (blanks_append (nl_blank P.style) (indent_blank H.style d))
      (literal_strLit H (h k v (by simp)).1) .nil (gap_blanks (space_blank H.style))
      (text_val hB H v (h k v (by simp)).2 d _ (after_blanks hg (Or.inr (Or.inr rfl)))) (gap_blanks hg)
    simpa [Printer.members, Printer.items, withFloatsMembers] using this
  | (k, v) :: (k', v') :: ms =>
    have := Members.more (D := B.dialect) (g1 := []) (blanks_append (nl_blank P.style) (indent_blank H.style d))
      (literal_strLit H (h k v (by simp)).1) .nil (gap_blanks (space_blank H.style))
      (text_val hB H v (h k v (by simp)).2 d _ (after_blanks (g := []) (by simp) (Or.inl rfl))) .nil
      (text_members hB H ((k', v') :: ms) (by simp) (fun k'' v'' hz => h k'' v'' (by simp [hz])) d g hg)
    simp only [Printer.members, printItems_cons P d _ (_ :: _), withFloatsMembers] at this ⊢
    simpa using this

end

end Configor
