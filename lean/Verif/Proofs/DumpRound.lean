import Verif.Proofs.DumpText
/-! From the text of a value as code points to its units, and back through the parser. -/
namespace Configor
open Spec Props

variable {F : Type}

/-! ## Units -/

theorem flatMap_fix {sp : Nat → List Nat} {l : List Nat} (h : ∀ c ∈ l, sp c = [c]) : l.flatMap sp = l := by
  induction l with
  | nil => rfl
  | cons c l ih => simp [h c (by simp), ih fun x hx => h x (by simp [hx])]

/-- A property that all characters of a text have. -/
def All (Q : Nat → Prop) (l : List Nat) : Prop := ∀ c ∈ l, Q c

theorem All.append {Q : Nat → Prop} {a b : List Nat} (h : All Q a) (h' : All Q b) : All Q (a ++ b) :=
  fun c hc => (List.mem_append.1 hc).elim (h c) (h' c)

theorem All.nil {Q : Nat → Prop} : All Q [] := fun _ h => by simp at h

theorem All.one {Q : Nat → Prop} {c : Nat} (h : Q c) : All Q [c] := fun x hx => by simp at hx; rw [hx]; exact h

theorem All.mono {Q Q' : Nat → Prop} {l : List Nat} (h : All Q l) (hq : ∀ c, Q c → Q' c) : All Q' l := fun c hc => hq c (h c hc)

theorem digits_ascii (n : Nat) : All (· < 128) ((digits 10 n).map digitChar) := by
  intro c hc
  have := (digits_decimal n).2.1 c hc
  unfold Rfc.Digit at this
  omega

theorem decText_ascii (i : Int) : All (· < 128) (decText i) := by
  unfold decText
  refine All.append ?_ (digits_ascii _)
  split
  · exact .one (by decide)
  · exact .nil

theorem hexChar_ascii {d : Nat} (h : d < 16) : hexChar d < 128 := by unfold hexChar; split <;> omega

theorem hex4_ascii (n : Nat) : All (· < 128) (hex4 n) := by
  intro c hc
  unfold hex4 at hc
  simp at hc
  rcases hc with rfl | rfl | rfl | rfl <;> exact hexChar_ascii (Nat.mod_lt _ (by decide))

theorem uniEscape_ascii (c : Nat) : All (· < 128) (uniEscape c) := by
  have h2 : All (· < 128) [0x5C, 0x75] := by intro c hc; simp at hc; omega
  unfold uniEscape
  split
  · refine h2.append ?_
    unfold hexShort
    split
    · exact fun c hc => hex4_ascii _ c (List.mem_of_mem_drop hc)
    split
    · exact fun c hc => hex4_ascii _ c (List.mem_of_mem_drop hc)
    · exact hex4_ascii _
  · exact ((h2.append (hex4_ascii _)).append h2).append (hex4_ascii _)

theorem shortEscape_ascii {c e : Nat} (h : shortEscape c = some e) : e < 128 := by
  unfold shortEscape at h
  repeat' split at h
  all_goals first
    | (cases h; decide)
    | cases h

theorem charText_all {Q : Nat → Prop} (ha : ∀ c < 128, Q c) {uesc : Bool} {enc : Nat → List Nat} {c : Nat}
    (h : shortEscape c = none → ¬ Escaped uesc c → All Q (enc c)) : All Q (charText uesc enc c) := by
  unfold charText
  cases hs : shortEscape c with
  | some e =>
    have := shortEscape_ascii hs
    intro x hx
    simp at hx
    exact ha x (by omega)
  | none =>
    simp only
    split
    · exact (uniEscape_ascii c).mono ha
    · rename_i he; exact h hs he

/-- What holds for all characters of the text of a value. -/
structure Chars (Q : Nat → Prop) (P : Printer F) : Prop where
  ascii : ∀ c < 128, Q c
  ch : P.style.pretty = true → Q P.style.ch
  num : ∀ i, All Q (P.num i)

section
variable {Q : Nat → Prop} {P : Printer F} (H : Chars Q P)
include H

theorem Chars.nl : All Q P.style.nl := by
  unfold Style.nl; split
  · exact .one (H.ascii _ (by decide))
  · exact .nil

theorem Chars.indent (d : Nat) : All Q (P.style.indent d) := by
  unfold Style.indent; split
  · rename_i h
    intro c hc; rw [List.eq_of_mem_replicate hc]; exact H.ch h.1
  · exact .nil

theorem Chars.space : All Q P.style.space := by
  unfold Style.space; split
  · rename_i h; exact .one (H.ch h)
  · exact .nil

theorem Chars.literal {s : List Nat} (h : All Q ((P.txt s).flatMap (charText P.uesc P.enc))) : All Q (P.literal s) := by
  unfold Printer.literal
  exact .append (.append (a := [0x22]) (.one (H.ascii _ (by decide))) h) (.one (H.ascii _ (by decide)))

theorem Chars.items (d : Nat) (ts : List (List Nat)) (h : ∀ t ∈ ts, All Q t) : All Q (P.items d ts) := by
  induction ts with
  | nil => exact .nil
  | cons t ts ih =>
    rw [printItems_cons]
    refine ((H.indent d).append (h t (by simp))).append ?_
    split
    · exact .nil
    · exact (All.append (.one (H.ascii _ (by decide))) H.nl).append (ih fun t ht => h t (by simp [ht]))

theorem Chars.block (d op cl : Nat) (ho : op < 128) (hc : cl < 128) (ts : List (List Nat)) (h : ∀ t ∈ ts, All Q t) :
    All Q (P.block d op cl ts) := by
  unfold Printer.block
  refine .append (.append (.append (.append (.one (H.ascii _ ho)) ?_) H.nl) (H.indent d)) (.one (H.ascii _ hc))
  split
  · exact .nil
  · exact H.nl.append (H.items _ _ h)

end

mutual

theorem text_all {Q : Nat → Prop} {P : Printer F} (H : Chars Q P) (d : Nat) (v : Value F)
    (ht : ∀ s, HasText v s → All Q ((P.txt s).flatMap (charText P.uesc P.enc))) (hf : ∀ f, HasFloat v f → All Q (P.flt f)) :
    All Q (P.text d v) := by
  match v with
  | .null => intro c hc; simp [Printer.text] at hc; exact H.ascii c (by omega)
  | .bool true => intro c hc; simp [Printer.text] at hc; exact H.ascii c (by omega)
  | .bool false => intro c hc; simp [Printer.text] at hc; exact H.ascii c (by omega)
  | .int i => exact H.num i
  | .flt f => exact hf f .flt
  | .str s => exact H.literal (ht s .str)
  | .arr xs =>
    exact H.block d _ _ (by decide) (by decide) _ (texts_all H (d + 1) xs (fun x hx s hs => ht s (.elem hx hs))
      (fun x hx f h => hf f (.elem hx h)))
  | .obj ms =>
    exact H.block d _ _ (by decide) (by decide) _ (members_all H (d + 1) ms (fun k v hx => ht k (.key hx))
      (fun k v hx s hs => ht s (.member hx hs)) (fun k v hx f h => hf f (.member hx h)))

theorem texts_all {Q : Nat → Prop} {P : Printer F} (H : Chars Q P) (d : Nat) (xs : List (Value F))
    (ht : ∀ x ∈ xs, ∀ s, HasText x s → All Q ((P.txt s).flatMap (charText P.uesc P.enc)))
    (hf : ∀ x ∈ xs, ∀ f, HasFloat x f → All Q (P.flt f)) : ∀ t ∈ P.texts d xs, All Q t := by
  match xs with
  | [] => intro t h; simp [Printer.texts] at h
  | x :: xs =>
    intro t h
    simp only [Printer.texts, List.mem_cons] at h
    rcases h with rfl | h
    · exact text_all H d x (ht x (by simp)) (hf x (by simp))
    · exact texts_all H d xs (fun y hy => ht y (by simp [hy])) (fun y hy => hf y (by simp [hy])) t h

theorem members_all {Q : Nat → Prop} {P : Printer F} (H : Chars Q P) (d : Nat) (ms : List (List Nat × Value F))
    (hk : ∀ k v, (k, v) ∈ ms → All Q ((P.txt k).flatMap (charText P.uesc P.enc)))
    (ht : ∀ k v, (k, v) ∈ ms → ∀ s, HasText v s → All Q ((P.txt s).flatMap (charText P.uesc P.enc)))
    (hf : ∀ k v, (k, v) ∈ ms → ∀ f, HasFloat v f → All Q (P.flt f)) : ∀ t ∈ P.members d ms, All Q t := by
  match ms with
  | [] => intro t h; simp [Printer.members] at h
  | (k, v) :: ms =>
    intro t h
    simp only [Printer.members, List.mem_cons] at h
    rcases h with rfl | h
    · exact (((H.literal (hk k v (by simp))).append (.one (H.ascii _ (by decide)))).append H.space).append
        (text_all H d v (ht k v (by simp)) (hf k v (by simp)))
    · exact members_all H d ms (fun k' v' hy => hk k' v' (by simp [hy])) (fun k' v' hy => ht k' v' (by simp [hy]))
        (fun k' v' hy => hf k' v' (by simp [hy])) t h

end

/-- `P'` writes, for each character `c` of what `P` writes, `sp c`. -/
structure MapsTo (sp : Nat → List Nat) (P P' : Printer F) : Prop where
  style : P'.style = P.style
  uesc : P'.uesc = P.uesc
  txt : P'.txt = P.txt
  num : P'.num = P.num
  enc : ∀ c, P'.enc c = (P.enc c).flatMap sp
  chars : Chars (fun c => sp c = [c]) P

section
variable {sp : Nat → List Nat} {P P' : Printer F} (H : MapsTo sp P P')
include H

theorem MapsTo.charText (c : Nat) : charText P'.uesc P'.enc c = (charText P.uesc P.enc c).flatMap sp := by
  rw [H.uesc]
  unfold Spec.charText
  cases hs : shortEscape c with
  | some e =>
    have := shortEscape_ascii hs
    simp only
    rw [flatMap_fix]
    intro x hx
    simp at hx
    exact H.chars.ascii x (by omega)
  | none =>
    simp only
    split
    · rw [flatMap_fix ((uniEscape_ascii c).mono H.chars.ascii)]
    · exact H.enc c

theorem MapsTo.literal (s : List Nat) : P'.literal s = (P.literal s).flatMap sp := by
  have h1 : sp 0x22 = [0x22] := H.chars.ascii _ (by decide)
  unfold Printer.literal
  rw [H.txt]
  simp only [List.cons_append, List.flatMap_cons, List.flatMap_append, List.flatMap_nil, List.append_nil, h1, List.flatMap_assoc]
  have hc : Spec.charText P'.uesc P'.enc = fun c => (Spec.charText P.uesc P.enc c).flatMap sp := funext H.charText
  rw [hc]
  rfl

theorem MapsTo.items (d : Nat) (ts : List (List Nat)) : P'.items d (ts.map (·.flatMap sp)) = (P.items d ts).flatMap sp := by
  have h2 : sp 0x2C = [0x2C] := H.chars.ascii _ (by decide)
  induction ts with
  | nil => rfl
  | cons t ts ih =>
    simp only [List.map_cons, printItems_cons, H.style, List.flatMap_append, flatMap_fix (H.chars.indent d)]
    cases ts with
    | nil => simp
    | cons u us =>
      simp only [List.map_cons] at ih ⊢
      simp only [reduceCtorEq, if_false]
      rw [ih]
      simp [h2, flatMap_fix H.chars.nl]

theorem MapsTo.block (d op cl : Nat) (ho : op < 128) (hc : cl < 128) (ts : List (List Nat)) :
    P'.block d op cl (ts.map (·.flatMap sp)) = (P.block d op cl ts).flatMap sp := by
  have h1 : sp op = [op] := H.chars.ascii _ ho
  have h2 : sp cl = [cl] := H.chars.ascii _ hc
  unfold Printer.block
  rw [H.style, H.items]
  cases ts with
  | nil => simp [h1, h2, flatMap_fix H.chars.nl, flatMap_fix (H.chars.indent d)]
  | cons u us => simp [h1, h2, flatMap_fix H.chars.nl, flatMap_fix (H.chars.indent d)]

end

mutual

theorem text_maps {sp : Nat → List Nat} {P P' : Printer F} (H : MapsTo sp P P') (d : Nat) (v : Value F)
    (hf : ∀ f, HasFloat v f → P'.flt f = (P.flt f).flatMap sp) : P'.text d v = (P.text d v).flatMap sp := by
  match v with
  | .null => simp only [Printer.text]; rw [flatMap_fix]; intro c hc; simp at hc; exact H.chars.ascii c (by omega)
  | .bool true => simp only [Printer.text]; rw [flatMap_fix]; intro c hc; simp at hc; exact H.chars.ascii c (by omega)
  | .bool false => simp only [Printer.text]; rw [flatMap_fix]; intro c hc; simp at hc; exact H.chars.ascii c (by omega)
  | .int i => simp only [Printer.text]; rw [H.num, flatMap_fix (H.chars.num i)]
  | .flt f => exact hf f .flt
  | .str s => exact H.literal s
  | .arr xs => simp only [Printer.text]; rw [texts_maps H _ _ (fun x hx f h => hf f (.elem hx h)), H.block d _ _ (by decide) (by decide)]
  | .obj ms => simp only [Printer.text]; rw [members_maps H _ _ (fun k v hx f h => hf f (.member hx h)), H.block d _ _ (by decide) (by decide)]

theorem texts_maps {sp : Nat → List Nat} {P P' : Printer F} (H : MapsTo sp P P') (d : Nat) (xs : List (Value F))
    (hf : ∀ x ∈ xs, ∀ f, HasFloat x f → P'.flt f = (P.flt f).flatMap sp) :
    P'.texts d xs = (P.texts d xs).map (·.flatMap sp) := by
  match xs with
  | [] => rfl
  | x :: xs => simp only [Printer.texts, List.map_cons]; rw [text_maps H d x (hf x (by simp)), texts_maps H d xs (fun y hy => hf y (by simp [hy]))]

theorem members_maps {sp : Nat → List Nat} {P P' : Printer F} (H : MapsTo sp P P') (d : Nat) (ms : List (List Nat × Value F))
    (hf : ∀ k v, (k, v) ∈ ms → ∀ f, HasFloat v f → P'.flt f = (P.flt f).flatMap sp) :
    P'.members d ms = (P.members d ms).map (·.flatMap sp) := by
  match ms with
  | [] => rfl
  | (k, v) :: ms =>
    have h3 : sp 0x3A = [0x3A] := H.chars.ascii _ (by decide)
    simp only [Printer.members, List.map_cons, List.flatMap_append]
    rw [text_maps H d v (hf k v (by simp)), members_maps H d ms (fun k' v' hy => hf k' v' (by simp [hy])), H.literal, H.style, flatMap_fix H.chars.space]
    simp [h3]

end

/-! ## Encodings -/

theorem Target.ascii {e : Enc} {w : Nat} {spec : Nat → List Nat} (h : Target e w spec) {c : Nat} (hc : c < 128) : spec c = [c] := by
  cases h with
  | utf8 => unfold Spec.utf8; rw [if_pos hc]
  | utf16 => unfold Spec.utf16c Spec.utf16; rw [if_neg (by omega), if_pos (by omega)]
  | utf16w => unfold Spec.utf16; rw [if_pos (by omega)]
  | utf32 => rfl

theorem Target.width {e : Enc} {w : Nat} {spec : Nat → List Nat} (h : Target e w spec) : 8 ≤ w := by
  cases h <;> decide

theorem utf16_noEof {cps : List Nat} {w : Nat} (hw : w = 16 ∨ w = 32) (h : ∀ c ∈ cps, c ≤ maxCp) (h' : w = 16 → ∀ c ∈ cps, c ≠ 0xFFFF) :
    NoEof w (cps.flatMap Spec.utf16) := by
  intro x hx
  right
  obtain ⟨y, hy, hxy⟩ := List.mem_flatMap.1 hx
  have hb := h y hy
  unfold maxCp at hb
  unfold Spec.utf16 at hxy
  rcases hw with rfl | rfl
  · have := h' rfl y hy
    split at hxy <;> simp at hxy <;> simp only [Nat.reducePow] <;> omega
  · split at hxy <;> simp at hxy <;> simp only [Nat.reducePow] <;> omega

/-- Text that an encoder writes is read back. -/
theorem Target.reads {e : Enc} {w : Nat} {spec : Nat → List Nat} (h : Target e w spec) {cps : List Nat}
    (hm : ∀ c ∈ cps, IsScalar c) (h16 : w = 16 → ∀ c ∈ cps, c ≠ 0xFFFF) :
    ReadsAs (e.decode w (strSBuf w)) (onString (cps.flatMap spec)) cps := by
  have h3 : ∀ c ∈ cps, c ≤ maxCp := fun c hc => (hm c hc).1
  have hl : ∀ c ∈ cps, c ≤ maxCp ∧ isLead c = false := by
    intro c hc
    have := hm c hc
    unfold IsScalar IsSurrogate at this
    refine ⟨this.1, ?_⟩
    unfold isLead
    simp
    omega
  cases h with
  | utf8 =>
    have := C09_utf8_text_roundtrip cps h3
    rwa [writeAll_out (spec := Spec.utf8) (fun o cp ho hc => utf8Encode_ok ho hc) cps h3 _ rfl] at this
  | utf16 =>
    have h3' : ∀ c ∈ cps, c ≤ maxCp ∧ isLead c = false ∧ ((16 : Nat) = 16 → c ≠ 0xFFFF) :=
      fun c hm => ⟨h3 c hm, (hl c hm).2, fun _ => h16 rfl c hm⟩
    have := C09_utf16_text_roundtrip 16 (Or.inl rfl) cps h3'
    rw [utf16c_text (h16 rfl)]
    rwa [writeAll_out (spec := Spec.utf16) (P := fun c => c ≤ maxCp ∧ isLead c = false ∧ ((16 : Nat) = 16 → c ≠ 0xFFFF))
      (fun o cp ho hc => utf16Encode_ok (Or.inl rfl) ho ⟨hc.1, hc.2.2⟩) cps h3' (.ofString []) rfl] at this
  | utf16w =>
    have h3' : ∀ c ∈ cps, c ≤ maxCp ∧ isLead c = false ∧ ((32 : Nat) = 16 → c ≠ 0xFFFF) :=
      fun c hm => ⟨h3 c hm, (hl c hm).2, nofun⟩
    have := C09_utf16_text_roundtrip 32 (Or.inr rfl) cps h3'
    rwa [writeAll_out (spec := Spec.utf16) (P := fun c => c ≤ maxCp ∧ isLead c = false ∧ ((32 : Nat) = 16 → c ≠ 0xFFFF))
      (fun o cp ho hc => utf16Encode_ok (Or.inr rfl) ho ⟨hc.1, hc.2.2⟩) cps h3' (.ofString []) rfl] at this
  | utf32 =>
    have := C09_utf32_text_roundtrip cps h3
    rwa [writeAll_out (spec := Spec.utf32) (fun o cp ho hc => utf32Encode_ok ho hc) cps h3 _ rfl] at this

/-! ## The printer of a call -/

/-- The text of a floating point number. -/
def floatText (fo : FloatOps F) (f : F) : List Nat :=
  if fo.isIntegral f then
    match fo.toI64 f with
    | some i => decText i ++ [0x2E, 0x30]
    | none => []
  else fo.fmt f

/-- The printer of a call with the given units of a code point. -/
def DumpArgs.printer (A : DumpArgs F) (enc : Nat → List Nat) : Printer F :=
  ⟨A.style, A.uesc, enc, fun s => (itemsOf A.se A.sw s).filterMap id, decText, floatText A.fo⟩

theorem items_txt {e : Enc} {w : Nat} {s cps : List Nat} (h : ReadsAs (e.decode w (strSBuf w)) (onString s) cps) :
    (itemsOf e w s).filterMap id = cps := by
  rw [itemsOf_reads h]
  induction cps with
  | nil => rfl
  | cons c cps ih => simp

theorem prints_printer (A : DumpArgs F) {enc : Nat → List Nat}
    (h : ∀ c u, storeWith (A.te.encode A.tw) [c] = some u → enc c = u) : Prints A (A.printer enc) where
  style := rfl
  uesc := rfl
  enc := h
  txt := fun s cps hr => items_txt hr
  num := fun _ => rfl
  intFlt := fun f i h1 h2 => by simp [DumpArgs.printer, floatText, h1, h2]
  flt := fun f h1 => by simp [DumpArgs.printer, floatText, h1]

theorem Target.prints {A : DumpArgs F} {spec : Nat → List Nat} (h : Target A.te A.tw spec) : Prints A (A.printer spec) := by
  refine prints_printer A fun c u hu => ?_
  have := ((h.store [c] u).1 hu).2
  simpa using this.symm

/-- The parse call that reads what a dump call writes. -/
structure Reverses (A : DumpArgs F) (B : ParseArgs F) : Prop where
  se : B.se = A.te
  sw : B.sw = A.tw
  te : B.te = A.se
  tw : B.tw = A.sw

/-- A string that is written and read back. -/
def TextOk (A : DumpArgs F) (spec : Nat → List Nat) (s : List Nat) : Prop :=
  ∃ cps : List Nat, s = cps.flatMap spec ∧ ∀ c ∈ cps, Rereadable A.uesc c ∧ (A.sw = 16 ∨ A.tw = 16 → c ≠ 0xFFFF)

/-- Dumping, and the text that the parser sees. The order of the members does not matter. -/
theorem dump_reads_text {A : DumpArgs F} {B : ParseArgs F} (hAB : Reverses A B) {spec spec' : Nat → List Nat}
    (hs : Target A.se A.sw spec) (ht : Target A.te A.tw spec') (hb : BlankStyle A.style) (v : Value F)
    (hf : ∀ f, HasFloat v f → FloatOk A f ∧ All (· < 128) (floatText A.fo f))
    (htx : ∀ s, HasText v s → TextOk A spec s) :
    (∀ str, jsonDump A none str v = (.ok (), str ++ (A.printer spec').text 0 v)) ∧
    Reads B ((A.printer spec').text 0 v) ((A.printer self).text 0 v) ∧
    ∀ s, HasText v s → (∀ c ∈ (A.printer self).txt s, Rereadable A.uesc c) ∧ B.dialect.store ((A.printer self).txt s) = some s := by
  have htxt : ∀ s, HasText v s → ∃ cps : List Nat, s = cps.flatMap spec ∧
      (∀ c ∈ cps, Rereadable A.uesc c ∧ (A.sw = 16 ∨ A.tw = 16 → c ≠ 0xFFFF)) ∧
      ReadsAs (A.se.decode A.sw (strSBuf A.sw)) (onString s) cps := by
    intro s h
    obtain ⟨cps, rfl, hc⟩ := htx s h
    exact ⟨cps, rfl, hc, hs.reads (fun c h => (hc c h).1.1) (fun hw c h => (hc c h).2 (Or.inl hw))⟩
  have hfine : ∀ s, HasText v s → Fine A s := by
    intro s h
    obtain ⟨cps, _, hc, hr⟩ := htxt s h
    refine ⟨cps, hr, fun c h => Or.inr (Or.inr ?_)⟩
    rw [(ht.store [c] (spec' c)).2 ⟨by simpa using (hc c h).1.1.1, by simp⟩]
    simp
  refine ⟨?_, ?_⟩
  · intro str
    have := jsonDump_spec ht.prints str v
    rcases hd : jsonDump A none str v with ⟨e | _, r⟩
    · rw [hd] at this
      rcases this with ⟨_, s, hs, hn⟩ | ⟨_, f, hf', hn⟩
      · exact absurd (hfine s hs) hn
      · exact absurd (hf f hf').1 hn
    · rw [hd] at this
      rw [this.2]
  · have hch : A.style.pretty = true → A.style.ch < 128 := by
      intro hp; rcases hb hp with h | h <;> omega
    have hch0 : ∀ {Q : Nat → Prop}, (∀ c < 128, Q c) → Chars Q (A.printer self) := fun ha =>
      ⟨ha, fun hp => ha _ (hch hp), fun i => (decText_ascii i).mono ha⟩
    have htx' : ∀ s, HasText v s → (A.printer self).txt s = (A.printer self).txt s ∧
        (∀ c ∈ (A.printer self).txt s, Rereadable A.uesc c ∧ (A.sw = 16 ∨ A.tw = 16 → c ≠ 0xFFFF)) ∧
        s = ((A.printer self).txt s).flatMap spec := by
      intro s hs
      obtain ⟨cps, h1, h2, h3⟩ := htxt s hs
      have : (A.printer self).txt s = cps := items_txt h3
      rw [this]
      exact ⟨rfl, h2, h1⟩
    have hr : ∀ s, HasText v s → (∀ c ∈ (A.printer self).txt s, Rereadable A.uesc c) ∧ B.dialect.store ((A.printer self).txt s) = some s := by
      intro s h
      obtain ⟨_, h2, h3⟩ := htx' s h
      refine ⟨fun c hc => (h2 c hc).1, ?_⟩
      have hst : Target B.te B.tw spec := by rw [hAB.te, hAB.tw]; exact hs
      exact (hst.store _ s).2 ⟨fun c hc => (h2 c hc).1.1.1, h3⟩
    -- the units of the text
    have hall : All (fun c => IsScalar c ∧ (A.tw = 16 → c ≠ 0xFFFF)) ((A.printer self).text 0 v) := by
      have ha : ∀ c < 128, IsScalar c ∧ (A.tw = 16 → c ≠ 0xFFFF) := by
        intro c hc; unfold IsScalar IsSurrogate maxCp; omega
      refine text_all (hch0 ha) 0 v ?_ (fun f h => (hf f h).2.mono ha)
      intro s hs c hc
      obtain ⟨_, h2, _⟩ := htx' s hs
      obtain ⟨x, hx, hcx⟩ := List.mem_flatMap.1 hc
      refine charText_all ha (fun _ _ => ?_) c hcx
      intro y hy
      have : y = x := by simpa [DumpArgs.printer, self] using hy
      rw [this]
      exact ⟨(h2 x hx).1.1, fun h => (h2 x hx).2 (Or.inr h)⟩
    have hmap : (A.printer spec').text 0 v = ((A.printer self).text 0 v).flatMap spec' := by
      have hmt : MapsTo spec' (A.printer self) (A.printer spec') :=
        ⟨rfl, rfl, rfl, rfl, fun c => by simp [DumpArgs.printer, self], hch0 fun c hc => ht.ascii hc⟩
      refine text_maps hmt 0 v fun f h => ?_
      exact (flatMap_fix fun c hc => ht.ascii ((hf f h).2 c hc)).symm
    have hread : Reads B ((A.printer spec').text 0 v) ((A.printer self).text 0 v) := by
      unfold Reads
      rw [hmap, hAB.se, hAB.sw]
      exact ht.reads (fun c h => (hall c h).1) (fun hw c h => (hall c h).2 hw)
    exact ⟨hread, hr⟩

/-- Dumping, and what the parser reads of the text, if floats are read as `fl` says. -/
theorem dump_reads_as {A : DumpArgs F} {B : ParseArgs F} (hAB : Reverses A B) {spec spec' : Nat → List Nat}
    (hs : Target A.se A.sw spec) (ht : Target A.te A.tw spec') (hb : BlankStyle A.style) (fl : F → Value F) (v : Value F)
    (hv : KeysSorted v) (hi : ∀ i, HasInt v i → -9223372036854775808 < i ∧ i < 9223372036854775808)
    (hf : ∀ f, HasFloat v f → FloatOk A f ∧ All (· < 128) (floatText A.fo f) ∧
      ∀ nx, After nx → Val B.dialect (floatText A.fo f) nx (fl f))
    (htx : ∀ s, HasText v s → TextOk A spec s) :
    (∀ str, jsonDump A none str v = (.ok (), str ++ (A.printer spec').text 0 v)) ∧
    Reads B ((A.printer spec').text 0 v) ((A.printer self).text 0 v) ∧ Val B.dialect ((A.printer self).text 0 v) none (withFloats fl v) := by
  have hB : B.Usual := ⟨by rw [hAB.sw]; exact ht.width, by rw [hAB.tw]; exact hs.width⟩
  obtain ⟨h1, h2, h3⟩ := dump_reads_text hAB hs ht hb v (fun f h => ⟨(hf f h).1, (hf f h).2.1⟩) htx
  exact ⟨h1, h2, text_val hB ⟨hb, rfl, fun _ => rfl⟩ v ⟨hv, hi, fun f h => (hf f h).2.2, h3⟩ 0 none (by simp [After])⟩

/-- Dumping, and what the parser reads of the text. -/
theorem dump_reads {A : DumpArgs F} {B : ParseArgs F} (hAB : Reverses A B) {spec spec' : Nat → List Nat}
    (hs : Target A.se A.sw spec) (ht : Target A.te A.tw spec') (hb : BlankStyle A.style) (v : Value F)
    (hv : KeysSorted v) (hi : ∀ i, HasInt v i → -9223372036854775808 < i ∧ i < 9223372036854775808)
    (hf : ∀ f, HasFloat v f → FloatOk A f ∧ All (· < 128) (floatText A.fo f) ∧
      ∀ nx, After nx → Val B.dialect (floatText A.fo f) nx (.flt f))
    (htx : ∀ s, HasText v s → TextOk A spec s) :
    (∀ str, jsonDump A none str v = (.ok (), str ++ (A.printer spec').text 0 v)) ∧
    Reads B ((A.printer spec').text 0 v) ((A.printer self).text 0 v) ∧ Val B.dialect ((A.printer self).text 0 v) none v := by
  have := dump_reads_as hAB hs ht hb .flt v hv hi hf htx
  rwa [withFloats_flt] at this

/-- Dumping and parsing again, if floats are read as `fl` says. -/
theorem dump_parse_as {A : DumpArgs F} {B : ParseArgs F} (hAB : Reverses A B) {spec spec' : Nat → List Nat}
    (hs : Target A.se A.sw spec) (ht : Target A.te A.tw spec') (hb : BlankStyle A.style) (fl : F → Value F) (v : Value F)
    (hv : KeysSorted v) (hi : ∀ i, HasInt v i → -9223372036854775808 < i ∧ i < 9223372036854775808)
    (hf : ∀ f, HasFloat v f → FloatOk A f ∧ All (· < 128) (floatText A.fo f) ∧
      ∀ nx, After nx → Val B.dialect (floatText A.fo f) nx (fl f))
    (htx : ∀ s, HasText v s → TextOk A spec s) :
    (∀ str, jsonDump A none str v = (.ok (), str ++ (A.printer spec').text 0 v)) ∧
    ∀ h c, jsonParse B h c ((A.printer spec').text 0 v) = (.ok (), withFloats fl v) := by
  have hB : B.Usual := ⟨by rw [hAB.sw]; exact ht.width, by rw [hAB.tw]; exact hs.width⟩
  obtain ⟨h1, hread, hval⟩ := dump_reads_as hAB hs ht hb fl v hv hi hf htx
  refine ⟨h1, fun h c => ?_⟩
  have hdoc : Document B.dialect (((A.printer self).text 0 v).map some) (withFloats fl v) :=
    ⟨[], (A.printer self).text 0 v, [], [], by simp, .nil, by simpa using hval, .eof .nil⟩
  rw [jsonParse_items hB, ← (sees_iff B _ _).1 hread.sees]
  have hle := itemsOf_length B.se B.sw ((A.printer spec').text 0 v)
  rw [← (sees_iff B _ _).1 hread.sees] at hle
  exact parseItems_complete hB h c hdoc (by omega)

/-- Dumping and parsing again. -/
theorem dump_parse {A : DumpArgs F} {B : ParseArgs F} (hAB : Reverses A B) {spec spec' : Nat → List Nat}
    (hs : Target A.se A.sw spec) (ht : Target A.te A.tw spec') (hb : BlankStyle A.style) (v : Value F)
    (hv : KeysSorted v) (hi : ∀ i, HasInt v i → -9223372036854775808 < i ∧ i < 9223372036854775808)
    (hf : ∀ f, HasFloat v f → FloatOk A f ∧ All (· < 128) (floatText A.fo f) ∧
      ∀ nx, After nx → Val B.dialect (floatText A.fo f) nx (.flt f))
    (htx : ∀ s, HasText v s → TextOk A spec s) :
    (∀ str, jsonDump A none str v = (.ok (), str ++ (A.printer spec').text 0 v)) ∧
    ∀ h c, jsonParse B h c ((A.printer spec').text 0 v) = (.ok (), v) := by
  have := dump_parse_as hAB hs ht hb .flt v hv hi hf htx
  rwa [withFloats_flt] at this

end Configor
