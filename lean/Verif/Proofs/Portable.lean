import Verif.Spec.Portable
import Verif.Props.Convert
import Verif.Proofs.DumpRound
/-! # What portable objects are converted to, and the characters of the text written -/
namespace Configor
open Spec ValueOps Conv Props

variable {F T S : Type}

/-- A value that a text can carry. -/
structure Carried (ok : List Nat → Prop) (v : Value F) : Prop where
  sorted : KeysSorted v
  flts : ∀ f, ¬ HasFloat v f
  ints : ∀ i, HasInt v i → -9223372036854775808 < i ∧ i < 9223372036854775808
  texts : ∀ s, HasText v s → ok s

theorem Carried.null {ok : List Nat → Prop} : Carried ok (.null : Value F) :=
  ⟨fun _ h => by (cases h), fun _ h => by (cases h), fun _ h => by (cases h), fun _ h => by (cases h)⟩

theorem Carried.arr {ok : List Nat → Prop} {vs : List (Value F)} (h : ∀ v ∈ vs, Carried ok v) : Carried ok (.arr vs) where
  sorted ms hm := by cases hm with | elem hx hm => exact (h _ hx).sorted ms hm
  flts f hf := by cases hf with | elem hx hf => exact (h _ hx).flts f hf
  ints i hi := by cases hi with | elem hx hi => exact (h _ hx).ints i hi
  texts s hs := by cases hs with | elem hx hs => exact (h _ hx).texts s hs

theorem Carried.obj {ok : List Nat → Prop} {ms : List (List Nat × Value F)} (hm : ms.Pairwise fun a b => a.1 < b.1)
    (h : ∀ m ∈ ms, ok m.1 ∧ Carried ok m.2) : Carried ok (.obj ms) where
  sorted ms' hw := by
    cases hw with
    | refl => exact hm
    | member hx hw => exact (h _ hx).2.sorted ms' hw
  flts f hf := by cases hf with | member hx hf => exact (h _ hx).2.flts f hf
  ints i hi := by cases hi with | member hx hi => exact (h _ hx).2.ints i hi
  texts s hs := by
    cases hs with
    | key hx => exact (h _ hx).1
    | member hx hs => exact (h _ hx).2.texts s hs

/-- An object that is converted to a value which a text can carry, and back. -/
def Carries (ok : List Nat → Prop) (E : Conv F T) (x : T) : Prop := ∃ v, E.toValue x = .ok v ∧ E.get v = .ok x ∧ Carried ok v

theorem Carries.roundTrip {ok : List Nat → Prop} {E : Conv F T} {x : T} (h : Carries ok E x) : RoundTrip E x :=
  let ⟨v, h1, h2, _⟩ := h; ⟨v, h1, h2⟩

theorem Carries.of {ok : List Nat → Prop} {E : Conv F T} {x : T} (h : RoundTrip E x) (hc : ∀ v, E.toValue x = .ok v → Carried ok v) :
    Carries ok E x :=
  let ⟨v, h1, h2⟩ := h; ⟨v, h1, h2, hc v h1⟩

theorem Carries.carried {ok : List Nat → Prop} {E : Conv F T} {x : T} (h : Carries ok E x) {v : Value F} (hv : E.toValue x = .ok v) :
    Carried ok v := by
  obtain ⟨v', h1, _, h3⟩ := h
  rw [hv] at h1
  cases h1
  exact h3

theorem toAll_mem {E : Conv F T} {xs : List T} {vs : List (Value F)} (h : ToAll E xs vs) : ∀ v ∈ vs, ∃ x ∈ xs, E.toValue x = .ok v := by
  induction h with
  | nil => simp
  | cons h _ ih =>
    intro v hv
    rcases List.mem_cons.1 hv with rfl | hv
    · exact ⟨_, by simp, h⟩
    · obtain ⟨x, hx, e⟩ := ih v hv
      exact ⟨x, by simp [hx], e⟩

theorem carried_seq {ok : List Nat → Prop} {E : Conv F T} {xs : List T} (hl : xs.length ≤ vectorMax) (h : ∀ x ∈ xs, Carries ok E x)
    {v : Value F} (hv : toLoop E 0 xs (.arr []) = .ok v) : Carried ok v := by
  obtain ⟨vs, h1, _⟩ := roundTrip_all fun x hx => (h x hx).roundTrip
  rw [toSeq h1 hl] at hv
  cases hv
  refine .arr fun v hv => ?_
  obtain ⟨x, hx, e⟩ := toAll_mem h1 v hv
  exact (h x hx).carried e

theorem all2_mem {A B : Type} {R : A → B → Prop} {as : List A} {bs : List B} (h : All2 R as bs) : ∀ b ∈ bs, ∃ a ∈ as, R a b := by
  induction h with
  | nil => simp
  | cons h _ ih =>
    intro v hv
    rcases List.mem_cons.1 hv with rfl | hv
    · exact ⟨_, by simp, h⟩
    · obtain ⟨x, hx, e⟩ := ih v hv
      exact ⟨x, by simp [hx], e⟩

theorem sorted_lookup_mem {V : Type} {ms : List (List Nat × V)} (h : Sorted ms) {m : List Nat × V} (hm : m ∈ ms) : ms.lookup m.1 = some m.2 := by
  induction ms with
  | nil => cases hm
  | cons n ms ih =>
    obtain ⟨k, v⟩ := n
    rw [Sorted, List.pairwise_cons] at h
    rw [lookup_if]
    rcases List.mem_cons.1 hm with rfl | hm
    · simp
    · have := h.1 m hm
      rw [if_neg (by rintro e; rw [e] at this; exact List.lt_irrefl _ this)]
      exact ih h.2 hm

theorem castTo64_small {signed : Bool} {w : Nat} (hw : 1 ≤ w) (h64 : w ≤ 64) {x : Int} (hx : InRange signed w x)
    (h1 : x ≠ -9223372036854775808) (h2 : x ≠ 9223372036854775808) :
    -9223372036854775808 < castTo true 64 x ∧ castTo true 64 x < 9223372036854775808 := by
  have h63 : (2 : Int) ^ (64 - 1) = 9223372036854775808 := by decide
  have h640 : (2 : Int) ^ 64 = 18446744073709551616 := by decide
  have hb : -9223372036854775808 ≤ x ∧ x < 18446744073709551616 := by
    cases signed with
    | true =>
      have := two_pow_le (show w - 1 ≤ 64 - 1 by omega)
      simp only [InRange, if_true] at hx
      omega
    | false =>
      have := two_pow_le h64
      simp only [InRange, Bool.false_eq_true, if_false] at hx
      omega
  simp only [castTo, wrapS, if_true, h63, h640]
  omega

/-- Portable objects are carried. -/
theorem portable_carries {ok : List Nat → Prop} {E : Conv F T} {P : T → Prop} (h : Portable ok E P) : ∀ x, P x → Carries ok E x := by
  induction h with
  | bool =>
    intro b _
    exact ⟨_, rfl, rfl, fun _ h => by (cases h), fun _ h => by (cases h), fun _ h => by (cases h), fun _ h => by (cases h)⟩
  | int signed w hw h64 =>
    intro x ⟨hx, h1, h2⟩
    refine .of (C66_int_round_trip signed w hw h64 x hx) fun v hv => ?_
    cases hv
    refine ⟨fun _ h => by (cases h), fun _ h => by (cases h), fun i h => ?_, fun _ h => by (cases h)⟩
    cases h
    exact castTo64_small hw h64 hx h1 h2
  | str =>
    intro s hs
    exact ⟨_, rfl, rfl, fun _ h => by (cases h), fun _ h => by (cases h), fun _ h => by (cases h), fun _ h => by cases h; exact hs⟩
  | vector _ ih => exact fun xs h => .of (C69_vector_round_trip _ xs h.1 fun x hx => (ih x (h.2 x hx)).roundTrip) fun v hv => carried_seq h.1 (fun x hx => ih x (h.2 x hx)) hv
  | list _ ih => exact fun xs h => .of (C69_list_round_trip _ xs h.1 fun x hx => (ih x (h.2 x hx)).roundTrip) fun v hv => carried_seq h.1 (fun x hx => ih x (h.2 x hx)) hv
  | forwardList _ ih => exact fun xs h => .of (C69_forward_list_round_trip _ xs h.1 fun x hx => (ih x (h.2 x hx)).roundTrip) fun v hv => carried_seq h.1 (fun x hx => ih x (h.2 x hx)) hv
  | array n hn _ ih => exact fun xs h => .of (C69_array_round_trip n _ xs h.1 hn fun x hx => (ih x (h.2 x hx)).roundTrip) fun v hv => carried_seq (by omega) (fun x hx => ih x (h.2 x hx)) hv
  | set lt hlt _ ih => exact fun xs h => .of (C69_set_round_trip _ lt hlt xs h.2.1 h.1 fun x hx => (ih x (h.2.2 x hx)).roundTrip) fun v hv => carried_seq h.1 (fun x hx => ih x (h.2.2 x hx)) hv
  | @map T E P _ ih =>
    intro xs ⟨hx, h⟩
    refine .of (C70_map_round_trip _ xs hx fun x hx => (ih x.2 (h x hx).2).roundTrip) fun v hv => ?_
    obtain ⟨vs, h1, _⟩ := map_roundTrip fun x hx => (ih x.2 (h x hx).2).roundTrip
    have hs : Sorted vs := by
      rw [sorted_keys, ← all2_keys (fun _ _ h => h.1) h1]
      exact hx
    change toMembers E xs (.obj []) = _ at hv
    rw [toMembers_eq xs vs h1 [] (by simp [Sorted]), put_all_sorted vs hs] at hv
    cases hv
    refine .obj hs fun m hm => ?_
    obtain ⟨x, hx, e1, e2⟩ := all2_mem h1 m hm
    exact ⟨e1 ▸ (h x hx).1, (ih x.2 (h x hx).2).carried e2⟩
  | @ptr T E P _ ih =>
    intro p h
    cases p with
    | none => exact ⟨.null, rfl, rfl, .null⟩
    | some x => exact .of ((C91_ptr_round_trip_partial E).2 x (ih x (h x rfl).1).roundTrip (h x rfl).2) fun v hv => (ih x (h x rfl).1).carried hv
  | @struct S fs zero P hl hn hok hall hd _ ih =>
    intro s h
    have hr : ∀ f ∈ fs, Carries ok f.conv (f.get s) := fun f hf => ih f hf _ (h f hf).1
    refine .of ?_ fun v hv => ?_
    · obtain ⟨v, s', h1, h2, h3⟩ := C73_bind_round_trip_partial fs zero s hl hn (fun f hf => (h f hf).2) hd fun f hf => (hr f hf).roundTrip
      rw [hall s s' h3] at h2
      exact ⟨v, h1, h2⟩
    · obtain ⟨v', h1, h2, h3, h4, _⟩ := writeAll_spec s fs hn (fun f hf => ⟨_, (hr f hf).choose_spec.1⟩) .null (.inl rfl)
      change writeAll s fs .null = _ at hv
      rw [hv] at h1
      cases h1
      rcases h2 with rfl | ⟨ms, rfl, hm⟩
      · exact .null
      · refine .obj hm fun m hx => ?_
        have hlk : member (.obj ms) m.1 = some m.2 := sorted_lookup_mem hm hx
        by_cases hk : m.1 ∈ fs.map Field.name
        · obtain ⟨f, hf, e⟩ := List.mem_map.1 hk
          by_cases ho : Omitted f s
          · rw [← e, (h3 f hf).2 ho] at hlk
            cases hlk
          · obtain ⟨y, hy, hm'⟩ := (h3 f hf).1 ho
            rw [← e, hm'] at hlk
            cases hlk
            exact ⟨e ▸ hok f hf, (hr f hf).carried hy⟩
        · rw [h4 _ hk] at hlk
          cases hlk

/-! ## Characters of the text -/

theorem Target.noEof {e : Enc} {w : Nat} {spec : Nat → List Nat} (h : Target e w spec) {c : Nat} (hc : IsScalar c) (h16 : w = 16 → c ≠ 0xFFFF) :
    NoEof w (spec c) := by
  have hm := hc.1
  cases h with
  | utf8 => exact fun _ _ => .inl rfl
  | utf16 =>
    have := utf16_noEof (cps := [c]) (w := 16) (.inl rfl) (by simpa using hm) (by simpa using h16)
    simpa [Spec.utf16c, h16 rfl] using this
  | utf16w =>
    have := utf16_noEof (cps := [c]) (w := 32) (.inr rfl) (by simpa using hm) (by simp)
    simpa using this
  | utf32 =>
    intro u hu
    have : u = c := by simpa [Spec.utf32] using hu
    unfold maxCp at hm
    right; simp only [Nat.reducePow]; omega

/-- A character that no locale takes for white space. -/
def Printable (c : Nat) : Prop := 0x21 ≤ c ∧ c < 0x7F

theorem decText_head (i : Int) : ∃ c r, decText i = c :: r ∧ Printable c := by
  have hd := digits_decimal i.natAbs
  unfold decText
  split
  · exact ⟨_, _, rfl, by unfold Printable; omega⟩
  · cases hl : (digits 10 i.natAbs).map digitChar with
    | nil => exact absurd hl hd.2.2.1
    | cons c r =>
      have := hd.2.1 c (by rw [hl]; simp)
      refine ⟨c, r, rfl, ?_⟩
      unfold Rfc.Digit at this
      unfold Printable
      omega

/-- The text of a value without floats starts with a printable character. -/
theorem text_head (A : DumpArgs F) (enc : Nat → List Nat) (v : Value F) (hf : ∀ f, ¬ HasFloat v f) :
    ∃ c r, (A.printer enc).text 0 v = c :: r ∧ Printable c := by
  have hp : ∀ c, 0x21 ≤ c → c < 0x7F → Printable c := fun _ h h' => ⟨h, h'⟩
  match v with
  | .null => exact ⟨_, _, rfl, hp _ (by decide) (by decide)⟩
  | .bool true => exact ⟨_, _, rfl, hp _ (by decide) (by decide)⟩
  | .bool false => exact ⟨_, _, rfl, hp _ (by decide) (by decide)⟩
  | .int i => exact decText_head i
  | .flt f => exact absurd .flt (hf f)
  | .str s => exact ⟨_, _, rfl, hp _ (by decide) (by decide)⟩
  | .arr xs => exact ⟨_, _, by simp only [Printer.text, Printer.block, List.cons_append]; rfl, hp _ (by decide) (by decide)⟩
  | .obj ms => exact ⟨_, _, by simp only [Printer.text, Printer.block, List.cons_append]; rfl, hp _ (by decide) (by decide)⟩

/-- No unit of the text equals `eof`. -/
theorem text_noEof {A : DumpArgs F} {spec spec' : Nat → List Nat} (hs : Target A.se A.sw spec) (ht : Target A.te A.tw spec')
    (hb : BlankStyle A.style) (v : Value F) (hf : ∀ f, HasFloat v f → All (· < 128) (floatText A.fo f))
    (htx : ∀ s, HasText v s → TextOk A spec s) : NoEof A.tw ((A.printer spec').text 0 v) := by
  have hw := ht.width
  have ha : ∀ c < 128, A.tw = 8 ∨ c ≠ 2 ^ A.tw - 1 := by
    intro c hc
    have : 2 ^ 8 ≤ 2 ^ A.tw := Nat.pow_le_pow_right (by decide) hw
    right; omega
  refine text_all (Q := fun u => A.tw = 8 ∨ u ≠ 2 ^ A.tw - 1)
    ⟨ha, fun hp => ha _ ?_, fun i => (decText_ascii i).mono ha⟩ 0 v ?_ fun f h => (hf f h).mono ha
  · rcases hb hp with h | h
    · show A.style.ch < 128; omega
    · show A.style.ch < 128; omega
  · intro s h u hu
    obtain ⟨cps, rfl, hc⟩ := htx s h
    have e : (A.printer spec').txt (cps.flatMap spec) = cps :=
      items_txt (hs.reads (fun c h => (hc c h).1.1) (fun hw c h => (hc c h).2 (Or.inl hw)))
    rw [e] at hu
    obtain ⟨c, hc', hu⟩ := List.mem_flatMap.1 hu
    exact charText_all ha (fun _ _ => ht.noEof (hc c hc').1.1 fun h => (hc c hc').2 (.inr h)) u hu

end Configor
