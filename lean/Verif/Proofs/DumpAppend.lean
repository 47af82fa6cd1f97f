import Verif.Proofs.DumpRound
/-! Whatever happens, the serializer only appends to its output. -/
namespace Configor
open Spec Serializer

variable {F : Type}

/-- The characters a call may append. -/
structure Allows (A : DumpArgs F) (Q : Nat → Prop) : Prop where
  ascii : ∀ c < 128, Q c
  ch : Q A.ch
  fmt : ∀ f, All Q (A.fo.fmt f)
  raw : (A.uesc = true ∧ 8 ≤ A.tw) ∨ ∀ c, Q c

/-- The indent buffer has only such characters. -/
structure Inv (A : DumpArgs F) (Q : Nat → Prop) (s : Ser) : Prop where
  ch : s.ind.ch = A.ch
  str : All Q s.ind.str

/-- A computation that only appends such characters, however it ends. -/
def Adds {α : Type} (A : DumpArgs F) (Q : Nat → Prop) (m : M Ser α) : Prop :=
  ∀ s, Inv A Q s → Inv A Q (m s).2 ∧ ∃ t, (m s).2.os.out = s.os.out ++ t ∧ All Q t

section
variable {A : DumpArgs F} {Q : Nat → Prop}

theorem Adds.bind {α β : Type} {m : M Ser α} {f : α → M Ser β} (h : Adds A Q m) (hf : ∀ a, Adds A Q (f a)) : Adds A Q (m >>= f) := by
  intro s hs
  obtain ⟨h1, t, h2, h3⟩ := h s hs
  rcases hm : m s with ⟨e | a, s'⟩
  · rw [M.bind_error hm]
    rw [hm] at h1 h2
    exact ⟨h1, t, h2, h3⟩
  · rw [M.bind_ok hm]
    rw [hm] at h1 h2
    obtain ⟨h4, t', h5, h6⟩ := hf a s' h1
    refine ⟨h4, t ++ t', ?_, h3.append h6⟩
    rw [h5]; simp only at h2; rw [h2, List.append_assoc]

theorem Adds.same {α : Type} {m : M Ser α} (h : ∀ s, (m s).2 = s) : Adds A Q m := by
  intro s hs
  rw [h]
  exact ⟨hs, [], by simp, .nil⟩

theorem Adds.pure {α : Type} (a : α) : Adds A Q (Pure.pure a : M Ser α) := .same fun _ => rfl
theorem Adds.gets {α : Type} (g : Ser → α) : Adds A Q (M.gets g) := .same fun _ => rfl
theorem Adds.get : Adds A Q (M.get : M Ser Ser) := .same fun _ => rfl
theorem Adds.stop {α : Type} (e : Stop) : Adds A Q (M.stop e : M Ser α) := .same fun _ => rfl
theorem Adds.throw {α : Type} (e : Err) : Adds A Q (M.throw e : M Ser α) := .same fun _ => rfl

theorem Adds.ite {α : Type} {p : Prop} [Decidable p] {m m' : M Ser α} (h : Adds A Q m) (h' : Adds A Q m') :
    Adds A Q (if p then m else m') := by split <;> assumption

theorem write_adds (o : OStream) {cs : List Nat} (h : All Q cs) : ∃ t, (o.write cs).out = o.out ++ t ∧ All Q t := by
  unfold OStream.write
  split
  · exact ⟨[], by simp, .nil⟩
  · exact ⟨cs, rfl, h⟩

theorem put_adds (o : OStream) {c : Nat} (h : Q c) : ∃ t, (o.put c).out = o.out ++ t ∧ All Q t := by
  unfold OStream.put
  split
  · exact ⟨[], by simp, .nil⟩
  · exact ⟨[c], rfl, .one h⟩

theorem Adds.output {cs : List Nat} (h : All Q cs) : Adds A Q (output cs) := fun s hs =>
  ⟨⟨hs.ch, hs.str⟩, write_adds s.os h⟩

theorem Adds.state {g : Ser → Ser} (h : ∀ s, (g s).os = s.os) (hi : ∀ s, Inv A Q s → Inv A Q (g s)) : Adds A Q (M.modify g) := by
  intro s hs
  refine ⟨hi s hs, [], ?_, .nil⟩
  show (g s).os.out = _
  rw [h]; simp

theorem inv_reserve (H : Allows A Q) {s : Ser} (h : Inv A Q s) {i : Indent} (hi : i.ch = s.ind.ch ∧ i.str = s.ind.str) (n : Nat) :
    Inv A Q { s with ind := i.reserve n } := by
  have h1 := h.ch
  have h2 := h.str
  unfold Indent.reserve
  split
  · split
    · refine ⟨hi.1.trans h1, ?_⟩
      show All Q (i.str ++ _)
      rw [hi.2]
      refine h2.append fun c hc => ?_
      rw [List.eq_of_mem_replicate hc, hi.1, h1]; exact H.ch
    · exact ⟨hi.1.trans h1, by show All Q i.str; rw [hi.2]; exact h2⟩
  · exact ⟨hi.1.trans h1, by show All Q i.str; rw [hi.2]; exact h2⟩

variable (H : Allows A Q)
include H

theorem adds_lit {cs : List Nat} (h : ∀ c ∈ cs, c < 128) : Adds A Q (output cs) := .output fun c hc => H.ascii c (h c hc)

theorem adds_newline : Adds A Q (newline A) := by
  unfold newline
  exact .ite (adds_lit H (by decide)) (.pure ())

theorem adds_writeIndent (n : Nat) : Adds A Q (writeIndent n) := by
  intro s hs
  unfold writeIndent
  unfold Indent.chars
  split
  · exact ⟨hs, [], by simp, .nil⟩
  · rename_i cs h
    split at h
    · cases h
      refine ⟨⟨hs.ch, hs.str⟩, write_adds s.os ?_⟩
      intro c hc
      rcases List.mem_append.1 (List.mem_of_mem_take hc) with h | h
      · exact hs.str c h
      · simp at h; rw [h]; exact H.ascii 0 (by decide)
    · cases h

theorem adds_outputIndent : Adds A Q (outputIndent A) := by
  unfold outputIndent
  exact .ite (Adds.get.bind fun s => .ite (adds_writeIndent H _) (.pure ())) (.pure ())

theorem adds_outputIndent1 : Adds A Q (outputIndent1 A) := by
  unfold outputIndent1
  refine .ite (.bind (.state (fun _ => rfl) fun s hs => ?_) fun _ => adds_writeIndent H _) (.pure ())
  exact inv_reserve H hs ⟨rfl, rfl⟩ 1

theorem inv_inc {s : Ser} (hs : Inv A Q s) : Inv A Q { s with ind := s.ind.inc } := by
  unfold Indent.inc
  generalize (s.ind.depth + 1) % 65536 = e
  exact inv_reserve H hs (i := { s.ind with depth := e }) ⟨rfl, rfl⟩ (e * s.ind.step)

theorem adds_opening {c : Nat} (h : c < 128) : Adds A Q (opening c) := by
  unfold opening
  refine .bind (adds_lit H (by simpa using h)) fun _ => ?_
  refine Adds.state (g := fun s => { s with began := true, ind := s.ind.inc }) (fun _ => rfl) ?_
  intro s hs
  have := inv_inc H hs
  refine ⟨?_, ?_⟩
  · exact this.ch
  · exact this.str

omit H in
theorem dec_fields (i : Indent) : i.dec.ch = i.ch ∧ i.dec.str = i.str := by
  unfold Indent.dec
  generalize (i.depth + 65535) % 65536 = e
  exact ⟨rfl, rfl⟩

theorem adds_closing {c : Nat} (h : c < 128) : Adds A Q (closing A c) := by
  unfold closing
  refine .bind (.state (fun _ => rfl) fun s hs =>
    ⟨(dec_fields s.ind).1.trans hs.ch, by
      show All Q s.ind.dec.str
      rw [(dec_fields s.ind).2]; exact hs.str⟩) fun _ => .bind (adds_newline H) fun _ => .bind (adds_outputIndent H) fun _ => adds_lit H (by simpa using h)

theorem adds_next (t : Token) : Adds A Q (next A t) := by
  have h1 : Adds A Q (nextBegan A t) := by
    unfold nextBegan
    exact (Adds.gets _).bind fun _ => .ite (.bind (.state (fun _ => rfl) fun s hs => ⟨hs.ch, hs.str⟩) fun _ =>
      .ite (adds_newline H) (.pure ())) (.pure ())
  have h2 : Adds A Q (nextIndent A t) := by
    unfold nextIndent
    exact (Adds.gets _).bind fun _ => .ite (adds_outputIndent H) (.pure ())
  have h3 : Adds A Q (nextOutput A t) := by
    unfold nextOutput
    split
    · exact adds_lit H (by decide)
    · exact adds_lit H (by decide)
    · exact adds_lit H (by decide)
    · exact adds_opening H (by decide)
    · exact adds_closing H (by decide)
    · exact adds_opening H (by decide)
    · exact adds_closing H (by decide)
    · exact .bind (adds_lit H (by decide)) fun _ => adds_outputIndent1 H
    · exact .bind (adds_lit H (by decide)) fun _ => adds_newline H
    · exact .pure ()
  unfold next
  exact h1.bind fun _ => h2.bind fun _ => h3.bind fun _ => .state (fun _ => rfl) fun s hs => ⟨hs.ch, hs.str⟩

theorem adds_int (i : Int) : Adds A Q (output (decText i)) := .output ((decText_ascii i).mono H.ascii)

theorem adds_putFloat (f : F) : Adds A Q (putFloat A f) := by
  unfold putFloat
  refine .ite ?_ (.output (H.fmt f))
  split
  · exact .stop _
  · exact .bind (adds_int H _) fun _ => adds_lit H (by decide)

omit H in
theorem digitChar_ascii {d : Nat} (h : d < 16) : digitChar d < 128 := by unfold digitChar; split <;> omega

omit H in
theorem hexDigits_lt (n : Nat) : ∀ d ∈ digits 16 n, d < 16 := by
  induction n using Nat.strongRecOn with
  | _ n ih =>
    rw [digits_eq (by decide)]
    split
    · intro d hd; simp at hd; omega
    · intro d hd
      rcases List.mem_append.1 hd with h | h
      · exact ih (n / 16) (by omega) d h
      · simp at h; rw [h]; exact Nat.mod_lt _ (by decide)

omit H in
theorem hexText_ascii (size i : Nat) : All (· < 128) (hexText size i) := by
  unfold hexText
  refine .append (.append (fun c hc => by simp at hc; omega) fun c hc => by rw [List.eq_of_mem_replicate hc]; decide) ?_
  intro c hc
  obtain ⟨d, hd, rfl⟩ := List.mem_map.1 hc
  exact digitChar_ascii (hexDigits_lt i d hd)

omit H in
theorem encode_any (e : Enc) (w : Nat) (o : OStream) (c : Nat) : ∃ t, (e.encode w o c).out = o.out ++ t := by
  have hp : ∀ (o : OStream) (c : Nat), ∃ t, (o.put c).out = o.out ++ t := fun o c =>
    let ⟨t, h, _⟩ := put_adds (Q := fun _ => True) o (c := c) trivial
    ⟨t, h⟩
  have hpp : ∀ (o o' : OStream) (c : Nat), (∃ t, o'.out = o.out ++ t) → ∃ t, (o'.put c).out = o.out ++ t := by
    rintro o o' c ⟨t, h⟩
    obtain ⟨t', h'⟩ := hp o' c
    exact ⟨t ++ t', by rw [h', h, List.append_assoc]⟩
  have h0 : ∃ t, o.out = o.out ++ t := ⟨[], by simp⟩
  cases e with
  | ignore => exact hp _ _
  | utf8 =>
    unfold Enc.encode utf8Encode
    simp only
    split
    · exact hp _ _
    split
    · exact hpp _ _ _ (hp _ _)
    split
    · exact hpp _ _ _ (hpp _ _ _ (hp _ _))
    split
    · exact hpp _ _ _ (hpp _ _ _ (hpp _ _ _ (hp _ _)))
    · exact h0
  | utf16 =>
    unfold Enc.encode utf16Encode
    simp only
    split
    · exact hp _ _
    split
    · exact hpp _ _ _ (hp _ _)
    · exact h0
  | utf32 =>
    unfold Enc.encode utf32Encode
    simp only
    refine hpp _ _ _ ?_
    split
    · exact h0
    · exact h0

theorem adds_putOther (c : Nat) : Adds A Q (putOther A c) := by
  unfold putOther
  have hfin : ∀ m : M Ser Unit, Adds A Q m → Adds A Q (do
      m
      if (← M.gets fun s => s.os.good) then Pure.pure () else M.throw .serialization) := fun m hm =>
    hm.bind fun _ => (Adds.gets _).bind fun _ => .ite (.pure ()) (.throw _)
  have hraw : ¬ (c ≤ 0x1F ∨ (A.uesc = true ∧ c ≥ 0x7F)) → Adds A Q (M.modify fun s => { s with os := A.te.encode A.tw s.os c }) := by
    intro h s hs
    refine ⟨⟨hs.ch, hs.str⟩, ?_⟩
    show ∃ t, (A.te.encode A.tw s.os c).out = _ ∧ _
    rcases H.raw with ⟨hu, hw⟩ | hq
    · have hc : c < 128 := by
        rcases Nat.lt_or_ge c 0x7F with h' | h'
        · omega
        · exact absurd (Or.inr ⟨hu, h'⟩) h
      rw [Enc.encode_ascii A.te hw s.os c hc]
      exact put_adds _ (H.ascii c hc)
    · obtain ⟨t, ht⟩ := encode_any A.te A.tw s.os c
      exact ⟨t, ht, fun c _ => hq c⟩
  by_cases h : c ≤ 0x1F ∨ (A.uesc = true ∧ c ≥ 0x7F)
  · simp only [if_pos h]
    split
    · exact hfin _ (.output ((hexText_ascii _ _).mono H.ascii))
    · refine .bind (.output ((hexText_ascii _ _).mono H.ascii)) fun _ => hfin _ (.output ((hexText_ascii _ _).mono H.ascii))
  · simp only [if_neg h]
    exact hfin _ (hraw h)

theorem adds_putCp (c : Nat) : Adds A Q (putCp A c) := by
  unfold putCp
  repeat' first
    | exact adds_putOther H c
    | exact adds_lit H (by decide)
    | refine .ite ?_ ?_

theorem adds_stringLoop (n : Nat) (iss : IStream StrBuf) : Adds A Q (stringLoop A n iss) := by
  induction n generalizing iss with
  | zero => exact .stop _
  | succ n ih =>
    unfold stringLoop
    exact .ite (.ite ((adds_putCp H _).bind fun _ => ih _) (.throw _)) (.pure ())

theorem adds_putString (k : List Nat) : Adds A Q (putString A k) := by
  unfold putString
  exact (adds_lit H (by decide)).bind fun _ => (adds_stringLoop H _ _).bind fun _ => adds_lit H (by decide)

end

mutual

theorem adds_doDump {A : DumpArgs F} {Q : Nat → Prop} (H : Allows A Q) (v : Value F) : Adds A Q (doDump A v) := by
  match v with
  | .null => exact adds_next H _
  | .bool b => exact adds_next H _
  | .int i => exact (adds_next H _).bind fun _ => adds_int H i
  | .flt f => exact (adds_next H _).bind fun _ => adds_putFloat H f
  | .str s => exact (adds_next H _).bind fun _ => adds_putString H s
  | .arr xs => exact (adds_next H _).bind fun _ => (adds_dumpElems H xs).bind fun _ => adds_next H _
  | .obj ms => exact (adds_next H _).bind fun _ => (adds_dumpMembers H ms).bind fun _ => adds_next H _

theorem adds_dumpElems {A : DumpArgs F} {Q : Nat → Prop} (H : Allows A Q) (xs : List (Value F)) : Adds A Q (dumpElems A xs) := by
  match xs with
  | [] => exact .pure ()
  | x :: xs =>
    unfold dumpElems
    refine (adds_doDump H x).bind fun _ => ?_
    split
    · exact (Adds.pure ()).bind fun _ => adds_dumpElems H xs
    · exact (adds_next H _).bind fun _ => adds_dumpElems H xs

theorem adds_dumpMembers {A : DumpArgs F} {Q : Nat → Prop} (H : Allows A Q) (ms : List (List Nat × Value F)) :
    Adds A Q (dumpMembers A ms) := by
  match ms with
  | [] => exact .pure ()
  | (k, v) :: ms =>
    unfold dumpMembers
    refine (adds_next H _).bind fun _ => (adds_putString H k).bind fun _ => (adds_next H _).bind fun _ =>
      (adds_doDump H v).bind fun _ => ?_
    split
    · exact (Adds.pure ()).bind fun _ => adds_dumpMembers H ms
    · exact (adds_next H _).bind fun _ => adds_dumpMembers H ms

end

/-- However `json::dump` ends, it has only appended allowed characters. -/
theorem jsonDump_adds {A : DumpArgs F} {Q : Nat → Prop} (H : Allows A Q) (h : Option Handler) (str : List Nat) (v : Value F) :
    ∃ t, (jsonDump A h str v).2 = str ++ t ∧ All Q t := by
  have hi : Inv A Q (init A str) := by
    have h0 : Inv A Q (⟨.ofString str, false, .uninitialized, ⟨A.step, 0, A.ch, []⟩⟩ : Ser) := ⟨rfl, .nil⟩
    exact inv_reserve H h0 ⟨rfl, rfl⟩ (A.step * 2)
  have hm : Adds A Q (do doDump A v; next A .endOfInput : M Ser Unit) := (adds_doDump H v).bind fun _ => adds_next H _
  obtain ⟨_, t, ht, hq⟩ := hm _ hi
  refine ⟨t, ?_, hq⟩
  unfold jsonDump dump
  have : str = (init A str).os.out := rfl
  rcases hr : (do doDump A v; next A .endOfInput : M Ser Unit) (init A str) with ⟨e | _, s'⟩
  · rw [hr] at ht
    cases e with
    | exn e =>
      cases h with
      | none => exact ht
      | some h => simp only; split <;> exact ht
    | _ => cases h <;> exact ht
  · rw [hr] at ht
    cases h <;> exact ht

end Configor
