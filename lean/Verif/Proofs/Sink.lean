import Verif.Spec.Sinks
import Verif.Proofs.DumpAppend
import Verif.Spec.Sources
/-!
Dumping to a buffer that may refuse characters follows dumping to a string.
-/
namespace Configor
open Serializer

variable {F : Type}

section
variable {K : Sink}

theorem Lost.refl {Q : Nat → Prop} (l : List Nat) : Lost Q l l := ⟨[], by simp, by simp⟩

theorem Lost.weaken {Q R : Nat → Prop} (h : ∀ c, Q c → R c) {a b : List Nat} : Lost Q a b → Lost R a b
  | ⟨t, h1, h2⟩ => ⟨t, h1, fun c hc => h c (h2 c hc)⟩

theorem Lost.prefix {Q : Nat → Prop} {a b : List Nat} : Lost Q a b → b <+: a
  | ⟨t, h1, _⟩ => ⟨t, h1.symm⟩

theorem Lost.append {Q : Nat → Prop} {a b cs : List Nat} (h : ∀ c ∈ cs, Q c) : Lost Q a b → Lost Q (a ++ cs) b
  | ⟨t, h1, h2⟩ => ⟨t ++ cs, by rw [h1, List.append_assoc], fun c hc => (List.mem_append.mp hc).elim (h2 c) (h c)⟩

theorem Stopped.append {a b : List Nat} (cs : List Nat) : Stopped K a b → Stopped K (a ++ cs) b
  | ⟨u, x, t, h1, h2, h3, h4⟩ => ⟨u, x, t ++ cs, by rw [h1]; simp, h2, h3, h4⟩

theorem Stopped.prefix {a b : List Nat} : Stopped K a b → b <+: a
  | ⟨u, x, t, h1, _, _, h4⟩ => ⟨x.drop (K u x) ++ t, by rw [h1, h4]; simp [List.append_assoc, ← List.append_assoc (x.take _)]⟩

theorem Stopped.mono {a a' b : List Nat} (h : a <+: a') (hs : Stopped K a b) : Stopped K a' b := by
  obtain ⟨t, rfl⟩ := h
  exact hs.append t

theorem Stopped.refuses {a b : List Nat} : Stopped K a b → ¬ Takes K
  | ⟨u, x, _, _, _, h3, _⟩ => fun ht => absurd (ht u x) (by omega)

/-- The state on the buffer follows the state on a string. -/
structure Tracks (K : Sink) (Q : Nat → Prop) (s s' : Ser) : Prop where
  began : s.began = s'.began
  last : s.last = s'.last
  ind : s.ind = s'.ind
  os : (s.os = s'.os ∧ Took K s.os.out) ∨ (Stopped K s.os.out s'.os.out ∧ s'.os.failb = true ∧ Lost Q s.os.out s'.os.out)

/-- `m'` on the buffer follows `m` on a string. -/
def Follow {α : Type} (K : Sink) (P Q : Nat → Prop) (m m' : M Ser α) : Prop :=
  (∀ s, s.os.out <+: (m s).2.os.out) ∧
  ∀ s s', Tracks K P s s' →
    ((m s).1 = (m' s').1 ∧ ((∃ e, (m s).1 = .error e) ∧ Tracks K (fun _ => True) (m s).2 (m' s').2 ∨ Tracks K Q (m s).2 (m' s').2)) ∨
    ((m' s').1 = .error (.exn .serialization) ∧ (m' s').2.os.failb = true ∧ Stopped K (m s).2.os.out (m' s').2.os.out)

variable {P Q R : Nat → Prop}

theorem Tracks.weaken {s s' : Ser} (h : ∀ c, P c → Q c) (t : Tracks K P s s') : Tracks K Q s s' :=
  ⟨t.began, t.last, t.ind, t.os.imp id fun ⟨a, b, c⟩ => ⟨a, b, c.weaken h⟩⟩

theorem Follow.bind {α β : Type} {m m' : M Ser α} {f f' : α → M Ser β} (h : Follow K P Q m m') (hf : ∀ a, Follow K Q R (f a) (f' a)) :
    Follow K P R (m >>= f) (m' >>= f') := by
  have mono : ∀ s, s.os.out <+: ((m >>= f) s).2.os.out ∧ (m s).2.os.out <+: ((m >>= f) s).2.os.out := by
    intro s
    have h1 := h.1 s
    rcases hm : m s with ⟨e | a, t⟩
    · rw [M.bind_error hm]; rw [hm] at h1; exact ⟨h1, List.prefix_refl _⟩
    · rw [M.bind_ok hm]; rw [hm] at h1
      exact ⟨h1.trans ((hf a).1 t), (hf a).1 t⟩
  refine ⟨fun s => (mono s).1, fun s s' hs => ?_⟩
  rcases h.2 s s' hs with ⟨h1, h2⟩ | ⟨h2, h3, h4⟩
  · rcases hm : m s with ⟨e | a, t⟩ <;> rcases hm' : m' s' with ⟨e' | a', t'⟩ <;> rw [hm, hm'] at h1 h2
    · rw [M.bind_error hm, M.bind_error hm']
      cases h1
      exact .inl ⟨rfl, .inl ⟨⟨_, rfl⟩, h2.elim (·.2) fun h => h.weaken fun _ _ => trivial⟩⟩
    · cases h1
    · cases h1
    · cases h1
      rw [M.bind_ok hm, M.bind_ok hm']
      refine (hf a).2 t t' (h2.elim (fun h => ?_) id)
      obtain ⟨⟨e, he⟩, _⟩ := h
      cases he
  · right
    rcases hm' : m' s' with ⟨e' | a', t'⟩ <;> rw [hm'] at h2 h3 h4
    · rw [M.bind_error hm']
      cases h2
      exact ⟨rfl, h3, h4.mono (mono s).2⟩
    · cases h2

theorem Follow.pure {α : Type} (a : α) : Follow K Q Q (Pure.pure a : M Ser α) (Pure.pure a) :=
  ⟨fun _ => List.prefix_refl _, fun _ _ h => .inl ⟨rfl, .inr h⟩⟩

theorem Follow.stop {α : Type} (e : Stop) : Follow K Q Q (M.stop e : M Ser α) (M.stop e) :=
  ⟨fun _ => List.prefix_refl _, fun _ _ h => .inl ⟨rfl, .inr h⟩⟩

theorem Follow.throw {α : Type} (e : Err) : Follow K Q Q (M.throw e : M Ser α) (M.throw e) := .stop _

theorem Follow.ite {α : Type} {p : Prop} [Decidable p] {m m' n n' : M Ser α} (h : Follow K P Q m n) (h' : Follow K P Q m' n') :
    Follow K P Q (if p then m else m') (if p then n else n') := by split <;> assumption

/-- Reading a member other than the stream. -/
theorem Follow.gets {α β : Type} {g : Ser → α} (hg : ∀ s s', Tracks K Q s s' → g s = g s') {f f' : α → M Ser β}
    (hf : ∀ a, Follow K Q R (f a) (f' a)) : Follow K Q R (M.gets g >>= f) (M.gets g >>= f') := by
  refine ⟨fun s => (hf (g s)).1 s, fun s s' h => ?_⟩
  have e : (M.gets g >>= f') s' = f' (g s) s' := by rw [hg s s' h]; rfl
  rw [e]
  exact (hf (g s)).2 s s' h

/-- Changing members other than the stream. -/
theorem Follow.state {g : Ser → Ser} (h1 : ∀ s, (g s).os = s.os) (h2 : ∀ s s', Tracks K Q s s' → (g s).began = (g s').began ∧
    (g s).last = (g s').last ∧ (g s).ind = (g s').ind) : Follow K Q Q (M.modify g) (M.modify g) := by
  refine ⟨fun s => ?_, fun s s' h => .inl ⟨rfl, .inr ?_⟩⟩
  · show s.os.out <+: (g s).os.out
    rw [h1]
    exact List.prefix_refl _
  · obtain ⟨a, b, c⟩ := h2 s s' h
    refine ⟨a, b, c, ?_⟩
    show ((g s).os = (g s').os ∧ Took K (g s).os.out) ∨ _
    have := h.os
    rwa [← h1 s, ← h1 s'] at this

theorem write_prefix (o : OStream) (cs : List Nat) : o.out <+: (o.write cs).out := by
  unfold OStream.write
  split
  · exact List.prefix_refl _
  · exact List.prefix_append _ _

theorem offer_cases (o : OStream) (ht : Took K o.out) (cs : List Nat) :
    (o.offer K cs = o.write cs ∧ Took K (o.write cs).out) ∨
      (Stopped K (o.out ++ cs) (o.offer K cs).out ∧ (o.offer K cs).failb = true ∧ Lost (· ∈ cs) (o.out ++ cs) (o.offer K cs).out ∧ o.failb = false) := by
  unfold OStream.offer OStream.write
  by_cases h : o.failb = true
  · rw [if_pos h, if_pos h]; exact .inl ⟨rfl, ht⟩
  · rw [if_neg h, if_neg h]
    have h' : o.failb = false := by simpa using h
    split
    · rename_i hk
      exact .inl ⟨by cases o; simp_all, .block ht hk⟩
    · rename_i hk
      refine .inr ⟨⟨o.out, cs, [], by simp, ht, by omega, rfl⟩, rfl, ⟨cs.drop (K o.out cs), ?_, fun c hc => List.mem_of_mem_drop hc⟩, h'⟩
      rw [List.append_assoc, List.take_append_drop]

theorem write_lost {o : OStream} {l cs : List Nat} (hq : ∀ c ∈ cs, Q c) (h : Lost Q o.out l) : Lost Q (o.write cs).out l := by
  unfold OStream.write
  split
  · exact h
  · exact h.append hq

theorem write_ok_out {o : OStream} (h : o.failb = false) (cs : List Nat) : (o.write cs).out = o.out ++ cs := by
  rw [OStream.write_ok h]

theorem tracks_offer {o o' : OStream} {cs : List Nat} (hq : ∀ c ∈ cs, Q c) (h : (o = o' ∧ Took K o.out) ∨ (Stopped K o.out o'.out ∧ o'.failb = true ∧ Lost Q o.out o'.out)) :
    (o.write cs = o'.offer K cs ∧ Took K (o.write cs).out) ∨
      (Stopped K (o.write cs).out (o'.offer K cs).out ∧ (o'.offer K cs).failb = true ∧ Lost Q (o.write cs).out (o'.offer K cs).out) := by
  rcases h with ⟨rfl, ht⟩ | ⟨h1, h2, h3⟩
  · rcases offer_cases (K := K) o ht cs with h | ⟨h1, h2, h3, h4⟩
    · exact .inl ⟨h.1.symm, h.2⟩
    · rw [write_ok_out h4]
      exact .inr ⟨h1, h2, h3.weaken hq⟩
  · right
    have : o'.offer K cs = o' := by unfold OStream.offer; rw [if_pos h2]
    rw [this]
    exact ⟨h1.mono (write_prefix o cs), h2, write_lost hq h3⟩

theorem Follow.output {cs : List Nat} (hq : ∀ c ∈ cs, Q c) : Follow K Q Q (output cs) (outputTo K cs) :=
  ⟨fun s => write_prefix s.os cs, fun _ _ h => .inl ⟨rfl, .inr ⟨h.began, h.last, h.ind, tracks_offer hq h.os⟩⟩⟩

/-- Any character. -/
def Any : Nat → Prop := fun _ => True

theorem any_all {cs : List Nat} : ∀ c ∈ cs, Any c := fun _ _ => trivial

theorem Follow.writeIndent (n : Nat) : Follow K Any Any (writeIndent n) (writeIndentTo K n) := by
  refine ⟨fun s => ?_, fun s s' h => ?_⟩
  · unfold Serializer.writeIndent
    split
    · exact List.prefix_refl _
    · exact write_prefix s.os _
  · unfold Serializer.writeIndent writeIndentTo
    rw [← h.ind]
    left
    cases hc : s.ind.chars n with
    | none => exact ⟨rfl, .inr h⟩
    | some cs => exact ⟨rfl, .inr ⟨h.began, h.last, rfl, tracks_offer any_all h.os⟩⟩

variable {A : DumpArgs F}

theorem Follow.newline : Follow K Any Any (newline A) (newlineTo A K) := .ite (.output any_all) (.pure _)

theorem Follow.outputIndent : Follow K Any Any (outputIndent A) (outputIndentTo A K) := by
  unfold Serializer.outputIndent outputIndentTo
  refine .ite ?_ (.pure _)
  have : Follow K Any Any (M.gets Ser.ind >>= fun i => if i.ch ≠ 0 ∧ i.step > 0 ∧ i.depth > 0 then Serializer.writeIndent (i.depth * i.step) else Pure.pure ())
      (M.gets Ser.ind >>= fun i => if i.ch ≠ 0 ∧ i.step > 0 ∧ i.depth > 0 then writeIndentTo K (i.depth * i.step) else Pure.pure ()) :=
    .gets (fun _ _ h => h.ind) fun i => .ite (.writeIndent _) (.pure _)
  exact this

theorem Follow.outputIndent1 : Follow K Any Any (outputIndent1 A) (outputIndent1To A K) :=
  .ite (.bind (.state (fun _ => rfl) fun s s' h => ⟨h.began, h.last, by show s.ind.reserve 1 = s'.ind.reserve 1; rw [h.ind]⟩)
    fun _ => .writeIndent _) (.pure _)

theorem Follow.next (t : Token) : Follow K Any Any (next A t) (nextTo A K t) := by
  have ho : ∀ c, Follow K Any Any (opening c) (openingTo K c) := fun c => .bind (.output any_all) fun _ =>
    .state (g := fun s => { s with began := true, ind := s.ind.inc }) (fun _ => rfl) fun s s' h => ⟨rfl, h.last, by show s.ind.inc = s'.ind.inc; rw [h.ind]⟩
  have hc : ∀ c, Follow K Any Any (closing A c) (closingTo A K c) := fun c => .bind (.state (g := fun s => { s with ind := s.ind.dec }) (fun _ => rfl)
    fun s s' h => ⟨h.began, h.last, by show s.ind.dec = s'.ind.dec; rw [h.ind]⟩) fun _ => .bind .newline fun _ => .bind .outputIndent fun _ => .output any_all
  unfold Serializer.next nextTo
  refine .bind (Q := Any) ?_ fun _ => .bind (Q := Any) ?_ fun _ => .bind (Q := Any) ?_ fun _ => .state (fun _ => rfl) fun _ _ h => ⟨h.began, rfl, h.ind⟩
  · unfold nextBegan nextBeganTo
    exact .gets (fun _ _ h => h.began) fun b => .ite (.bind (.state (fun _ => rfl) fun _ _ h => ⟨rfl, h.last, h.ind⟩) fun _ =>
      .ite .newline (.pure _)) (.pure _)
  · unfold nextIndent nextIndentTo
    exact .gets (fun _ _ h => h.last) fun b => .ite .outputIndent (.pure _)
  · cases t <;> unfold nextOutput nextOutputTo <;> first
      | exact .output any_all | exact ho _ | exact hc _ | exact .bind (.output any_all) fun _ => .outputIndent1
      | exact .bind (.output any_all) fun _ => .newline | exact .pure _

theorem Follow.putFloat (f : F) : Follow K Any Any (putFloat A f) (putFloatTo A K f) := by
  unfold Serializer.putFloat putFloatTo
  refine .ite ?_ (.output any_all)
  cases A.fo.toI64 f with
  | none => exact .stop _
  | some i => exact .bind (.output any_all) fun _ => .output any_all

/-! ## Code points -/

theorem encode_split (e : Enc) (w : Nat) {o : OStream} (ho : o.failb = false) (cp : Nat) :
    e.encode w o cp = ⟨o.out ++ (e.encode w (.ofString []) cp).out, (e.encode w (.ofString []) cp).failb⟩ := by
  obtain ⟨out, failb⟩ := o
  cases ho
  cases e with
  | ignore => simp [Enc.encode, ignoreEncode, OStream.put, OStream.ofString]
  | utf8 =>
    simp only [Enc.encode, utf8Encode]
    by_cases h1 : cp < 0x80
    · simp [h1, OStream.put, OStream.ofString]
    by_cases h2 : cp ≤ 0x7FF
    · simp [h1, h2, OStream.put, OStream.ofString]
    by_cases h3 : cp ≤ 0xFFFF
    · simp [h1, h2, h3, OStream.put, OStream.ofString]
    by_cases h4 : cp ≤ 0x10FFFF
    · simp [h1, h2, h3, h4, OStream.put, OStream.ofString]
    · simp [h1, h2, h3, h4, OStream.setFail, OStream.ofString]
  | utf16 =>
    simp only [Enc.encode, utf16Encode]
    by_cases h3 : cp ≤ 0xFFFF
    · simp [h3, OStream.put, OStream.ofString]
    by_cases h4 : cp ≤ 0x10FFFF
    · simp [h3, h4, OStream.put, OStream.ofString]
    · simp [h3, h4, OStream.setFail, OStream.ofString]
  | utf32 =>
    simp only [Enc.encode, utf32Encode]
    by_cases h4 : cp > 0x10FFFF
    · simp [h4, OStream.put, OStream.setFail, OStream.ofString]
    · simp [h4, OStream.put, OStream.ofString]

theorem fold_offer_failed {o : OStream} (h : o.failb = true) (cs : List Nat) :
    cs.foldl (fun o c => o.offer K [c]) o = o := by
  induction cs with
  | nil => rfl
  | cons c cs ih =>
    rw [List.foldl_cons]
    have : o.offer K [c] = o := by unfold OStream.offer; rw [if_pos h]
    rw [this, ih]

theorem fold_offer {o : OStream} (h : o.failb = false) (ht : Took K o.out) (cs : List Nat) :
    (cs.foldl (fun o c => o.offer K [c]) o = ⟨o.out ++ cs, false⟩ ∧ Took K (o.out ++ cs)) ∨
      (Stopped K (o.out ++ cs) (cs.foldl (fun o c => o.offer K [c]) o).out ∧ (cs.foldl (fun o c => o.offer K [c]) o).failb = true ∧ Lost Any (o.out ++ cs) (cs.foldl (fun o c => o.offer K [c]) o).out) := by
  induction cs generalizing o with
  | nil => left; cases o; simp_all
  | cons c cs ih =>
    rw [List.foldl_cons]
    rcases offer_cases (K := K) o ht [c] with ⟨h1, ht'⟩ | ⟨h1, h2, h3, h4⟩
    · rw [OStream.write_ok h] at ht'
      rw [h1, OStream.write_ok h]
      rcases ih (o := ⟨o.out ++ [c], false⟩) rfl ht' with ⟨h2, h2'⟩ | ⟨h2, h3, h4⟩
      · left; rw [h2]; exact ⟨by simp, by simpa using h2'⟩
      · exact .inr ⟨by simpa using h2, h3, by simpa using h4⟩
    · rw [fold_offer_failed h2]
      refine .inr ⟨by simpa using h1.append cs, h2, ?_⟩
      have := (h3.weaken (R := Any) fun _ _ => trivial).append (cs := cs) any_all
      simpa using this

theorem tracks_encode {o o' : OStream} (e : Enc) (w cp : Nat) (h : (o = o' ∧ Took K o.out) ∨ (Stopped K o.out o'.out ∧ o'.failb = true ∧ Lost Any o.out o'.out)) :
    (e.encode w o cp = e.offer w K o' cp ∧ Took K (e.encode w o cp).out) ∨
      (Stopped K (e.encode w o cp).out (e.offer w K o' cp).out ∧ (e.offer w K o' cp).failb = true ∧ Lost Any (e.encode w o cp).out (e.offer w K o' cp).out) := by
  have dead : ∀ o : OStream, o.failb = true → e.offer w K o cp = o := by
    intro o hf
    have hs : o.setFail = o := by cases o; simp_all [OStream.setFail]
    unfold Enc.offer
    simp only [fold_offer_failed hf, hs, ite_self]
  rcases h with ⟨rfl, ht⟩ | ⟨h1, h2, h3⟩
  · cases hf : o.failb with
    | true =>
      have hp : ∀ c, o.put c = o := fun c => by unfold OStream.put; rw [if_pos hf]
      have hs : o.setFail = o := by cases o; simp_all [OStream.setFail]
      rw [dead o hf]
      left
      have he : e.encode w o cp = o := by
        cases e <;> simp only [Enc.encode, ignoreEncode, utf8Encode, utf16Encode, utf32Encode, hp, hs, ite_self]
      rw [he]
      exact ⟨rfl, ht⟩
    | false =>
      rw [encode_split e w hf]
      unfold Enc.offer
      generalize e.encode w (.ofString []) cp = r
      simp only
      rcases fold_offer (K := K) hf ht r.out with ⟨h1, ht'⟩ | ⟨h1, h2, h3⟩
      · left
        rw [h1]
        exact ⟨by cases hr : r.failb <;> simp [OStream.setFail], ht'⟩
      · right
        refine ⟨?_, ?_, ?_⟩
        · split
          · exact h1
          · exact h1
        · split
          · rfl
          · exact h2
        · split
          · exact h3
          · exact h3
  · right
    rw [dead o' h2]
    obtain ⟨t, ht⟩ := encode_any e w o cp
    exact ⟨by rw [ht]; exact h1.append t, h2, by rw [ht]; exact h3.append any_all⟩

theorem Follow.check : Follow K Any Q (M.gets (fun s : Ser => s.os.good) >>= fun b => if b = true then Pure.pure () else M.throw .serialization)
    (M.gets (fun s : Ser => s.os.good) >>= fun b => if b = true then Pure.pure () else M.throw .serialization) := by
  have run : ∀ s : Ser, (M.gets (fun s : Ser => s.os.good) >>= fun b => if b = true then (Pure.pure () : M Ser Unit) else M.throw .serialization) s =
      (if s.os.good then .ok () else .error (.exn .serialization), s) := by
    intro s
    show (if s.os.good = true then (Pure.pure () : M Ser Unit) else M.throw .serialization) s = _
    split <;> rfl
  refine ⟨fun s => by rw [run]; exact List.prefix_refl _, fun s s' h => ?_⟩
  rw [run, run]
  rcases h.os with h1 | ⟨h1, h2, h3⟩
  · left
    refine ⟨by simp only [h1.1], .inr ⟨h.began, h.last, h.ind, .inl h1⟩⟩
  · right
    refine ⟨?_, h2, h1⟩
    simp [OStream.good, h2]

theorem Follow.weaken {α : Type} {m m' : M Ser α} (h : ∀ c, P c → Q c) (hf : Follow K Q R m m') : Follow K P R m m' :=
  ⟨hf.1, fun s s' t => hf.2 s s' (t.weaken h)⟩

theorem Follow.putOther (c : Nat) : Follow K P Q (putOther A c) (putOtherTo A K c) := by
  have enc : Follow K Any Any (M.modify fun s => { s with os := A.te.encode A.tw s.os c }) (M.modify fun s => { s with os := A.te.offer A.tw K s.os c }) := by
    refine ⟨fun s => ?_, fun s s' h => .inl ⟨rfl, .inr ⟨h.began, h.last, h.ind, tracks_encode _ _ _ h.os⟩⟩⟩
    obtain ⟨t, ht⟩ := encode_any A.te A.tw s.os c
    show s.os.out <+: (A.te.encode A.tw s.os c).out
    rw [ht]
    exact List.prefix_append _ _
  refine .weaken (Q := Any) (fun _ _ => trivial) ?_
  unfold Serializer.putOther putOtherTo
  refine Follow.ite ?_ ?_
  · refine Follow.ite ?_ ?_
    · exact .bind (.output any_all) fun _ => .check
    · exact .bind (.output any_all) fun _ => .bind (.output any_all) fun _ => .check
  · exact .bind enc fun _ => .check

theorem Follow.putCp (hq : ∀ c, EscChar c → Q c) (c : Nat) : Follow K Q Q (putCp A c) (putCpTo A K c) := by
  have h : ∀ x, EscChar x → Follow K Q Q (Serializer.output [0x5C, x]) (outputTo K [0x5C, x]) := fun x hx =>
    .output fun c hc => by
      simp only [List.mem_cons, List.not_mem_nil, or_false] at hc
      rcases hc with rfl | rfl
      · exact hq _ (.inl rfl)
      · exact hq _ hx
  unfold Serializer.putCp putCpTo
  exact .ite (h _ (by simp [EscChar])) <| .ite (h _ (by simp [EscChar])) <| .ite (h _ (by simp [EscChar])) <| .ite (h _ (by simp [EscChar])) <|
    .ite (h _ (by simp [EscChar])) <| .ite (h _ (by simp [EscChar])) <| .ite (h _ (by simp [EscChar])) (.putOther c)

theorem Follow.stringLoop (hq : ∀ c, EscChar c → Q c) (n : Nat) (iss : IStream StrBuf) :
    Follow K Q Q (stringLoop A n iss) (stringLoopTo A K n iss) := by
  induction n generalizing iss with
  | zero => exact .stop _
  | succ n ih =>
    unfold Serializer.stringLoop stringLoopTo
    exact .ite (.ite (.bind (.putCp hq _) fun _ => ih _) (.throw _)) (.pure _)

theorem Follow.putString (hq : ∀ c, EscChar c → Q c) (s : List Nat) : Follow K Q Q (putString A s) (putStringTo A K s) := by
  have h : Follow K Q Q (Serializer.output [0x22]) (outputTo K [0x22]) := .output fun c hc => by
    simp only [List.mem_cons, List.not_mem_nil, or_false] at hc
    subst hc
    exact hq _ (.inr (.inl rfl))
  exact .bind h fun _ => .bind (.stringLoop hq _ _) fun _ => h

mutual
theorem Follow.doDump : ∀ v : Value F, Follow K Any Any (doDump A v) (doDumpTo A K v)
  | .null => by unfold Serializer.doDump doDumpTo; exact .next _
  | .bool b => by unfold Serializer.doDump doDumpTo; exact .next _
  | .int i => by unfold Serializer.doDump doDumpTo; exact .bind (.next _) fun _ => .output any_all
  | .flt f => by unfold Serializer.doDump doDumpTo; exact .bind (.next _) fun _ => .putFloat _
  | .str s => by unfold Serializer.doDump doDumpTo; exact .bind (.next _) fun _ => .putString (fun _ _ => trivial) _
  | .arr xs => by
    unfold Serializer.doDump doDumpTo
    exact .bind (.next _) fun _ => .bind (Follow.dumpElems xs) fun _ => .next _
  | .obj ms => by
    unfold Serializer.doDump doDumpTo
    exact .bind (.next _) fun _ => .bind (Follow.dumpMembers ms) fun _ => .next _
theorem Follow.dumpElems : ∀ xs : List (Value F), Follow K Any Any (dumpElems A xs) (dumpElemsTo A K xs)
  | [] => by unfold Serializer.dumpElems dumpElemsTo; exact .pure _
  | x :: xs => by
    unfold Serializer.dumpElems dumpElemsTo
    exact .bind (Follow.doDump x) fun _ => .ite (Follow.dumpElems xs) (.bind (.next _) fun _ => Follow.dumpElems xs)
theorem Follow.dumpMembers : ∀ ms : List (List Nat × Value F), Follow K Any Any (dumpMembers A ms) (dumpMembersTo A K ms)
  | [] => by unfold Serializer.dumpMembers dumpMembersTo; exact .pure _
  | (k, v) :: ms => by
    unfold Serializer.dumpMembers dumpMembersTo
    exact .bind (.next _) fun _ => .bind (.putString (fun _ _ => trivial) _) fun _ => .bind (.next _) fun _ => .bind (Follow.doDump v) fun _ =>
      .ite (Follow.dumpMembers ms) (.bind (.next _) fun _ => Follow.dumpMembers ms)
end

/-- How a dump to a buffer compares to the dump to a string. -/
theorem dumpTo_follows (A : DumpArgs F) (K : Sink) (h : Option Handler) (v : Value F) :
    let r := jsonDumpTo A K h v
    let i := jsonDump A h [] v
    ((r.1, r.2.1) = i ∧ Took K i.2) ∨
    (Stopped K i.2 r.2.1 ∧ r.2.2 = true ∧
      (r.1 = i.1 ∨ r.1 = .error (.exn .serialization) ∨ (r.1 = .ok () ∧ ∃ hd, h = some hd ∧ hd.swallows .serialization = true))) := by
  have hf : Follow K Any Any (doDump A v >>= fun _ => Serializer.next A .endOfInput) (doDumpTo A K v >>= fun _ => nextTo A K .endOfInput) :=
    .bind (.doDump v) fun _ => .next _
  have := hf.2 (Serializer.init A []) (Serializer.init A []) ⟨rfl, rfl, rfl, .inl ⟨rfl, .none⟩⟩
  unfold jsonDumpTo jsonDump Serializer.dump Serializer.dumpTo
  revert this
  simp only
  generalize (doDump A v >>= fun _ => Serializer.next A .endOfInput) (Serializer.init A []) = r
  generalize (doDumpTo A K v >>= fun _ => nextTo A K .endOfInput) (Serializer.init A []) = r'
  obtain ⟨r, s⟩ := r
  obtain ⟨r', s'⟩ := r'
  rintro (⟨h1, h2⟩ | ⟨h2, h3, h4⟩)
  · simp only at h1 h2
    subst h1
    have ho : (s.os = s'.os ∧ Took K s.os.out) ∨ (Stopped K s.os.out s'.os.out ∧ s'.os.failb = true) := by
      have : ∀ {Q}, Tracks K Q s s' → (s.os = s'.os ∧ Took K s.os.out) ∨ (Stopped K s.os.out s'.os.out ∧ s'.os.failb = true) :=
        fun h => h.os.imp id fun h => ⟨h.1, h.2.1⟩
      exact h2.elim (fun h => this h.2) this
    have fin : ∀ x : Except Stop Unit, ((x, s'.os.out) = (x, s.os.out) ∧ Took K s.os.out) ∨ (Stopped K s.os.out s'.os.out ∧ s'.os.failb = true ∧
        (x = x ∨ x = .error (.exn .serialization) ∨ (x = .ok () ∧ ∃ hd, h = some hd ∧ hd.swallows .serialization = true))) := fun x =>
      ho.imp (fun h => ⟨by rw [h.1], h.2⟩) fun h => ⟨h.1, h.2, .inl rfl⟩
    cases r with
    | ok u => exact fin _
    | error e =>
      cases e with
      | exn e =>
        cases h with
        | none => exact fin _
        | some hd =>
          simp only
          split
          · exact fin _
          · exact fin _
      | abort => exact fin _
      | ub => exact fin _
      | fuel => exact fin _
  · simp only at h2 h3 h4
    subst h2
    right
    have fin : ∀ x : Except Stop Unit × List Nat, x.2 = s.os.out →
        let y := (match h with
          | none => ((.error (.exn .serialization), s') : Except Stop Unit × Ser)
          | some h => if h.swallows .serialization then (.ok (), s') else (.error (.exn .serialization), s'))
        Stopped K x.2 y.2.os.out ∧ y.2.os.failb = true ∧
          (y.1 = x.1 ∨ y.1 = .error (.exn .serialization) ∨ (y.1 = .ok () ∧ ∃ hd, h = some hd ∧ hd.swallows .serialization = true)) := by
      intro x hx
      cases h with
      | none => exact ⟨by rw [hx]; exact h4, h3, .inr (.inl rfl)⟩
      | some hd =>
        simp only
        split
        · rename_i hs
          exact ⟨by rw [hx]; exact h4, h3, .inr (.inr ⟨rfl, hd, rfl, hs⟩)⟩
        · exact ⟨by rw [hx]; exact h4, h3, .inr (.inl rfl)⟩
    cases h with
    | none =>
      refine fin (_, _) ?_
      simp only
    | some hd =>
      refine fin (_, _) ?_
      simp only
      split
      · rename_i heq _
        cases heq
        split <;> rfl
      · rfl

/-! ## Strings -/

/-- A string dumped without a handler: what is lost without notice is a tail of short escapes and quotes. -/
theorem stringTo_lost (A : DumpArgs F) (hA : A.pretty = false) (K : Sink) (str : List Nat)
    (hr : (jsonDumpTo A K none (.str str)).1 = .ok ()) :
    Lost EscChar (jsonDump A none [] (.str str)).2 (jsonDumpTo A K none (.str str)).2.1 := by
  have hn : ∀ t s, t = .valueString ∨ t = .endOfInput → Serializer.next A t s = (.ok (), { s with began := false, last := t }) ∧
      nextTo A K t s = (.ok (), { s with began := false, last := t }) := by
    rintro t ⟨os, b, l, i⟩ (rfl | rfl) <;> cases b <;>
      simp [Serializer.next, nextTo, nextBegan, nextBeganTo, nextIndent, nextIndentTo, nextOutput, nextOutputTo, M.bind_def, M.gets,
        M.modify, Serializer.newline, newlineTo, hA, startsValue] <;> rfl
  have hf : Follow K EscChar EscChar (doDump A (.str str) >>= fun _ => Serializer.next A .endOfInput)
      (doDumpTo A K (.str str) >>= fun _ => nextTo A K .endOfInput) := by
    have hx : ∀ t, t = .valueString ∨ t = .endOfInput → Follow K EscChar EscChar (Serializer.next A t) (nextTo A K t) := by
      intro t ht
      refine ⟨fun s => by rw [(hn t s ht).1]; exact List.prefix_refl _, fun s s' h => .inl ?_⟩
      rw [(hn t s ht).1, (hn t s' ht).2]
      exact ⟨rfl, .inr ⟨rfl, rfl, h.ind, h.os⟩⟩
    unfold Serializer.doDump doDumpTo
    exact .bind (.bind (hx _ (.inl rfl)) fun _ => .putString (fun _ h => h) _) fun _ => hx _ (.inr rfl)
  have := hf.2 (Serializer.init A []) (Serializer.init A []) ⟨rfl, rfl, rfl, .inl ⟨rfl, .none⟩⟩
  revert hr this
  unfold jsonDumpTo jsonDump Serializer.dump Serializer.dumpTo
  simp only
  generalize (doDump A (.str str) >>= fun _ => Serializer.next A .endOfInput) (Serializer.init A []) = r
  generalize (doDumpTo A K (.str str) >>= fun _ => nextTo A K .endOfInput) (Serializer.init A []) = r'
  obtain ⟨r, s⟩ := r
  obtain ⟨r', s'⟩ := r'
  simp only
  intro hr
  subst hr
  rintro (⟨rfl, ⟨⟨e, he⟩, _⟩ | h2⟩ | ⟨h2, _⟩)
  · cases he
  · rcases h2.os with ⟨h, _⟩ | ⟨_, _, h⟩
    · rw [h]; exact .refl _
    · exact h
  · cases h2

/-! ## Values without strings -/

/-- Ends normally. -/
def Calm (m : M Ser Unit) : Prop := ∀ s, (m s).1 = .ok ()

theorem Calm.bind {m : M Ser Unit} {f : Unit → M Ser Unit} (h : Calm m) (hf : Calm (f ())) : Calm (m >>= f) := by
  intro s
  have := h s
  rcases hm : m s with ⟨e | a, t⟩
  · rw [hm] at this; cases this
  · rw [M.bind_ok hm]; exact hf t

theorem Calm.pure : Calm (Pure.pure ()) := fun _ => rfl
theorem Calm.modify (f : Ser → Ser) : Calm (M.modify f) := fun _ => rfl
theorem Calm.output (cs : List Nat) : Calm (outputTo K cs) := fun _ => rfl
theorem Calm.gets {α : Type} {f : Ser → α} {g : α → M Ser Unit} (h : ∀ a, Calm (g a)) : Calm (M.gets f >>= g) := fun s => h (f s) s
theorem Calm.ite {c : Prop} [Decidable c] {m m' : M Ser Unit} (h : Calm m) (h' : Calm m') : Calm (if c then m else m') := by
  split <;> assumption

theorem Calm.next (hp : A.pretty = false) (t : Token) : Calm (nextTo A K t) := by
  have hn : Calm (newlineTo A K) := by unfold newlineTo; rw [hp]; exact .pure
  have hi : Calm (outputIndentTo A K) := by unfold outputIndentTo; rw [hp]; exact .pure
  have hi1 : Calm (outputIndent1To A K) := by unfold outputIndent1To; rw [hp]; exact .pure
  have ho : ∀ c, Calm (openingTo K c) := fun c => .bind (.output _) (.modify _)
  have hc : ∀ c, Calm (closingTo A K c) := fun c => .bind (.modify _) (.bind hn (.bind hi (.output _)))
  unfold nextTo
  refine .bind ?_ (.bind ?_ (.bind ?_ (.modify _)))
  · unfold nextBeganTo
    exact .gets fun b => .ite (.bind (.modify _) (.ite hn .pure)) .pure
  · unfold nextIndentTo
    exact .gets fun b => .ite hi .pure
  · cases t <;> unfold nextOutputTo <;> first
      | exact .output _ | exact ho _ | exact hc _ | exact .bind (.output _) hi1 | exact .bind (.output _) hn | exact .pure

mutual
theorem Calm.doDump (hp : A.pretty = false) : ∀ (v : Value F), Spec.Plain v = true → Calm (doDumpTo A K v)
  | .null, _ => by unfold doDumpTo; exact .next hp _
  | .bool _, _ => by unfold doDumpTo; exact .next hp _
  | .int _, _ => by unfold doDumpTo; exact .bind (.next hp _) (.output _)
  | .arr xs, h => by
    unfold doDumpTo
    exact .bind (.next hp _) (.bind (Calm.dumpElems hp xs (by simpa [Spec.Plain] using h)) (.next hp _))
  | .str _, h => by simp [Spec.Plain] at h
  | .flt _, h => by simp [Spec.Plain] at h
  | .obj _, h => by simp [Spec.Plain] at h
theorem Calm.dumpElems (hp : A.pretty = false) : ∀ (xs : List (Value F)), Spec.PlainList xs = true → Calm (dumpElemsTo A K xs)
  | [], _ => by unfold dumpElemsTo; exact .pure
  | x :: xs, h => by
    simp only [Spec.PlainList, Bool.and_eq_true] at h
    unfold dumpElemsTo
    exact .bind (Calm.doDump hp x h.1) (.ite (Calm.dumpElems hp xs h.2) (.bind (.next hp _) (Calm.dumpElems hp xs h.2)))
end

theorem dumpTo_plain (hp : A.pretty = false) (K : Sink) (h : Option Handler) (v : Value F) (hv : Spec.Plain v = true) :
    (jsonDumpTo A K h v).1 = .ok () := by
  have := (Calm.bind (f := fun _ => nextTo A K .endOfInput) (Calm.doDump (K := K) hp v hv) (.next hp _)) (Serializer.init A [])
  unfold jsonDumpTo Serializer.dumpTo
  revert this
  simp only
  generalize (doDumpTo A K v >>= fun _ => nextTo A K .endOfInput) (Serializer.init A []) = r
  obtain ⟨r, s⟩ := r
  intro h
  simp only at h
  subst h
  rfl

/-! ## Adapters -/

theorem adapterTakes_le (thr : List Nat → Nat → Bool) (got cs : List Nat) : adapterTakes thr got cs ≤ cs.length := by
  induction cs generalizing got with
  | nil => simp [adapterTakes]
  | cons c cs ih =>
    unfold adapterTakes
    split
    · omega
    · have := ih (got ++ [c]); simp; omega

theorem adapter_takes {thr : List Nat → Nat → Bool} (h : ∀ got c, thr got c = false) : Takes (adapterSink thr) := by
  intro got cs
  unfold adapterSink
  induction cs generalizing got with
  | nil => simp
  | cons c cs ih =>
    unfold adapterTakes
    rw [h]
    have := ih (got ++ [c]); simp; omega

/-- What an adapter takes of two texts in a row. -/
theorem adapterTakes_append (thr : List Nat → Nat → Bool) (got a b : List Nat) :
    adapterTakes thr got (a ++ b) =
      if adapterTakes thr got a = a.length then a.length + adapterTakes thr (got ++ a) b else adapterTakes thr got a := by
  induction a generalizing got with
  | nil => simp [adapterTakes]
  | cons c a ih =>
    simp only [List.cons_append, adapterTakes]
    split
    · simp
    · rw [ih (got ++ [c])]
      by_cases hx : adapterTakes thr (got ++ [c]) a = a.length
      · rw [if_pos hx, if_pos (by simp [hx])]
        simp
        omega
      · rw [if_neg hx, if_neg (by simpa using hx)]

theorem took_adapter {thr : List Nat → Nat → Bool} {got : List Nat} (h : Took (adapterSink thr) got) : adapterTakes thr [] got = got.length := by
  induction h with
  | none => rfl
  | @block got cs h hk ih =>
    have := adapterTakes_le thr got cs
    have hk : cs.length ≤ adapterTakes thr got cs := hk
    rw [adapterTakes_append, if_pos ih, List.nil_append, List.length_append]
    omega

theorem stopped_adapter {thr : List Nat → Nat → Bool} {all got : List Nat} (h : Stopped (adapterSink thr) all got) :
    got = all.take (adapterTakes thr [] all) ∧ adapterTakes thr [] all < all.length := by
  obtain ⟨u, x, t, rfl, hu, hx, rfl⟩ := h
  have hx : adapterTakes thr u x < x.length := hx
  have e := took_adapter hu
  have e2 : adapterTakes thr [] (u ++ x) = u.length + adapterTakes thr u x := by rw [adapterTakes_append, if_pos e, List.nil_append]
  have e3 : adapterTakes thr [] (u ++ x ++ t) = u.length + adapterTakes thr u x := by
    rw [adapterTakes_append, if_neg (by rw [e2]; simp; omega), e2]
  rw [e3]
  refine ⟨?_, by simp; omega⟩
  show u ++ x.take (adapterTakes thr u x) = _
  rw [List.append_assoc, List.take_length_add_append, List.take_append_of_le_length (by omega)]

theorem took_room {k : Nat} {got : List Nat} (h : Took (room k) got) : got.length ≤ k := by
  induction h with
  | none => simp
  | @block got cs h hk ih =>
    unfold room at hk
    cases cs with
    | nil => simpa using ih
    | cons c cs => simp at hk ⊢; omega

theorem stopped_room {k : Nat} {all got : List Nat} (h : Stopped (room k) all got) : got = all.take k ∧ k < all.length := by
  obtain ⟨u, x, t, rfl, hu, hx, rfl⟩ := h
  have := took_room hu
  unfold room at hx ⊢
  refine ⟨?_, by simp; omega⟩
  obtain ⟨d, rfl⟩ : ∃ d, k = u.length + d := ⟨k - u.length, by omega⟩
  rw [Nat.add_sub_cancel_left] at hx ⊢
  rw [List.append_assoc, List.take_length_add_append, List.take_append_of_le_length (by omega)]

end
end Configor
