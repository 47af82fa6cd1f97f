import Verif.Spec.DumpHeap
import Verif.Proofs.Sink
/-!
# Dumping to a string when memory runs out, compared with dumping to a buffer
-/
set_option autoImplicit false
namespace Configor
open Spec Serializer

variable {F : Type}

/-- `m` does what `m'` does, or is given up for lack of memory on the way. -/
def Near {α : Type} (Y : DumpMemory) (m m' : M Ser α) : Prop :=
  (∀ s, s.os.out <+: (m' s).2.os.out) ∧
  ∀ s, m s = m' s ∨ (¬ Y.Ample ∧ (m s).1 = .error (.exn .badAlloc) ∧ (m s).2.os.out <+: (m' s).2.os.out)

variable {Y : DumpMemory} {A : DumpArgs F}

theorem Near.bind {α β : Type} {m m' : M Ser α} {f f' : α → M Ser β} (h : Near Y m m') (hf : ∀ a, Near Y (f a) (f' a)) :
    Near Y (m >>= f) (m' >>= f') := by
  have mono : ∀ s, (m' s).2.os.out <+: ((m' >>= f') s).2.os.out := by
    intro s
    rcases hm : m' s with ⟨e | a, s1⟩
    · rw [M.bind_error hm]; exact List.prefix_refl _
    · rw [M.bind_ok hm]; exact (hf a).1 s1
  refine ⟨fun s => (h.1 s).trans (mono s), fun s => ?_⟩
  rcases h.2 s with e | ⟨h1, h2, h3⟩
  · rcases hm : m' s with ⟨e' | a, s1⟩
    · rw [M.bind_error hm, M.bind_error (e.trans hm)]; exact .inl rfl
    · rw [M.bind_ok hm, M.bind_ok (e.trans hm)]; exact (hf a).2 s1
  · right
    rcases hm : m s with ⟨e | a, s1⟩
    · rw [hm] at h2 h3
      cases h2
      rw [M.bind_error hm]
      exact ⟨h1, rfl, h3.trans (mono s)⟩
    · rw [hm] at h2; cases h2

/-- What needs no memory of its own. -/
theorem Near.same {α : Type} {m : M Ser α} (h : ∀ s, s.os.out <+: (m s).2.os.out) : Near Y m m := ⟨h, fun _ => .inl rfl⟩

theorem Near.ite {α : Type} {p : Prop} [Decidable p] {m m' n n' : M Ser α} (h : Near Y m n) (h' : Near Y m' n') :
    Near Y (if p then m else m') (if p then n else n') := by
  split
  · exact h
  · exact h'

theorem Near.pure {α : Type} (a : α) : Near Y (Pure.pure a : M Ser α) (Pure.pure a) := .same fun _ => List.prefix_refl _
theorem Near.stop {α : Type} (e : Stop) : Near Y (M.stop e : M Ser α) (M.stop e) := .same fun _ => List.prefix_refl _
theorem Near.modify {g : Ser → Ser} (h : ∀ s, (g s).os = s.os) : Near Y (M.modify g) (M.modify g) :=
  .same fun s => by show s.os.out <+: (g s).os.out; rw [h]; exact List.prefix_refl _
theorem Near.gets {α β : Type} {g : Ser → α} {f f' : α → M Ser β} (hf : ∀ a, Near Y (f a) (f' a)) :
    Near Y (M.gets g >>= f) (M.gets g >>= f') := .bind (.same fun _ => List.prefix_refl _) hf

theorem offer_prefix (K : Sink) (o : OStream) (cs : List Nat) : o.out <+: (o.offer K cs).out := by
  unfold OStream.offer
  split
  · exact List.prefix_refl _
  · split <;> exact List.prefix_append _ _

theorem fold_prefix (K : Sink) (cs : List Nat) : ∀ o : OStream, o.out <+: (cs.foldl (fun o c => o.offer K [c]) o).out := by
  induction cs with
  | nil => exact fun o => List.prefix_refl _
  | cons c cs ih => exact fun o => (offer_prefix K o [c]).trans (ih _)

theorem encode_prefix (e : Enc) (w : Nat) (K : Sink) (o : OStream) (cp : Nat) : o.out <+: (e.offer w K o cp).out := by
  unfold Enc.offer
  simp only
  split
  · exact fold_prefix _ _ _
  · exact fold_prefix _ _ _

theorem Near.output (cs : List Nat) : Near Y (outputTo Y.sink cs) (outputTo Y.sink cs) := .same fun s => offer_prefix _ s.os cs

theorem Near.writeIndent (n : Nat) : Near Y (writeIndentTo Y.sink n) (writeIndentTo Y.sink n) := .same fun s => by
  unfold writeIndentTo
  split
  · exact List.prefix_refl _
  · exact offer_prefix _ _ _

theorem Near.newline : Near Y (newlineTo A Y.sink) (newlineTo A Y.sink) := .ite (.output _) (.pure _)

theorem Near.outputIndent : Near Y (outputIndentTo A Y.sink) (outputIndentTo A Y.sink) :=
  .ite (.bind (.same fun _ => List.prefix_refl _) fun _ => .ite (.writeIndent _) (.pure _)) (.pure _)

theorem Near.grow (n : Nat) : Near Y (growIndent Y n) (M.modify fun s => { s with ind := s.ind.reserve n }) := by
  refine ⟨fun _ => List.prefix_refl _, fun s => ?_⟩
  unfold growIndent
  split
  · rename_i h
    exact .inr ⟨fun ha => by rw [ha.indent] at h; simp at h, rfl, List.prefix_refl _⟩
  · exact .inl rfl

theorem Near.outputIndent1 : Near Y (outputIndent1Mem A Y) (outputIndent1To A Y.sink) :=
  .ite (.bind (.grow 1) fun _ => .writeIndent _) (.pure _)

theorem Near.opening (c : Nat) : Near Y (openingMem Y c) (openingTo Y.sink c) := by
  refine .bind (.output _) fun _ => ⟨fun _ => List.prefix_refl _, fun s => ?_⟩
  have e : ∀ s : Ser, incMem Y s = growIndent Y ((s.ind.depth + 1) % 65536 * s.ind.step)
      { s with ind := { s.ind with depth := (s.ind.depth + 1) % 65536 } } := fun _ => rfl
  show incMem Y { s with began := true } = _ ∨ (_ ∧ (incMem Y { s with began := true }).1 = _ ∧ (incMem Y { s with began := true }).2.os.out <+: _)
  rw [e]
  rcases (Near.grow (Y := Y) ((s.ind.depth + 1) % 65536 * s.ind.step)).2 { s with began := true, ind := { s.ind with depth := (s.ind.depth + 1) % 65536 } } with h | h
  · exact .inl h
  · exact .inr h

theorem Near.next (t : Token) : Near Y (nextMem A Y t) (nextTo A Y.sink t) := by
  unfold nextMem nextTo
  refine .bind ?_ fun _ => .bind ?_ fun _ => .bind ?_ fun _ => .modify fun _ => rfl
  · unfold nextBeganTo
    exact .gets fun _ => .ite (.bind (.modify fun _ => rfl) fun _ => .ite .newline (.pure _)) (.pure _)
  · unfold nextIndentTo
    exact .gets fun _ => .ite .outputIndent (.pure _)
  · have close : ∀ c, Near Y (closingTo A Y.sink c) (closingTo A Y.sink c) := fun c =>
      .bind (.modify fun _ => rfl) fun _ => .bind .newline fun _ => .bind .outputIndent fun _ => .output _
    cases t with
    | beginArray => exact .opening _
    | beginObject => exact .opening _
    | endArray => exact close _
    | endObject => exact close _
    | literalTrue => exact .output _
    | literalFalse => exact .output _
    | literalNull => exact .output _
    | nameSeparator => exact .bind (.output _) fun _ => .outputIndent1
    | valueSeparator => exact .bind (.output _) fun _ => .newline
    | _ => exact .pure _

theorem Near.fail : Near Y (failMem Y) (M.throw .serialization) := by
  refine ⟨fun _ => List.prefix_refl _, fun s => ?_⟩
  unfold failMem
  cases h : Y.message s.os.out with
  | true => exact .inl (by simp; rfl)
  | false => exact .inr ⟨fun ha => (by rw [ha.message] at h; cases h), by simp, List.prefix_refl _⟩

theorem Near.putFloat (f : F) : Near Y (putFloatTo A Y.sink f) (putFloatTo A Y.sink f) := by
  unfold putFloatTo
  refine .ite ?_ (.output _)
  split
  · exact .stop _
  · exact .bind (.output _) fun _ => .output _

theorem Near.putOther (c : Nat) : Near Y (putOtherMem A Y c) (putOtherTo A Y.sink c) := by
  have enc : Near Y (M.modify fun s => { s with os := A.te.offer A.tw Y.sink s.os c }) (M.modify fun s => { s with os := A.te.offer A.tw Y.sink s.os c }) :=
    .same fun s => encode_prefix A.te A.tw Y.sink s.os c
  have check : Near Y (M.gets (fun s : Ser => s.os.good) >>= fun b => if b = true then Pure.pure () else failMem Y)
      (M.gets (fun s : Ser => s.os.good) >>= fun b => if b = true then Pure.pure () else M.throw .serialization) := .gets fun _ => .ite (.pure _) .fail
  unfold putOtherMem putOtherTo
  refine Near.ite ?_ ?_
  · refine Near.ite ?_ ?_
    · exact .bind (.output _) fun _ => check
    · exact .bind (.output _) fun _ => .bind (.output _) fun _ => check
  · exact .bind enc fun _ => check

theorem Near.putCp (c : Nat) : Near Y (putCpMem A Y c) (putCpTo A Y.sink c) := by
  unfold putCpMem putCpTo
  exact .ite (.output _) (.ite (.output _) (.ite (.output _) (.ite (.output _) (.ite (.output _) (.ite (.output _) (.ite (.output _) (.putOther _)))))))

theorem Near.stringLoop (n : Nat) (iss : IStream StrBuf) : Near Y (stringLoopMem A Y n iss) (stringLoopTo A Y.sink n iss) := by
  induction n generalizing iss with
  | zero => exact .stop _
  | succ n ih =>
    unfold stringLoopMem stringLoopTo
    exact .ite (.ite (.bind (.putCp _) fun _ => ih _) .fail) (.pure _)

theorem Near.putString (s : List Nat) : Near Y (putStringMem A Y s) (putStringTo A Y.sink s) :=
  .bind (.output _) fun _ => .bind (.stringLoop _ _) fun _ => .output _

mutual
theorem Near.doDump : ∀ v : Value F, Near Y (doDumpMem A Y v) (doDumpTo A Y.sink v)
  | .null => by unfold doDumpMem doDumpTo; exact .next _
  | .bool b => by unfold doDumpMem doDumpTo; exact .next _
  | .int i => by unfold doDumpMem doDumpTo; exact .bind (.next _) fun _ => .output _
  | .flt f => by unfold doDumpMem doDumpTo; exact .bind (.next _) fun _ => .putFloat _
  | .str s => by unfold doDumpMem doDumpTo; exact .bind (.next _) fun _ => .putString _
  | .arr xs => by unfold doDumpMem doDumpTo; exact .bind (.next _) fun _ => .bind (Near.dumpElems xs) fun _ => .next _
  | .obj ms => by unfold doDumpMem doDumpTo; exact .bind (.next _) fun _ => .bind (Near.dumpMembers ms) fun _ => .next _

theorem Near.dumpElems : ∀ xs : List (Value F), Near Y (dumpElemsMem A Y xs) (dumpElemsTo A Y.sink xs)
  | [] => by unfold dumpElemsMem dumpElemsTo; exact .pure _
  | x :: xs => by
    unfold dumpElemsMem dumpElemsTo
    exact .bind (Near.doDump x) fun _ => .ite (Near.dumpElems xs) (.bind (.next _) fun _ => Near.dumpElems xs)

theorem Near.dumpMembers : ∀ ms : List (List Nat × Value F), Near Y (dumpMembersMem A Y ms) (dumpMembersTo A Y.sink ms)
  | [] => by unfold dumpMembersMem dumpMembersTo; exact .pure _
  | (k, v) :: ms => by
    unfold dumpMembersMem dumpMembersTo
    exact .bind (.next _) fun _ => .bind (.putString _) fun _ => .bind (.next _) fun _ => .bind (Near.doDump v) fun _ =>
      .ite (Near.dumpMembers ms) (.bind (.next _) fun _ => Near.dumpMembers ms)
end

/-- What the handler makes of the end of a call. -/
def settle (h : Option Handler) (x : Except Stop Unit × Ser) : Except Stop Unit × Ser :=
  match x, h with
  | (.error (.exn e), s), some h => if h.swallows e then (.ok (), s) else (.error (.exn e), s)
  | r, _ => r

theorem settle_state (h : Option Handler) (x : Except Stop Unit × Ser) : (settle h x).2 = x.2 := by
  unfold settle
  split
  · split <;> rfl
  · rfl

/-- How dumping with a memory compares to dumping to a buffer that refuses what the memory refuses. -/
theorem dumpMem_near (A : DumpArgs F) (Y : DumpMemory) (h : Option Handler) (str : List Nat) (v : Value F) :
    let r := jsonDumpMem A Y h str v
    let t := jsonDumpTo A Y.sink h v
    r = (t.1, str ++ t.2.1) ∨
    (¬ Y.Ample ∧ (∃ u, u <+: t.2.1 ∧ r.2 = str ++ u) ∧
      (r.1 = .error (.exn .badAlloc) ∨ (r.1 = .ok () ∧ ∃ hd, h = some hd ∧ hd.swallows .badAlloc = true))) := by
  simp only
  unfold jsonDumpMem
  cases hs : Y.start with
  | false => exact .inr ⟨fun ha => (by rw [ha.start] at hs; cases hs), ⟨[], List.nil_prefix, by simp⟩, .inl rfl⟩
  | true =>
    have hn : Near Y (doDumpMem A Y v >>= fun _ => nextMem A Y .endOfInput) (doDumpTo A Y.sink v >>= fun _ => nextTo A Y.sink .endOfInput) :=
      .bind (.doDump v) fun _ => .next _
    have := hn.2 (Serializer.init A [])
    show (((settle h ((doDumpMem A Y v >>= fun _ => nextMem A Y .endOfInput) (Serializer.init A []))).1,
        str ++ (settle h ((doDumpMem A Y v >>= fun _ => nextMem A Y .endOfInput) (Serializer.init A []))).2.os.out) : Except Stop Unit × List Nat) =
      ((settle h ((doDumpTo A Y.sink v >>= fun _ => nextTo A Y.sink .endOfInput) (Serializer.init A []))).1,
        str ++ (settle h ((doDumpTo A Y.sink v >>= fun _ => nextTo A Y.sink .endOfInput) (Serializer.init A []))).2.os.out) ∨
      (¬ Y.Ample ∧ (∃ u, u <+: (settle h ((doDumpTo A Y.sink v >>= fun _ => nextTo A Y.sink .endOfInput) (Serializer.init A []))).2.os.out ∧
        str ++ (settle h ((doDumpMem A Y v >>= fun _ => nextMem A Y .endOfInput) (Serializer.init A []))).2.os.out = str ++ u) ∧
        ((settle h ((doDumpMem A Y v >>= fun _ => nextMem A Y .endOfInput) (Serializer.init A []))).1 = .error (.exn .badAlloc) ∨
        ((settle h ((doDumpMem A Y v >>= fun _ => nextMem A Y .endOfInput) (Serializer.init A []))).1 = .ok () ∧ ∃ hd, h = some hd ∧ hd.swallows .badAlloc = true)))
    revert this
    generalize (doDumpMem A Y v >>= fun _ => nextMem A Y .endOfInput) (Serializer.init A []) = r
    generalize (doDumpTo A Y.sink v >>= fun _ => nextTo A Y.sink .endOfInput) (Serializer.init A []) = r'
    rintro (rfl | ⟨h1, h2, h3⟩)
    · exact .inl rfl
    · right
      refine ⟨h1, ⟨r.2.os.out, by rw [settle_state]; exact h3, by rw [settle_state]⟩, ?_⟩
      obtain ⟨r, s⟩ := r
      simp only at h2
      subst h2
      cases h with
      | none => exact .inl rfl
      | some hd =>
        cases hw : hd.swallows .badAlloc with
        | true => exact .inr ⟨by simp [settle, hw], hd, rfl, hw⟩
        | false => exact .inl (by simp [settle, hw])

theorem ample_takes (h : Y.Ample) : Takes Y.sink := by
  intro a b
  unfold DumpMemory.sink
  rw [h.text]
  simp

end Configor
