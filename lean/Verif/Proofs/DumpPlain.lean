import Verif.Proofs.DumpHeap
import Verif.Spec.Calls
/-!
# Dumping without indentation needs no memory for it
-/
set_option autoImplicit false
set_option linter.unusedSectionVars false
namespace Configor
open Spec Serializer

variable {F : Type}

/-- At the depth `d`, with the indentation of the constructor at least. -/
def IndAt (A : DumpArgs F) (d : Nat) (s : Ser) : Prop :=
  s.ind.ch = A.ch ∧ s.ind.step = A.step ∧ (A.ch = 0 ∨ A.step * 4 ≤ s.ind.str.length) ∧ (A.ch = 0 ∨ A.step = 0 ∨ s.ind.depth = d)

/-- `m` does what `m'` does, and goes from the depth `d` to the depth `d'`. -/
def RunLike {α : Type} (A : DumpArgs F) (d d' : Nat) (m m' : M Ser α) : Prop :=
  ∀ s, IndAt A d s → m s = m' s ∧ ∀ a, (m s).1 = .ok a → IndAt A d' (m s).2

variable {A : DumpArgs F} {Y Z : DumpMemory} {d d' d'' : Nat}

theorem RunLike.bind {α β : Type} {m m' : M Ser α} {f f' : α → M Ser β} (h : RunLike A d d' m m') (hf : ∀ a, RunLike A d' d'' (f a) (f' a)) :
    RunLike A d d'' (m >>= f) (m' >>= f') := by
  intro s hs
  obtain ⟨h1, h2⟩ := h s hs
  rcases hm : m s with ⟨e | a, s1⟩
  · rw [M.bind_error hm, M.bind_error (h1.symm.trans hm)]
    exact ⟨rfl, nofun⟩
  · rw [M.bind_ok hm, M.bind_ok (h1.symm.trans hm)]
    rw [hm] at h2
    exact hf a s1 (h2 a rfl)

theorem RunLike.same {α : Type} {m : M Ser α} (h : ∀ s, (m s).2.ind = s.ind) : RunLike A d d m m := by
  intro s hs
  refine ⟨rfl, fun _ _ => ?_⟩
  unfold IndAt
  rw [h s]
  exact hs

theorem RunLike.ite {α : Type} {p : Prop} [Decidable p] {m m' n n' : M Ser α} (h : RunLike A d d' m n) (h' : RunLike A d d' m' n') :
    RunLike A d d' (if p then m else m') (if p then n else n') := by
  split
  · exact h
  · exact h'

theorem RunLike.pure {α : Type} (a : α) : RunLike A d d (Pure.pure a : M Ser α) (Pure.pure a) := .same fun _ => rfl
theorem RunLike.stop {α : Type} (e : Stop) : RunLike A d d (M.stop e : M Ser α) (M.stop e) := .same fun _ => rfl
theorem RunLike.modify {g : Ser → Ser} (h : ∀ s, (g s).ind = s.ind) : RunLike A d d (M.modify g) (M.modify g) := .same h
theorem RunLike.gets {α β : Type} {g : Ser → α} {f f' : α → M Ser β} (hf : ∀ a, RunLike A d d' (f a) (f' a)) :
    RunLike A d d' (M.gets g >>= f) (M.gets g >>= f') := .bind (.same fun _ => rfl) hf

theorem RunLike.output (K : Sink) (cs : List Nat) : RunLike A d d (outputTo K cs) (outputTo K cs) := .same fun _ => rfl

theorem RunLike.writeIndent (K : Sink) (n : Nat) : RunLike A d d (writeIndentTo K n) (writeIndentTo K n) := .same fun s => by
  unfold writeIndentTo
  split <;> rfl

theorem RunLike.newline (K : Sink) : RunLike A d d (newlineTo A K) (newlineTo A K) := .ite (.output _ _) (.pure _)

theorem RunLike.outputIndent (K : Sink) : RunLike A d d (outputIndentTo A K) (outputIndentTo A K) :=
  .ite (.bind (.same fun _ => rfl) fun _ => .ite (.writeIndent _ _) (.pure _)) (.pure _)

theorem reserve_keeps (i : Indent) (n : Nat) :
    (i.reserve n).ch = i.ch ∧ (i.reserve n).step = i.step ∧ (i.reserve n).depth = i.depth ∧ i.str.length ≤ (i.reserve n).str.length := by
  unfold Indent.reserve
  split
  · split
    · refine ⟨rfl, rfl, rfl, ?_⟩
      simp only [List.length_append]
      omega
    · exact ⟨rfl, rfl, rfl, Nat.le_refl _⟩
  · exact ⟨rfl, rfl, rfl, Nat.le_refl _⟩

theorem dec_keeps (i : Indent) : i.dec.ch = i.ch ∧ i.dec.step = i.step ∧ i.dec.str = i.str ∧ i.dec.depth = (i.depth + 65535) % 65536 := by
  unfold Indent.dec
  exact ⟨rfl, rfl, rfl, rfl⟩

theorem grow_like (n : Nat) (hn : A.ch = 0 ∨ n ≤ A.step * 4) : RunLike A d d (growIndent Y n) (growIndent Z n) := by
  rintro s ⟨h1, h2, h3, h4⟩
  have hno : ∀ b : Bool, ¬ (s.ind.ch ≠ 0 ∧ s.ind.str.length < n ∧ b = false) := by
    rintro b ⟨h5, h6, _⟩
    rw [h1] at h5
    omega
  unfold growIndent
  rw [if_neg (hno _), if_neg (hno _)]
  obtain ⟨k1, k2, k3, k4⟩ := reserve_keeps s.ind n
  exact ⟨rfl, fun _ _ => ⟨k1.trans h1, k2.trans h2, h3.imp_right fun h => Nat.le_trans h k4, by rw [k3]; exact h4⟩⟩

theorem outputIndent1_like (hp : A.ch = 0 ∨ A.step ≠ 0 ∨ A.pretty = false) (hs : Z.sink = Y.sink) :
    RunLike A d d (outputIndent1Mem A Y) (outputIndent1Mem A Z) := by
  unfold outputIndent1Mem
  rw [hs]
  split
  · rename_i hq
    refine .bind (grow_like 1 ?_) fun _ => .writeIndent _ _
    rcases hp with h | h | h
    · exact .inl h
    · right; omega
    · rw [h] at hq; cases hq
  · exact .pure _

theorem opening_like (hd : A.ch = 0 ∨ A.step = 0 ∨ d + 1 ≤ 4) (hs : Z.sink = Y.sink) (c : Nat) : RunLike A d (d + 1) (openingMem Y c) (openingMem Z c) := by
  unfold openingMem
  rw [hs]
  refine .bind (.output _ _) fun _ => .bind (.modify fun _ => rfl) fun _ => ?_
  rintro s ⟨h1, h2, h3, h4⟩
  have e : ∀ Y : DumpMemory, incMem Y s = growIndent Y ((s.ind.depth + 1) % 65536 * s.ind.step)
      { s with ind := { s.ind with depth := (s.ind.depth + 1) % 65536 } } := fun _ => rfl
  rw [e, e]
  refine grow_like _ ?_ _ ⟨h1, h2, h3, ?_⟩
  · rcases h4 with h | h | h
    · exact .inl h
    · right; rw [h2, h]; exact Nat.le_refl _
    · rcases hd with h' | h' | h'
      · exact .inl h'
      · right; rw [h2, h']; exact Nat.le_refl _
      · right
        rw [h, h2, Nat.mul_comm, Nat.mod_eq_of_lt (by omega)]
        exact Nat.mul_le_mul_left _ h'
  · rcases h4 with h | h | h
    · exact .inl h
    · exact .inr (.inl h)
    · rcases hd with h' | h' | h'
      · exact .inl h'
      · exact .inr (.inl h')
      · right; right
        change (s.ind.depth + 1) % 65536 = d + 1
        rw [h]
        exact Nat.mod_eq_of_lt (by omega)

theorem closing_like (hd : A.ch = 0 ∨ A.step = 0 ∨ d + 1 ≤ 4) (K : Sink) (c : Nat) : RunLike A (d + 1) d (closingTo A K c) (closingTo A K c) := by
  refine .bind (d' := d) ?_ fun _ => .bind (.newline _) fun _ => .bind (.outputIndent _) fun _ => .output _ _
  rintro s ⟨h1, h2, h3, h4⟩
  refine ⟨rfl, fun _ _ => ?_⟩
  change IndAt A d { s with ind := s.ind.dec }
  obtain ⟨k1, k2, k3, k4⟩ := dec_keeps s.ind
  refine ⟨k1.trans h1, k2.trans h2, by rw [k3]; exact h3, ?_⟩
  rw [k4]
  rcases h4 with h | h | h
  · exact .inl h
  · exact .inr (.inl h)
  · rcases hd with h' | h' | h'
    · exact .inl h'
    · exact .inr (.inl h')
    · right; right
      rw [h]
      omega

/-- The depth behind a token. -/
def after : Token → Nat → Nat
  | .beginArray, d | .beginObject, d => d + 1
  | .endArray, d | .endObject, d => d - 1
  | _, d => d

theorem next_like (hp : A.ch = 0 ∨ A.step ≠ 0 ∨ A.pretty = false) (hs : Z.sink = Y.sink) (t : Token)
    (hd : A.ch = 0 ∨ A.step = 0 ∨ after t d ≤ 4 ∧ d ≤ 4) (h0 : t = .endArray ∨ t = .endObject → d ≠ 0) :
    RunLike A d (after t d) (nextMem A Y t) (nextMem A Z t) := by
  unfold nextMem
  refine .bind (d' := d) ?_ fun _ => .bind (d' := d) ?_ fun _ => .bind (d' := after t d) ?_ fun _ => .modify fun _ => rfl
  · rw [hs]
    unfold nextBeganTo
    exact .gets fun _ => .ite (.bind (.modify fun _ => rfl) fun _ => .ite (.newline _) (.pure _)) (.pure _)
  · rw [hs]
    unfold nextIndentTo
    exact .gets fun _ => .ite (.outputIndent _) (.pure _)
  · cases t with
    | beginArray => exact opening_like (hd.imp_right fun h => h.imp_right And.left) hs _
    | beginObject => exact opening_like (hd.imp_right fun h => h.imp_right And.left) hs _
    | endArray =>
      obtain ⟨e, rfl⟩ : ∃ e, d = e + 1 := ⟨d - 1, by have := h0 (.inl rfl); omega⟩
      unfold nextOutputMem; rw [hs]; exact closing_like (hd.imp_right fun h => h.imp_right And.right) _ _
    | endObject =>
      obtain ⟨e, rfl⟩ : ∃ e, d = e + 1 := ⟨d - 1, by have := h0 (.inr rfl); omega⟩
      unfold nextOutputMem; rw [hs]; exact closing_like (hd.imp_right fun h => h.imp_right And.right) _ _
    | literalTrue => unfold nextOutputMem; rw [hs]; exact .output _ _
    | literalFalse => unfold nextOutputMem; rw [hs]; exact .output _ _
    | literalNull => unfold nextOutputMem; rw [hs]; exact .output _ _
    | nameSeparator => unfold nextOutputMem; rw [hs]; exact .bind (.output _ _) fun _ => outputIndent1_like hp hs
    | valueSeparator => unfold nextOutputMem; rw [hs]; exact .bind (.output _ _) fun _ => .newline _
    | _ => exact .pure _

theorem fail_like (hm : Z.message = Y.message) : RunLike A d d (failMem Y) (failMem Z) := by
  intro s hs
  unfold failMem
  rw [hm]
  exact ⟨rfl, nofun⟩

theorem putFloat_like (K : Sink) (f : F) : RunLike A d d (putFloatTo A K f) (putFloatTo A K f) := by
  unfold putFloatTo
  refine .ite ?_ (.output _ _)
  split
  · exact .stop _
  · exact .bind (.output _ _) fun _ => .output _ _

theorem putOther_like (hs : Z.sink = Y.sink) (hm : Z.message = Y.message) (c : Nat) : RunLike A d d (putOtherMem A Y c) (putOtherMem A Z c) := by
  unfold putOtherMem
  rw [hs]
  have check : RunLike A d d (M.gets (fun s : Ser => s.os.good) >>= fun b => if b = true then Pure.pure () else failMem Y)
      (M.gets (fun s : Ser => s.os.good) >>= fun b => if b = true then Pure.pure () else failMem Z) := .gets fun _ => .ite (.pure _) (fail_like hm)
  split
  · split
    · exact .bind (.output _ _) fun _ => check
    · exact .bind (.output _ _) fun _ => .bind (.output _ _) fun _ => check
  · exact .bind (.modify fun _ => rfl) fun _ => check

theorem putCp_like (hs : Z.sink = Y.sink) (hm : Z.message = Y.message) (c : Nat) : RunLike A d d (putCpMem A Y c) (putCpMem A Z c) := by
  unfold putCpMem
  rw [hs]
  exact .ite (.output _ _) (.ite (.output _ _) (.ite (.output _ _) (.ite (.output _ _) (.ite (.output _ _) (.ite (.output _ _)
    (.ite (.output _ _) (putOther_like hs hm _)))))))

theorem stringLoop_like (hs : Z.sink = Y.sink) (hm : Z.message = Y.message) (n : Nat) (iss : IStream StrBuf) :
    RunLike A d d (stringLoopMem A Y n iss) (stringLoopMem A Z n iss) := by
  induction n generalizing iss with
  | zero => exact .stop _
  | succ n ih =>
    unfold stringLoopMem
    exact .ite (.ite (.bind (putCp_like hs hm _) fun _ => ih _) (fail_like hm)) (.pure _)

theorem putString_like (hs : Z.sink = Y.sink) (hm : Z.message = Y.message) (s : List Nat) : RunLike A d d (putStringMem A Y s) (putStringMem A Z s) := by
  unfold putStringMem
  rw [hs]
  exact .bind (.output _ _) fun _ => .bind (stringLoop_like hs hm _ _) fun _ => .output _ _

section
variable (hp : A.ch = 0 ∨ A.step ≠ 0 ∨ A.pretty = false) (hs : Z.sink = Y.sink) (hm : Z.message = Y.message)
include hp hs hm

mutual
theorem doDump_like : ∀ (v : Value F) (d : Nat), (A.ch = 0 ∨ A.step = 0 ∨ d + nest v ≤ 4) → RunLike A d d (doDumpMem A Y v) (doDumpMem A Z v)
  | .null, d, h => by unfold doDumpMem; exact next_like hp hs _ (by simp only [after, nest] at *; omega) (by simp)
  | .bool b, d, h => by
    unfold doDumpMem
    cases b
    · exact next_like hp hs .literalFalse (by simp only [after, nest] at *; omega) (by simp)
    · exact next_like hp hs .literalTrue (by simp only [after, nest] at *; omega) (by simp)
  | .int i, d, h => by
    unfold doDumpMem; rw [hs]
    exact .bind (next_like hp hs .valueInteger (by simp only [after, nest] at *; omega) (by simp)) fun _ => .output _ _
  | .flt f, d, h => by
    unfold doDumpMem; rw [hs]
    exact .bind (next_like hp hs .valueFloat (by simp only [after, nest] at *; omega) (by simp)) fun _ => putFloat_like _ _
  | .str s, d, h => by
    unfold doDumpMem
    exact .bind (next_like hp hs .valueString (by simp only [after, nest] at *; omega) (by simp)) fun _ => putString_like hs hm _
  | .arr xs, d, h => by
    unfold doDumpMem
    exact .bind (next_like hp hs .beginArray (by simp only [after, nest] at *; omega) (by simp)) fun _ =>
      .bind (dumpElems_like xs (d + 1) (by simp only [nest] at *; omega)) fun _ =>
        next_like hp hs .endArray (by simp only [after, nest] at *; omega) (by simp)
  | .obj ms, d, h => by
    unfold doDumpMem
    exact .bind (next_like hp hs .beginObject (by simp only [after, nest] at *; omega) (by simp)) fun _ =>
      .bind (dumpMembers_like ms (d + 1) (by simp only [nest] at *; omega)) fun _ =>
        next_like hp hs .endObject (by simp only [after, nest] at *; omega) (by simp)

theorem dumpElems_like : ∀ (xs : List (Value F)) (d : Nat), (A.ch = 0 ∨ A.step = 0 ∨ d + nestElems xs ≤ 4) →
    RunLike A d d (dumpElemsMem A Y xs) (dumpElemsMem A Z xs)
  | [], d, h => by unfold dumpElemsMem; exact .pure _
  | x :: xs, d, h => by
    unfold dumpElemsMem
    have i := dumpElems_like xs d (by simp only [nestElems] at *; omega)
    exact .bind (doDump_like x d (by simp only [nestElems] at *; omega)) fun _ =>
      .ite i (.bind (next_like hp hs .valueSeparator (by simp only [after, nestElems] at *; omega) (by simp)) fun _ => i)

theorem dumpMembers_like : ∀ (ms : List (List Nat × Value F)) (d : Nat), (A.ch = 0 ∨ A.step = 0 ∨ d + nestMembers ms ≤ 4) →
    RunLike A d d (dumpMembersMem A Y ms) (dumpMembersMem A Z ms)
  | [], d, h => by unfold dumpMembersMem; exact .pure _
  | (k, v) :: ms, d, h => by
    unfold dumpMembersMem
    have i := dumpMembers_like ms d (by simp only [nestMembers] at *; omega)
    exact .bind (next_like hp hs .valueString (by simp only [after, nestMembers] at *; omega) (by simp)) fun _ => .bind (putString_like hs hm _) fun _ =>
      .bind (next_like hp hs .nameSeparator (by simp only [after, nestMembers] at *; omega) (by simp)) fun _ =>
      .bind (doDump_like v d (by simp only [nestMembers] at *; omega)) fun _ =>
      .ite i (.bind (next_like hp hs .valueSeparator (by simp only [after, nestMembers] at *; omega) (by simp)) fun _ => i)
end

/-- The memory for the indentation does not matter. -/
theorem dumpMem_like (hst : Z.start = Y.start) (h : Option Handler) (str : List Nat) (v : Value F) (hd : A.ch = 0 ∨ A.step = 0 ∨ nest v ≤ 4) :
    jsonDumpMem A Y h str v = jsonDumpMem A Z h str v := by
  have hi : IndAt A 0 (Serializer.init A []) := by
    obtain ⟨k1, k2, k3, k4⟩ := reserve_keeps ⟨A.step, 0, A.ch, []⟩ (A.step * 2)
    refine ⟨k1, k2, ?_, .inr (.inr k3)⟩
    change A.ch = 0 ∨ A.step * 4 ≤ (Indent.reserve ⟨A.step, 0, A.ch, []⟩ (A.step * 2)).str.length
    unfold Indent.reserve
    simp only [List.length_nil]
    split
    · split
      · right
        simp only [List.length_append, List.length_replicate, List.length_nil]
        omega
      · right; simp only [List.length_nil]; omega
    · left; rename_i h; simpa using h
  have := (RunLike.bind (doDump_like hp hs hm v 0 (by omega)) fun _ => next_like hp hs .endOfInput (by simp only [after]; omega) (by simp)) _ hi
  unfold jsonDumpMem dumpMem
  rw [hst, this.1]
end

end Configor
