import Verif.Model.Serializer
import Verif.Proofs.Document
import Verif.Spec.Sources
/-!
Output to a stream that has failed.
-/
namespace Configor
open Serializer Spec

variable {F : Type} {A : DumpArgs F}

/-- Ends normally and writes nothing. -/
def Quiet (m : M Ser Unit) : Prop := ∀ s, s.os = ⟨[], true⟩ → ∃ s', m s = (.ok (), s') ∧ s'.os = ⟨[], true⟩

theorem Quiet.bind {m : M Ser Unit} {f : Unit → M Ser Unit} (h : Quiet m) (hf : Quiet (f ())) : Quiet (m >>= f) := by
  intro s hs
  obtain ⟨s', h1, h2⟩ := h s hs
  obtain ⟨s'', h3, h4⟩ := hf s' h2
  exact ⟨s'', by rw [M.bind_def, h1]; exact h3, h4⟩

theorem Quiet.pure : Quiet (pure ()) := fun s hs => ⟨s, rfl, hs⟩

theorem Quiet.modify {f : Ser → Ser} (h : ∀ s, (f s).os = s.os) : Quiet (M.modify f) := fun s hs =>
  ⟨f s, rfl, (h s).trans hs⟩

theorem Quiet.output (cs : List Nat) : Quiet (output cs) := by
  intro s hs
  refine ⟨_, rfl, ?_⟩
  simp [OStream.write, hs]

theorem Quiet.gets {α : Type} {f : Ser → α} {g : α → M Ser Unit} (h : ∀ a, Quiet (g a)) : Quiet (M.gets f >>= g) := by
  intro s hs
  obtain ⟨s', h1, h2⟩ := h (f s) s hs
  exact ⟨s', by rw [M.bind_def]; exact h1, h2⟩

theorem Quiet.ite {c : Prop} [Decidable c] {m m' : M Ser Unit} (h : Quiet m) (h' : Quiet m') : Quiet (if c then m else m') := by
  split
  · exact h
  · exact h'

theorem Quiet.next (hp : A.pretty = false) (t : Token) : Quiet (next A t) := by
  have hn : Quiet (newline A) := by unfold newline; rw [hp]; exact .pure
  have hi : Quiet (outputIndent A) := by unfold outputIndent; rw [hp]; exact .pure
  have hi1 : Quiet (outputIndent1 A) := by unfold outputIndent1; rw [hp]; exact .pure
  have ho : ∀ c, Quiet (opening c) := fun c => .bind (.output _) (.modify fun _ => rfl)
  have hc : ∀ c, Quiet (closing A c) := fun c => .bind (.modify fun _ => rfl) (.bind hn (.bind hi (.output _)))
  unfold Serializer.next
  refine .bind ?_ (.bind ?_ (.bind ?_ (.modify fun _ => rfl)))
  · unfold nextBegan
    exact .gets fun b => .ite (.bind (.modify fun _ => rfl) (.ite hn .pure)) .pure
  · unfold nextIndent
    exact .gets fun b => .ite hi .pure
  · cases t <;> unfold nextOutput <;> first
      | exact .output _ | exact ho _ | exact hc _ | exact .bind (.output _) hi1 | exact .bind (.output _) hn | exact .pure

mutual
theorem Quiet.doDump (hp : A.pretty = false) : ∀ (v : Value F), Plain v = true → Quiet (doDump A v)
  | .null, _ => by unfold Serializer.doDump; exact .next hp _
  | .bool _, _ => by unfold Serializer.doDump; exact .next hp _
  | .int _, _ => by unfold Serializer.doDump; exact .bind (.next hp _) (.output _)
  | .arr xs, h => by
    unfold Serializer.doDump
    exact .bind (.next hp _) (.bind (Quiet.dumpElems hp xs (by simpa [Plain] using h)) (.next hp _))
  | .str _, h => by simp [Plain] at h
  | .flt _, h => by simp [Plain] at h
  | .obj _, h => by simp [Plain] at h
theorem Quiet.dumpElems (hp : A.pretty = false) : ∀ (xs : List (Value F)), PlainList xs = true → Quiet (dumpElems A xs)
  | [], _ => by unfold Serializer.dumpElems; exact .pure
  | x :: xs, h => by
    simp only [PlainList, Bool.and_eq_true] at h
    unfold Serializer.dumpElems
    exact .bind (Quiet.doDump hp x h.1) (.ite (Quiet.dumpElems hp xs h.2) (.bind (.next hp _) (Quiet.dumpElems hp xs h.2)))
end

theorem dumpRejected_plain (hp : A.pretty = false) (h : Option Handler) (v : Value F) (hv : Plain v = true) :
    dumpRejected A h v = (.ok (), []) := by
  obtain ⟨s', h1, h2⟩ := (Quiet.bind (f := fun _ => Serializer.next A .endOfInput) (Quiet.doDump hp v hv) (.next hp _))
    { Serializer.init A [] with os := ⟨[], true⟩ } rfl
  unfold dumpRejected Serializer.dump
  rw [h1]
  simp [h2]

/-- The end of `putOther`. -/
def putOtherEnd : M Ser Unit := do
  if (← M.gets fun s => s.os.good) then pure () else M.throw .serialization

theorem M.bind_assoc' {σ α β γ : Type} (m : M σ α) (f : α → M σ β) (g : β → M σ γ) :
    (m >>= f) >>= g = m >>= fun a => f a >>= g := by
  funext s
  simp only [M.bind_def]
  cases m s with
  | mk r s' => cases r <;> rfl

theorem rejected_putCp {cp : Nat} {s : Ser} (hs : s.os = ⟨[], true⟩) :
    (¬ Ordinary cp → ∃ s', putCp A cp s = (.ok (), s') ∧ s'.os = ⟨[], true⟩) ∧
    (Ordinary cp → ∃ s', putCp A cp s = (.error (.exn .serialization), s')) := by
  constructor
  · intro h
    have h := Classical.not_not.mp h
    have : ∃ cs, putCp A cp = output cs := by
      unfold putCp
      rcases h with rfl | rfl | rfl | rfl | rfl | rfl | rfl <;> simp only [Nat.reduceEqDiff, if_true, if_false] <;> exact ⟨_, rfl⟩
    obtain ⟨cs, h1⟩ := this
    rw [h1]
    exact Quiet.output cs s hs
  · intro h
    unfold Ordinary at h
    simp only [not_or] at h
    obtain ⟨h1, h2, h3, h4, h5, h6, h7⟩ := h
    unfold putCp
    rw [if_neg h1, if_neg h2, if_neg h3, if_neg h4, if_neg h5, if_neg h6, if_neg h7]
    have key : ∀ (m : M Ser Unit), (∃ s', m s = (.ok (), s') ∧ s'.os.failb = true) →
        ∃ s', (m >>= fun _ => putOtherEnd) s =
          (.error (.exn .serialization), s') := by
      rintro m ⟨s', e1, e2⟩
      refine ⟨s', ?_⟩
      simp only [putOtherEnd, M.bind_def, e1, M.gets, OStream.good, e2]
      rfl
    have q : ∀ cs, ∃ s', output cs s = (.ok (), s') ∧ s'.os.failb = true := by
      intro cs
      obtain ⟨s', e1, e2⟩ := Quiet.output cs s hs
      exact ⟨s', e1, by rw [e2]⟩
    have hfin : ∀ m : M Ser Unit, (∃ s', m s = (.ok (), s') ∧ s'.os.failb = true) → m >>= (fun _ => putOtherEnd) = putOther A cp →
        ∃ s', putOther A cp s = (.error (.exn .serialization), s') := by
      intro m h1 h2
      rw [← h2]
      exact key m h1
    by_cases c1 : cp ≤ 0x1F ∨ (A.uesc = true ∧ cp ≥ 0x7F)
    · by_cases c2 : cp ≤ 0xFFFF
      · refine hfin _ (q (hexText 2 (cp % 65536))) ?_
        unfold putOther putOtherEnd
        rw [if_pos c1, if_pos c2]
      · obtain ⟨s', e1, e2⟩ := Quiet.bind (f := fun _ => output (hexText 4 (encodeSurrogates cp).2)) (Quiet.output (hexText 4 (encodeSurrogates cp).1)) (Quiet.output _) s hs
        refine hfin _ ⟨s', e1, by rw [e2]⟩ ?_
        unfold putOther putOtherEnd
        rw [if_pos c1, if_neg c2, M.bind_assoc']
    · refine hfin (M.modify fun s => { s with os := A.te.encode A.tw s.os cp }) ⟨_, rfl, A.te.sticky A.tw _ _ (by rw [hs])⟩ ?_
      unfold putOther putOtherEnd
      rw [if_neg c1]

theorem rejected_string {iss : IStream StrBuf} {l : List (Option Nat)} (hl : Delivers (A.se.decode A.sw (strSBuf A.sw)) iss l)
    (ho : ∃ c, some c ∈ l ∧ Ordinary c) (n : Nat) (hn : l.length ≤ n) {s : Ser} (hs : s.os = ⟨[], true⟩) :
    ∃ s', stringLoop A n iss s = (.error (.exn .serialization), s') := by
  induction hl generalizing n s with
  | done h => obtain ⟨c, h, _⟩ := ho; simp at h
  | bad h1 h2 =>
    obtain ⟨c, h, _⟩ := ho
    simp at h
  | @more iss cp iss' l h1 h2 h3 ih =>
    obtain ⟨n, rfl⟩ : ∃ k, n = k + 1 := ⟨n - 1, by simp at hn; omega⟩
    rw [stringLoop]
    simp only [h1, h2, if_true]
    by_cases hc : Ordinary cp
    · obtain ⟨s', e⟩ := (rejected_putCp (A := A) hs).2 hc
      exact ⟨s', by rw [M.bind_def, e]⟩
    · obtain ⟨s', e1, e2⟩ := (rejected_putCp (A := A) hs).1 hc
      rw [M.bind_def, e1]
      refine ih ?_ n (by simpa using hn) e2
      obtain ⟨c, h4, h5⟩ := ho
      rcases List.mem_cons.mp h4 with h4 | h4
      · simp only [Option.some.injEq] at h4; subst h4; exact absurd h5 hc
      · exact ⟨c, h4, h5⟩

theorem dumpRejected_string (hp : A.pretty = false) (str : List Nat) {l : List (Option Nat)}
    (hl : Delivers (A.se.decode A.sw (strSBuf A.sw)) (onString str) l)
    (ho : ∃ c, some c ∈ l ∧ Ordinary c) :
    (dumpRejected A none (.str str)).1 = .error (.exn .serialization) := by
  have hlen : l.length ≤ str.length + 1 := by
    have h1 := (delivers_iff A.se A.sw str l).mp hl
    have h2 := itemsOf_length A.se A.sw str
    rw [h1]; omega
  obtain ⟨s1, e1, e2⟩ := Quiet.next (A := A) hp .valueString { Serializer.init A [] with os := ⟨[], true⟩ } rfl
  obtain ⟨s2, e3, e4⟩ := Quiet.output [0x22] s1 e2
  obtain ⟨s3, e5⟩ := rejected_string (A := A) hl ho (str.length + 1) hlen e4
  unfold dumpRejected Serializer.dump
  simp only [Serializer.doDump, Serializer.putString, M.bind_def, e1, e3]
  simp only [onString] at e5
  rw [e5]

end Configor
