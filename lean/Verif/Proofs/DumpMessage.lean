import Verif.Model.DumpMessage
import Verif.Spec.DumpMessage
import Verif.Proofs.MessageText
import Verif.Proofs.DumpRun
/-! The messages of failed dumps. -/
set_option autoImplicit false
namespace Configor
open Spec Serializer

variable {F : Type} {A : DumpArgs F}

/-! ## Without the messages it is the serializer -/

/-- The same computation without messages. -/
def Mute (m : MM Ser Unit) (m' : M Ser Unit) : Prop :=
  ∀ s, m' s = ((match (m s).1 with | .ok a => .ok a | .error e => .error e.1), (m s).2)

theorem Mute.quiet (m : M Ser Unit) : Mute (DMsg.quiet m) m := by
  intro s
  unfold DMsg.quiet
  rcases m s with ⟨e | a, s'⟩ <;> rfl

theorem Mute.bind {m n : MM Ser Unit} {m' n' : M Ser Unit} (h : Mute m m') (h' : Mute n n') :
    Mute (m >>= fun _ => n) (m' >>= fun _ => n') := by
  intro s
  rw [MM.bind_def, M.bind_def, h s]
  rcases m s with ⟨e | a, s'⟩
  · rfl
  · exact h' s'

theorem Mute.fail (msg : List Nat) (c : Nat) : Mute (DMsg.fail msg c) (M.throw .serialization) := fun _ => rfl

theorem Mute.pure : Mute (pure ()) (pure ()) := fun _ => rfl

theorem Mute.ite {p : Prop} [Decidable p] {m n : MM Ser Unit} {m' n' : M Ser Unit} (h : Mute m m') (h' : Mute n n') :
    Mute (if p then m else n) (if p then m' else n') := by split <;> assumption

theorem mute_putOther (c : Nat) : Mute (DMsg.putOther A c) (putOther A c) := by
  unfold DMsg.putOther putOther
  have fin : Mute ((MM.gets fun s : Ser => s.os.good) >>= fun g =>
      if g = true then pure () else DMsg.fail (text! "encoding failed with codepoint") c)
      ((M.gets fun s => s.os.good) >>= fun g => if g = true then pure () else M.throw .serialization) := by
    intro s
    rw [gets_bind]
    have e1 : ((MM.gets fun s : Ser => s.os.good) >>= fun g =>
      if g = true then pure () else DMsg.fail (text! "encoding failed with codepoint") c : MM Ser Unit) s =
      (if s.os.good = true then pure () else DMsg.fail (text! "encoding failed with codepoint") c : MM Ser Unit) s := rfl
    rw [e1]
    split <;> rfl
  exact .ite (.ite (.bind (.quiet _) fin) (.bind (.quiet _) (.bind (.quiet _) fin))) (.bind (fun _ => rfl) fin)

theorem mute_putCp (c : Nat) : Mute (DMsg.putCp A c) (putCp A c) := by
  unfold DMsg.putCp putCp
  exact .ite (.quiet _) (.ite (.quiet _) (.ite (.quiet _) (.ite (.quiet _) (.ite (.quiet _) (.ite (.quiet _) (.ite (.quiet _)
    (mute_putOther c)))))))

theorem mute_stringLoop (n : Nat) (iss : IStream StrBuf) : Mute (DMsg.stringLoop A n iss) (stringLoop A n iss) := by
  induction n generalizing iss with
  | zero => exact fun _ => rfl
  | succ n ih =>
    unfold DMsg.stringLoop stringLoop
    exact .ite (.ite (.bind (mute_putCp _) (ih _)) (.fail _ _)) .pure

theorem mute_putString (k : List Nat) : Mute (DMsg.putString A k) (putString A k) :=
  .bind (.quiet _) (.bind (mute_stringLoop _ _) (.quiet _))

mutual
theorem mute_doDump (A : DumpArgs F) : ∀ v : Value F, Mute (DMsg.doDump A v) (doDump A v)
  | .obj ms => by unfold DMsg.doDump doDump; exact .bind (.quiet _) (.bind (mute_dumpMembers A ms) (.quiet _))
  | .arr xs => by unfold DMsg.doDump doDump; exact .bind (.quiet _) (.bind (mute_dumpElems A xs) (.quiet _))
  | .str s => by unfold DMsg.doDump doDump; exact .bind (.quiet _) (mute_putString s)
  | .bool b => by unfold DMsg.doDump doDump; exact .quiet _
  | .int i => by unfold DMsg.doDump doDump; exact .bind (.quiet _) (.quiet _)
  | .flt f => by unfold DMsg.doDump doDump; exact .bind (.quiet _) (.quiet _)
  | .null => by unfold DMsg.doDump doDump; exact .quiet _

theorem mute_dumpElems (A : DumpArgs F) : ∀ xs : List (Value F), Mute (DMsg.dumpElems A xs) (dumpElems A xs)
  | [] => by unfold DMsg.dumpElems dumpElems; exact .pure
  | x :: xs => by
    unfold DMsg.dumpElems dumpElems
    exact .bind (mute_doDump A x) (.ite (mute_dumpElems A xs) (.bind (.quiet _) (mute_dumpElems A xs)))

theorem mute_dumpMembers (A : DumpArgs F) : ∀ ms : List (List Nat × Value F), Mute (DMsg.dumpMembers A ms) (dumpMembers A ms)
  | [] => by unfold DMsg.dumpMembers dumpMembers; exact .pure
  | (k, v) :: ms => by
    unfold DMsg.dumpMembers dumpMembers
    exact .bind (.quiet _) (.bind (mute_putString k) (.bind (.quiet _) (.bind (mute_doDump A v) (.ite (mute_dumpMembers A ms)
      (.bind (.quiet _) (mute_dumpMembers A ms))))))
end

theorem mute_body (A : DumpArgs F) (v : Value F) : Mute (DMsg.body A v) (do doDump A v; next A .endOfInput) :=
  .bind (mute_doDump A v) (.quiet _)

/-! ## What is said -/

/-- A step that writes no strings: it keeps the stream good and throws nothing. -/
def Keeps (m : M Ser Unit) : Prop :=
  ∀ s, s.os.failb = false → match m s with
    | (.ok _, s') => s'.os.failb = false
    | (.error (.exn _), _) => False
    | (.error _, _) => True

theorem Keeps.bind {m n : M Ser Unit} (h : Keeps m) (h' : Keeps n) : Keeps (m >>= fun _ => n) := by
  intro s hs
  rw [M.bind_def]
  have h1 := h s hs
  generalize m s = r at h1 ⊢
  rcases r with ⟨e | a, s'⟩
  · exact h1
  · exact h' s' h1

theorem Keeps.ite {p : Prop} [Decidable p] {m n : M Ser Unit} (h : Keeps m) (h' : Keeps n) : Keeps (if p then m else n) := by
  split <;> assumption

theorem Keeps.pure : Keeps (pure ()) := fun _ h => h

theorem Keeps.state {g : Ser → Ser} (h : ∀ s, (g s).os = s.os) : Keeps (M.modify g) := by
  intro s hs
  show (g s).os.failb = false
  rw [h]; exact hs

theorem write_failb {o : OStream} (h : o.failb = false) (cs : List Nat) : (o.write cs).failb = false := by
  unfold OStream.write; rw [if_neg (by rw [h]; simp)]; exact h

theorem keeps_output (cs : List Nat) : Keeps (output cs) := fun _ hs => write_failb hs cs

theorem keeps_newline : Keeps (newline A) := .ite (keeps_output _) .pure

theorem keeps_writeIndent (n : Nat) : Keeps (writeIndent n) := by
  intro s hs
  unfold writeIndent
  cases s.ind.chars n with
  | none => trivial
  | some cs => exact write_failb hs cs

theorem Keeps.gets {α : Type} {g : Ser → α} {f : α → M Ser Unit} (h : ∀ a, Keeps (f a)) : Keeps (M.gets g >>= f) := by
  intro s hs
  rw [gets_bind]
  exact h _ s hs

theorem keeps_outputIndent : Keeps (outputIndent A) := by
  refine .ite ?_ .pure
  intro s hs
  rw [get_bind]
  exact Keeps.ite (keeps_writeIndent _) .pure s hs

theorem keeps_outputIndent1 : Keeps (outputIndent1 A) := .ite (.bind (.state fun _ => rfl) (keeps_writeIndent _)) .pure

theorem keeps_next (t : Token) : Keeps (next A t) := by
  unfold next
  refine .bind (.gets fun a => .ite (.bind (.state fun _ => rfl) (.ite keeps_newline .pure)) .pure)
    (.bind (.gets fun a => .ite keeps_outputIndent .pure) (.bind ?_ (.state fun _ => rfl)))
  have ho : ∀ c, Keeps (opening c) := fun c => .bind (keeps_output _) (.state fun _ => rfl)
  have hc : ∀ c, Keeps (closing A c) := fun c =>
    .bind (.state fun _ => rfl) (.bind keeps_newline (.bind keeps_outputIndent (keeps_output _)))
  cases t <;> first
    | exact keeps_output _
    | exact ho _
    | exact hc _
    | exact .bind (keeps_output _) keeps_outputIndent1
    | exact .bind (keeps_output _) keeps_newline
    | exact .pure

theorem keeps_putFloat (f : F) : Keeps (putFloat A f) := by
  unfold putFloat
  refine .ite ?_ (keeps_output _)
  split
  · exact fun _ _ => trivial
  · exact .bind (keeps_output _) (keeps_output _)

/-- A step that writes the strings `ts`, or throws because of one of them. -/
def Writes (A : DumpArgs F) (ts : List (List Nat)) (m : MM Ser Unit) : Prop :=
  (∀ t ∈ ts, NoEof A.sw t) → ∀ s, s.os.failb = false → match m s with
    | (.ok _, s') => s'.os.failb = false ∧ ∀ t ∈ ts, Fine A t
    | (.error (.exn e, msg), _) => e = .serialization ∧ ∃ pre t post i, ts = pre ++ t :: post ∧ (∀ x ∈ pre, Fine A x) ∧
        Trouble A t i ∧ msg = serializationText i
    | (.error _, _) => True

theorem Writes.quiet {m : M Ser Unit} (h : Keeps m) : Writes A [] (DMsg.quiet m) := by
  intro _ s hs
  have h1 := h s hs
  unfold DMsg.quiet
  generalize m s = r at h1 ⊢
  rcases r with ⟨e | a, s'⟩
  · cases e with
    | exn => exact h1.elim
    | _ => trivial
  · exact ⟨h1, nofun⟩

theorem Writes.bind {ts ts' : List (List Nat)} {m n : MM Ser Unit} (h : Writes A ts m) (h' : Writes A ts' n) :
    Writes A (ts ++ ts') (m >>= fun _ => n) := by
  intro hn s hs
  rw [MM.bind_def]
  have h1 := h (fun t ht => hn t (List.mem_append_left _ ht)) s hs
  generalize m s = r at h1 ⊢
  rcases r with ⟨⟨e, msg⟩ | a, s'⟩
  · cases e with
    | exn e =>
      obtain ⟨he, pre, t, post, i, rfl, hp, ht, hm⟩ := h1
      exact ⟨he, pre, t, post ++ ts', i, by simp, hp, ht, hm⟩
    | _ => trivial
  · obtain ⟨h1, hf⟩ := h1
    have h2 := h' (fun t ht => hn t (List.mem_append_right _ ht)) s' h1
    simp only
    generalize n s' = r at h2 ⊢
    rcases r with ⟨⟨e, msg⟩ | a, s''⟩
    · cases e with
      | exn e =>
        obtain ⟨he, pre, t, post, i, rfl, hp, ht, hm⟩ := h2
        refine ⟨he, ts ++ pre, t, post, i, by simp, ?_, ht, hm⟩
        intro x hx
        rcases List.mem_append.1 hx with hx | hx
        · exact hf x hx
        · exact hp x hx
      | _ => trivial
    · refine ⟨h2.1, ?_⟩
      intro x hx
      rcases List.mem_append.1 hx with hx | hx
      · exact hf x hx
      · exact h2.2 x hx

/-- `putCp` keeps the stream good, or says that the code point cannot be written. -/
theorem says_putCp (c : Nat) (s : Ser) (hs : s.os.failb = false) :
    (∃ s', DMsg.putCp A c s = (.ok (), s') ∧ s'.os.failb = false ∧ Writable A c) ∨
    ∃ s', ¬ Writable A c ∧ DMsg.putCp A c s = (.error (.exn .serialization,
      serializationText (text! "encoding failed with codepoint" ++ text! " '" ++ hexText 4 c ++ text! "'")), s') := by
  have out : ∀ cs s, s.os.failb = false → ∃ s', DMsg.quiet (output cs) s = (.ok (), s') ∧ s'.os.failb = false := fun cs s h =>
    ⟨_, rfl, write_failb h cs⟩
  have short : ∀ e, shortEscape c = some e → ∃ s', DMsg.quiet (output [0x5C, e]) s = (.ok (), s') ∧ s'.os.failb = false ∧ Writable A c := by
    intro e he
    obtain ⟨s', h1, h2⟩ := out [0x5C, e] s hs
    exact ⟨s', h1, h2, Or.inl (by rw [he]; simp)⟩
  unfold DMsg.putCp
  split
  · exact Or.inl (short _ (by subst c; rfl))
  split
  · exact Or.inl (short _ (by subst c; rfl))
  split
  · exact Or.inl (short _ (by subst c; rfl))
  split
  · exact Or.inl (short _ (by subst c; rfl))
  split
  · exact Or.inl (short _ (by subst c; rfl))
  split
  · exact Or.inl (short _ (by subst c; rfl))
  split
  · exact Or.inl (short _ (by subst c; rfl))
  have hc : shortEscape c = none := by unfold shortEscape; simp [*]
  unfold DMsg.putOther
  have fin : ∀ s' : Ser, s'.os.failb = false → ((MM.gets fun s : Ser => s.os.good) >>= fun g =>
      if g = true then pure () else DMsg.fail (text! "encoding failed with codepoint") c : MM Ser Unit) s' = (.ok (), s') := by
    intro s' h
    show (if s'.os.good = true then pure () else DMsg.fail (text! "encoding failed with codepoint") c : MM Ser Unit) s' = _
    rw [if_pos (by unfold OStream.good; rw [h]; rfl)]
    rfl
  by_cases he : c ≤ 0x1F ∨ (A.uesc = true ∧ c ≥ 0x7F)
  · rw [if_pos he]
    have hw : Writable A c := by
      refine Or.inr (Or.inl ?_)
      rcases he with he | he
      · exact Or.inl (by omega)
      · exact Or.inr he
    left
    by_cases hb : c ≤ 0xFFFF
    · rw [if_pos hb]
      obtain ⟨s1, h1, i1⟩ := out (hexText 2 (c % 65536)) s hs
      exact ⟨s1, by rw [MM.bind_def, h1]; exact fin s1 i1, i1, hw⟩
    · rw [if_neg hb]
      obtain ⟨s1, h1, i1⟩ := out (hexText 4 (encodeSurrogates c).1) s hs
      obtain ⟨s2, h2, i2⟩ := out (hexText 4 (encodeSurrogates c).2) s1 i1
      exact ⟨s2, by rw [MM.bind_def, h1]; simp only; rw [MM.bind_def, h2]; exact fin s2 i2, i2, hw⟩
  · rw [if_neg he]
    have hu := encode_units A.te A.tw s.os hs c
    cases ho : storeWith (A.te.encode A.tw) [c] with
    | some u =>
      rw [ho] at hu
      have h1 : (A.te.encode A.tw s.os c).failb = false := by rw [hu]
      exact Or.inl ⟨{ s with os := A.te.encode A.tw s.os c }, fin _ h1, h1, Or.inr (Or.inr (by rw [ho]; simp))⟩
    | none =>
      rw [ho] at hu
      simp only at hu
      right
      refine ⟨{ s with os := A.te.encode A.tw s.os c }, ?_, ?_⟩
      · rintro (h1 | h1 | h1)
        · exact h1 hc
        · rcases h1 with h1 | h1
          · exact he (Or.inl (by omega))
          · exact he (Or.inr h1)
        · exact h1 ho
      · show (if (A.te.encode A.tw s.os c).good = true then pure () else DMsg.fail (text! "encoding failed with codepoint") c : MM Ser Unit)
          { s with os := A.te.encode A.tw s.os c } = _
        rw [if_neg (by unfold OStream.good; rw [hu]; simp)]
        rfl

theorem readOn_reads {σ : Type} {dec : IStream σ → Decoded σ} {s s' : IStream σ} {q : List Nat} (h : ReadOn dec s q s')
    (hd : (dec s').1 = false) : ReadsAs dec s q := by
  induction h with
  | nil => exact .done hd
  | more h1 h2 _ ih => exact .more h1 h2 (ih hd)

theorem says_stringLoop {t : List Nat} (ht : NoEof A.sw t) (n k : Nat) (hk : k ≤ t.length) (hn : t.length - k < n) (q : List Nat)
    (hq : ∀ c ∈ q, Writable A c) (ha : ReadOn (A.se.decode A.sw (strSBuf A.sw)) (onString t) q (readUpTo t k)) (s : Ser)
    (hs : s.os.failb = false) :
    (∃ s', DMsg.stringLoop A n (readUpTo t k) s = (.ok (), s') ∧ s'.os.failb = false ∧ Fine A t) ∨
    ∃ s' i, DMsg.stringLoop A n (readUpTo t k) s = (.error (.exn .serialization, serializationText i), s') ∧ Trouble A t i := by
  have V := strAtView A.sw ht
  have Fo := A.se.follows A.sw V
  induction n generalizing k q s with
  | zero => omega
  | succ n ih =>
    have hR : StrAt t (StrBuf.mk t k) (ints (t.drop k)) := ⟨rfl, hk, rfl⟩
    have hd := items_delivers A.se A.sw V hR
    have hd' : Delivers (A.se.decode A.sw (strSBuf A.sw)) (readUpTo t k) (items (A.se.step A.sw) (ints (t.drop k))) := hd
    unfold DMsg.stringLoop
    cases hst : A.se.step A.sw (ints (t.drop k)) with
    | none =>
      have hnil : ints (t.drop k) = [] := by
        cases hl : ints (t.drop k) with
        | nil => rfl
        | cons u us => exact absurd (hl ▸ hst) (Fo.stepcons u us)
      rw [hnil] at hR
      have h0 := (Fo.nil hR).1
      have h1 : (A.se.decode A.sw (strSBuf A.sw) (readUpTo t k)).1 = false := h0
      left
      simp only [h1]
      exact ⟨s, rfl, hs, q, readOn_reads ha h1, hq⟩
    | some p =>
      obtain ⟨c, rest⟩ := p
      cases c with
      | none =>
        have hb := Fo.bad hR hst
        have h1 : (A.se.decode A.sw (strSBuf A.sw) (readUpTo t k)).1 = true := hb.1
        have h2 : (A.se.decode A.sw (strSBuf A.sw) (readUpTo t k)).2.2.good = false := hb.2
        right
        simp only [h1, h2, if_true]
        refine ⟨s, _, rfl, .malformed hq ha (.bad h1 h2) ?_⟩
        have hc := A.se.bad_code A.sw V (u := t.drop k) hR hst
        have hc' : (A.se.decode A.sw (strSBuf A.sw) (readUpTo t k)).2.1 = malformedCode A.se (t.drop k) := hc
        rw [hc']
        exact shown_hexText _ _
      | some c =>
        obtain ⟨b', hg, hR'⟩ := Fo.good hR hst
        have h1 : A.se.decode A.sw (strSBuf A.sw) (readUpTo t k) = (true, c, ⟨b', false, false⟩) := hg
        have hit := items_cons (A.se.shrinks A.sw) Fo.stepnil hst
        have hlt := A.se.shrinks A.sw _ _ _ hst
        obtain ⟨hb1, hb2, hb3⟩ := hR'
        have hbb : (⟨b', false, false⟩ : IStream StrBuf) = readUpTo t b'.idx := by
          obtain ⟨x, y⟩ := b'
          simp only at hb1
          subst hb1
          rfl
        rw [hbb] at h1
        have hlen : t.length - b'.idx < t.length - k := by
          rw [← hb3] at hlt
          simpa [ints] using hlt
        simp only [h1, if_true]
        rw [if_pos (show (readUpTo t b'.idx).good = true from rfl)]
        rw [MM.bind_def]
        rcases says_putCp (A := A) c s hs with ⟨s', h3, h4, h5⟩ | ⟨s', h3, h4⟩
        · rw [h3]
          refine ih b'.idx hb2 (by omega) (q ++ [c]) ?_ (readOn_snoc ha h1 rfl) s' h4
          intro x hx
          rcases List.mem_append.1 hx with hx | hx
          · exact hq x hx
          · rw [List.mem_singleton.1 hx]; exact h5
        · rw [h4]
          refine Or.inr ⟨s', _, rfl, .encode hq ha (c := c) (l := items (A.se.step A.sw) rest) (hit ▸ hd') h3 (shown_hexText _ _)⟩

theorem writes_putString (t : List Nat) : Writes A [t] (DMsg.putString A t) := by
  unfold DMsg.putString
  refine Writes.bind (ts := []) (.quiet (keeps_output _)) (Writes.bind (ts := [t]) (ts' := []) ?_ (.quiet (keeps_output _)))
  intro hn s hs
  rcases says_stringLoop (hn t (.head _)) (t.length + 1) 0 (Nat.zero_le _) (by omega) [] nofun .nil s hs with ⟨s', h1, h2, h3⟩ | ⟨s', i, h1, h2⟩
  · have h1' : DMsg.stringLoop A (t.length + 1) (.ofBuf (.ofString t)) s = (.ok (), s') := h1
    rw [h1']
    exact ⟨h2, fun x hx => by rw [List.mem_singleton.1 hx]; exact h3⟩
  · have h1' : DMsg.stringLoop A (t.length + 1) (.ofBuf (.ofString t)) s = (.error (.exn .serialization, serializationText i), s') := h1
    rw [h1']
    exact ⟨rfl, [], t, [], i, rfl, nofun, h2, rfl⟩

theorem Writes.cast {ts ts' : List (List Nat)} {m : MM Ser Unit} (h : Writes A ts m) (e : ts = ts') : Writes A ts' m := e ▸ h

theorem Writes.pure : Writes A [] (pure ()) := fun _ _ hs => ⟨hs, nofun⟩

theorem Writes.ite {p : Prop} [Decidable p] {ts : List (List Nat)} {m n : MM Ser Unit} (h : Writes A ts m) (h' : Writes A ts n) :
    Writes A ts (if p then m else n) := by split <;> assumption

mutual
theorem writes_doDump (A : DumpArgs F) : ∀ v : Value F, Writes A (texts v) (DMsg.doDump A v)
  | .obj ms => by
    unfold DMsg.doDump texts
    exact (Writes.bind (.quiet (keeps_next _)) (.bind (writes_dumpMembers A ms) (.quiet (keeps_next _)))).cast (by simp)
  | .arr xs => by
    unfold DMsg.doDump texts
    exact (Writes.bind (.quiet (keeps_next _)) (.bind (writes_dumpElems A xs) (.quiet (keeps_next _)))).cast (by simp)
  | .str s => by unfold DMsg.doDump texts; exact .bind (.quiet (keeps_next _)) (writes_putString s)
  | .bool b => by unfold DMsg.doDump texts; exact .quiet (keeps_next _)
  | .int i => by unfold DMsg.doDump texts; exact .bind (.quiet (keeps_next _)) (.quiet (keeps_output _))
  | .flt f => by unfold DMsg.doDump texts; exact .bind (.quiet (keeps_next _)) (.quiet (keeps_putFloat f))
  | .null => by unfold DMsg.doDump texts; exact .quiet (keeps_next _)

theorem writes_dumpElems (A : DumpArgs F) : ∀ xs : List (Value F), Writes A (textsElems xs) (DMsg.dumpElems A xs)
  | [] => by unfold DMsg.dumpElems textsElems; exact .pure
  | x :: xs => by
    unfold DMsg.dumpElems textsElems
    exact .bind (writes_doDump A x) (.ite (writes_dumpElems A xs) (Writes.bind (ts := []) (.quiet (keeps_next _)) (writes_dumpElems A xs)))

theorem writes_dumpMembers (A : DumpArgs F) :
    ∀ ms : List (List Nat × Value F), Writes A (textsMembers ms) (DMsg.dumpMembers A ms)
  | [] => by unfold DMsg.dumpMembers textsMembers; exact .pure
  | (k, v) :: ms => by
    unfold DMsg.dumpMembers textsMembers
    exact Writes.bind (ts := []) (.quiet (keeps_next _)) (Writes.bind (ts := [k]) (writes_putString k)
      (Writes.bind (ts := []) (.quiet (keeps_next _)) (.bind (writes_doDump A v)
        (.ite (writes_dumpMembers A ms) (Writes.bind (ts := []) (.quiet (keeps_next _)) (writes_dumpMembers A ms))))))
end

theorem writes_body (A : DumpArgs F) (v : Value F) : Writes A (texts v) (DMsg.body A v) :=
  (Writes.bind (writes_doDump A v) (.quiet (keeps_next _))).cast (by simp)

theorem whatOf_serialization (i : List Nat) : whatOf (serializationText i) = serializationText (whatOf i) :=
  takeWhile_all (by decide)

theorem trouble_what {t i : List Nat} (h : Trouble A t i) : whatOf i = i := by
  cases h with
  | malformed _ _ _ h => exact whatOf_shown h (by decide)
  | encode _ _ _ _ h => exact whatOf_shown h (by decide)

theorem readOn_delivers {σ : Type} {dec : IStream σ → Decoded σ} {s s' : IStream σ} {q : List Nat} {l : List (Option Nat)}
    (h : ReadOn dec s q s') (hd : Delivers dec s' l) : Delivers dec s (q.map some ++ l) := by
  induction h with
  | nil => exact hd
  | more h1 h2 _ ih => exact .more h1 h2 (ih hd)

theorem trouble_not_fine {t i : List Nat} (h : Trouble A t i) : ¬ Fine A t := by
  rintro ⟨cps, hr, hw⟩
  have hd := delivers_of_reads hr
  cases h with
  | @malformed q k _ _ h1 h2 _ =>
    have he := delivers_unique hd (readOn_delivers h1 h2)
    have : none ∈ cps.map some := by rw [he]; simp
    simp at this
  | @encode q k c l _ _ h1 h2 h3 _ =>
    have he := delivers_unique hd (readOn_delivers h1 h2)
    have : some c ∈ cps.map some := by rw [he]; simp
    exact h3 (hw c (by simpa using this))

theorem first_bad {P : List Nat → Prop} {pre pre' post post' : List (List Nat)} {t t' : List Nat}
    (h : pre ++ t :: post = pre' ++ t' :: post') (h1 : ∀ x ∈ pre, P x) (h2 : ∀ x ∈ pre', P x) (h3 : ¬ P t) (h4 : ¬ P t') :
    pre = pre' ∧ t = t' ∧ post = post' := by
  induction pre generalizing pre' with
  | nil =>
    cases pre' with
    | nil => simp at h; exact ⟨rfl, h⟩
    | cons y pre' => simp at h; exact absurd (h.1 ▸ h2 y (.head _)) h3
  | cons x pre ih =>
    cases pre' with
    | nil => simp at h; exact absurd (h.1 ▸ h1 x (.head _)) h4
    | cons y pre' =>
      simp only [List.cons_append, List.cons.injEq] at h
      obtain ⟨e1, e2, e3⟩ := ih h.2 (fun z hz => h1 z (.tail _ hz)) (fun z hz => h2 z (.tail _ hz))
      exact ⟨by rw [h.1, e1], e2, e3⟩

mutual
theorem texts_hasText : ∀ (v : Value F) (t : List Nat), t ∈ texts v → HasText v t
  | .obj ms, t, h => by
    unfold texts at h
    obtain ⟨k, v, hm, h⟩ := textsMembers_hasText ms t h
    rcases h with rfl | h
    · exact .key hm
    · exact .member hm h
  | .arr xs, t, h => by
    unfold texts at h
    obtain ⟨x, hx, h⟩ := textsElems_hasText xs t h
    exact .elem hx h
  | .str s, t, h => by
    unfold texts at h
    rw [List.mem_singleton.1 h]; exact .str
  | .bool _, t, h | .int _, t, h | .flt _, t, h | .null, t, h => by unfold texts at h; cases h

theorem textsElems_hasText : ∀ (xs : List (Value F)) (t : List Nat), t ∈ textsElems xs → ∃ x ∈ xs, HasText x t
  | [], t, h => by unfold textsElems at h; cases h
  | x :: xs, t, h => by
    unfold textsElems at h
    rcases List.mem_append.1 h with h | h
    · exact ⟨x, .head _, texts_hasText x t h⟩
    · obtain ⟨y, hy, h⟩ := textsElems_hasText xs t h
      exact ⟨y, .tail _ hy, h⟩

theorem textsMembers_hasText : ∀ (ms : List (List Nat × Value F)) (t : List Nat), t ∈ textsMembers ms →
    ∃ k v, (k, v) ∈ ms ∧ (t = k ∨ HasText v t)
  | [], t, h => by unfold textsMembers at h; cases h
  | (k, v) :: ms, t, h => by
    unfold textsMembers at h
    rcases List.mem_cons.1 h with h | h
    · exact ⟨k, v, .head _, Or.inl h⟩
    rcases List.mem_append.1 h with h | h
    · exact ⟨k, v, .head _, Or.inr (texts_hasText v t h)⟩
    · obtain ⟨k', v', hm, h⟩ := textsMembers_hasText ms t h
      exact ⟨k', v', .tail _ hm, h⟩
end

end Configor
