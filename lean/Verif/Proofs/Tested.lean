import Verif.Proofs.DumpToks
import Verif.Proofs.Sink
import Verif.Spec.Tested
/-!
# What has arrived when a call of `dump` returns
-/
set_option autoImplicit false
namespace Configor
open Spec Serializer

variable {F : Type} {A : DumpArgs F} {P : Printer F} {K : Sink}

/-! ## The marked text is the text -/

theorem tagged_fst (b : Bool) (l : List Nat) : (tagged b l).map Prod.fst = l := by
  unfold tagged
  induction l with
  | nil => rfl
  | cons c l ih => simpa using ih

theorem tagged_append (b : Bool) (l m : List Nat) : tagged b (l ++ m) = tagged b l ++ tagged b m := by unfold tagged; simp

theorem tagged_nil (b : Bool) : tagged b [] = [] := rfl

theorem markedLiteral_fst (s : List Nat) : (P.markedLiteral s).map Prod.fst = P.literal s := by
  unfold Printer.markedLiteral Printer.literal
  rw [List.map_append, List.map_append, tagged_fst, List.map_flatMap]
  simp only [tagged_fst]
  rfl

theorem markedItems_cons (d : Nat) (x : List (Nat × Bool)) (xs : List (List (Nat × Bool))) :
    P.markedItems d (x :: xs) = tagged false (P.style.indent d) ++ x ++
      (if xs = [] then [] else tagged false [0x2C] ++ tagged false P.style.nl ++ P.markedItems d xs) := by
  cases xs with
  | nil => simp [Printer.markedItems]
  | cons y ys => simp [Printer.markedItems]

theorem markedItems_fst (d : Nat) : ∀ ts : List (List (Nat × Bool)), (P.markedItems d ts).map Prod.fst = P.items d (ts.map (List.map Prod.fst))
  | [] => rfl
  | t :: ts => by
    rw [markedItems_cons, List.map_cons, printItems_cons, ← markedItems_fst d ts]
    cases ts with
    | nil => simp [tagged_fst]
    | cons y ys => simp [tagged_fst]

theorem markedBlock_fst (d op cl : Nat) (ts : List (List (Nat × Bool))) :
    (P.markedBlock d op cl ts).map Prod.fst = P.block d op cl (ts.map (List.map Prod.fst)) := by
  unfold Printer.markedBlock Printer.block
  rw [← markedItems_fst]
  cases ts with
  | nil => simp [tagged_fst]
  | cons y ys => simp [tagged_fst]

mutual
theorem marked_fst : ∀ (v : Value F) (d : Nat), (P.marked d v).map Prod.fst = P.text d v
  | .null, d => rfl
  | .bool true, d => rfl
  | .bool false, d => rfl
  | .int i, d => by simp only [Printer.marked, Printer.text, tagged_fst]
  | .flt f, d => by simp only [Printer.marked, Printer.text, tagged_fst]
  | .str s, d => by simp only [Printer.marked, Printer.text, markedLiteral_fst]
  | .arr xs, d => by simp only [Printer.marked, Printer.text, markedBlock_fst]; rw [markedElems_fst xs]
  | .obj ms, d => by simp only [Printer.marked, Printer.text, markedBlock_fst]; rw [markedMembers_fst ms]
theorem markedElems_fst : ∀ (xs : List (Value F)) (d : Nat), (P.markedElems d xs).map (List.map Prod.fst) = P.texts d xs
  | [], d => rfl
  | x :: xs, d => by simp only [Printer.markedElems, Printer.texts, List.map_cons]; rw [marked_fst x, markedElems_fst xs]
theorem markedMembers_fst : ∀ (ms : List (List Nat × Value F)) (d : Nat), (P.markedMembers d ms).map (List.map Prod.fst) = P.members d ms
  | [], d => rfl
  | (k, v) :: ms, d => by
    simp only [Printer.markedMembers, Printer.members, List.map_cons, List.map_append, tagged_fst, markedLiteral_fst]
    rw [marked_fst v, markedMembers_fst ms]
end

/-! ## The states of the serializer -/

/-- The stream after a marked text was written to it. -/
def StreamAt (G : List (Nat × Bool)) (o : OStream) : Prop :=
  o = ⟨G.map Prod.fst, false⟩ ∨ (o.failb = true ∧ MarkedArrived G o.out)

/-- A state in which `G` was written, at depth `d`; see `Is`. -/
structure IsTo (A : DumpArgs F) (d : Nat) (b : Bool) (t : Token) (G : List (Nat × Bool)) (s : Ser) : Prop where
  os : StreamAt G s.os
  began : s.began = b
  last : s.last = t
  ind : IndOk A d s.ind

variable {d : Nat} {b : Bool} {t : Token} {G : List (Nat × Bool)} {s : Ser}

theorem streamAt_offer {o : OStream} (h : StreamAt G o) (cs : List Nat) : StreamAt (G ++ tagged false cs) (o.offer K cs) := by
  have hq : ∀ l : List Nat, ∀ c ∈ tagged false l, c.2 = false := by
    intro l c hc
    obtain ⟨x, _, rfl⟩ := List.mem_map.1 hc
    rfl
  rcases h with rfl | ⟨h1, x, y, h2, h3, h4⟩
  · unfold OStream.offer
    simp only [Bool.false_eq_true, if_false]
    split
    · left; rw [List.map_append, tagged_fst]
    · refine .inr ⟨rfl, G ++ tagged false (cs.take (K (G.map Prod.fst) cs)), tagged false (cs.drop (K (G.map Prod.fst) cs)), ?_, ?_, hq _⟩
      · rw [List.append_assoc, ← tagged_append, List.take_append_drop]
      · rw [List.map_append, tagged_fst]
  · have : o.offer K cs = o := by unfold OStream.offer; rw [if_pos h1]
    rw [this]
    refine .inr ⟨h1, x, y ++ tagged false cs, by rw [h2, List.append_assoc], h3, fun c hc => ?_⟩
    exact (List.mem_append.1 hc).elim (h4 c) (hq _ c)

theorem to_output (h : IsTo A d b t G s) (cs : List Nat) : ∃ s', Wr (outputTo K cs) s s' ∧ IsTo A d b t (G ++ tagged false cs) s' :=
  ⟨_, rfl, streamAt_offer h.os cs, h.began, h.last, h.ind⟩

theorem to_newline (h : IsTo A d b t G s) : ∃ s', Wr (newlineTo A K) s s' ∧ IsTo A d b t (G ++ tagged false A.style.nl) s' := by
  unfold newlineTo Style.nl DumpArgs.style
  simp only
  split
  · exact to_output h _
  · exact ⟨s, rfl, by simpa [tagged] using h⟩

theorem to_outputIndent (h : IsTo A d b t G s) :
    ∃ s', Wr (outputIndentTo A K) s s' ∧ IsTo A d b t (G ++ tagged false (A.style.indent d)) s' := by
  unfold outputIndentTo Style.indent DumpArgs.style
  simp only
  by_cases hp : A.pretty = true
  · rw [if_pos hp]
    by_cases hc : s.ind.ch ≠ 0 ∧ s.ind.step > 0 ∧ s.ind.depth > 0
    · have h0 : A.ch ≠ 0 := h.ind.ch ▸ hc.1
      rw [if_pos ⟨hp, h0⟩]
      refine ⟨{ s with os := s.os.offer K (List.replicate (d % 65536 * A.step) A.ch) }, ?_, streamAt_offer h.os _, h.began, h.last, h.ind⟩
      unfold Wr
      rw [get_bind]
      rw [if_pos hc]
      unfold writeIndentTo
      rw [h.ind.depth, h.ind.step, chars_ok h.ind h0]
    · refine ⟨s, ?_, ?_⟩
      · unfold Wr
        rw [get_bind]
        rw [if_neg hc]; rfl
      · have he : (if A.pretty = true ∧ A.ch ≠ 0 then List.replicate (d % 65536 * A.step) A.ch else []) = [] := by
          split
          · rename_i h2
            rw [h.ind.ch, h.ind.step, h.ind.depth] at hc
            have : d % 65536 = 0 ∨ A.step = 0 := by
              rcases Nat.eq_zero_or_pos (d % 65536) with h3 | h3
              · exact Or.inl h3
              · rcases Nat.eq_zero_or_pos A.step with h4 | h4
                · exact Or.inr h4
                · exact absurd ⟨h2.2, h4, h3⟩ hc
            rcases this with h3 | h3 <;> simp [h3]
          · rfl
        rw [he]; simpa [tagged] using h
  · rw [if_neg hp, if_neg (fun h => hp h.1)]
    exact ⟨s, rfl, by simpa [tagged] using h⟩

theorem to_outputIndent1 (h : IsTo A d b t G s) :
    ∃ s', Wr (outputIndent1To A K) s s' ∧ IsTo A d b t (G ++ tagged false A.style.space) s' := by
  unfold outputIndent1To Style.space DumpArgs.style
  simp only
  split
  · refine ⟨{ s with ind := s.ind.reserve 1, os := s.os.offer K [A.ch] }, ?_, streamAt_offer h.os _, h.began, h.last, h.ind.reserve 1⟩
    unfold Wr
    rw [modify_bind]
    unfold writeIndentTo
    have hc : (s.ind.reserve 1).chars 1 = some [A.ch] := by
      by_cases h0 : A.ch = 0
      · rw [reserve_nul _ (h.ind.ch.trans h0)]
        unfold Indent.chars
        rw [h.ind.nul h0, h0]; rfl
      · obtain ⟨n, hn, _⟩ := h.ind.buf h0
        obtain ⟨m, hm, _, hl⟩ := reserve_buf 1 h.ind.ch h0 hn
        unfold Indent.chars
        rw [hm, if_pos (by simp)]
        obtain ⟨m, rfl⟩ : ∃ k, m = k + 1 := ⟨m - 1, by omega⟩
        simp [List.replicate_succ]
    simp only [hc]
  · exact ⟨s, rfl, by simpa [tagged] using h⟩

theorem to_began {tk : Token} (h : IsTo A d b t G s) :
    ∃ s', Wr (nextBeganTo A K tk) s s' ∧ IsTo A d false t (G ++ tagged false (if b && startsValue tk then A.style.nl else [])) s' := by
  unfold nextBeganTo
  have hb := h.began
  cases b with
  | false =>
    refine ⟨s, ?_, by simpa [tagged] using h⟩
    unfold Wr
    rw [gets_bind, hb]
    rfl
  | true =>
    have h1 : IsTo A d false t G { s with began := false } := ⟨h.os, rfl, h.last, h.ind⟩
    cases hs : startsValue tk with
    | true =>
      obtain ⟨s', h2, h3⟩ := to_newline (K := K) h1
      refine ⟨s', ?_, by simpa using h3⟩
      unfold Wr
      rw [gets_bind, hb]
      exact Wr.bind (s' := { s with began := false }) rfl h2
    | false =>
      refine ⟨_, ?_, by simpa [tagged] using h1⟩
      unfold Wr
      rw [gets_bind, hb]
      rfl

theorem to_indent {tk : Token} (h : IsTo A d b t G s) :
    ∃ s', Wr (nextIndentTo A K tk) s s' ∧
      IsTo A d b t (G ++ tagged false (if startsValue tk = true ∧ t ≠ .nameSeparator then A.style.indent d else [])) s' := by
  unfold nextIndentTo
  have hl := h.last
  by_cases hc : A.pretty = true ∧ t ≠ .nameSeparator ∧ startsValue tk = true
  · obtain ⟨s', h2, h3⟩ := to_outputIndent (K := K) h
    refine ⟨s', ?_, by rw [if_pos ⟨hc.2.2, hc.2.1⟩]; exact h3⟩
    unfold Wr
    rw [gets_bind, hl]
    rw [if_pos hc]; exact h2
  · refine ⟨s, ?_, ?_⟩
    · unfold Wr
      rw [gets_bind, hl]
      rw [if_neg hc]; rfl
    · have : (if startsValue tk = true ∧ t ≠ .nameSeparator then A.style.indent d else []) = [] := by
        split
        · rename_i h2
          cases hp : A.pretty with
          | true => exact absurd ⟨hp, h2.2, h2.1⟩ hc
          | false => exact indent_plain (by exact hp) d
        · rfl
      rw [this]; simpa [tagged] using h

theorem to_next {tk : Token} {d' : Nat} {b' : Bool} {cs : List Nat} (h : IsTo A d b t G s)
    (ho : ∀ s1 G1, IsTo A d false t G1 s1 → ∃ s2, Wr (nextOutputTo A K tk) s1 s2 ∧ IsTo A d' b' t (G1 ++ tagged false cs) s2) :
    ∃ s', Wr (nextTo A K tk) s s' ∧
      IsTo A d' b' tk (G ++ tagged false (if startsValue tk then pre A.style d b t else []) ++ tagged false cs) s' := by
  obtain ⟨s1, h1, i1⟩ := to_began (K := K) (tk := tk) h
  obtain ⟨s2, h2, i2⟩ := to_indent (K := K) (tk := tk) i1
  obtain ⟨s3, h3, i3⟩ := ho _ _ i2
  refine ⟨{ s3 with last := tk }, h1.bind (h2.bind (h3.bind rfl)), ?_, i3.began, rfl, i3.ind⟩
  have := i3.os
  show StreamAt _ s3.os
  unfold pre
  revert this
  cases startsValue tk <;> cases b <;> by_cases ht : t = .nameSeparator <;> simp [ht, tagged]

/-! ## Strings -/

theorem ends_check {s : Ser} {cs : List Nat} (h : IsTo A d b t (G ++ tagged false cs) s) :
    Ends (((M.gets fun s => s.os.good) >>= fun g => if g = true then pure () else M.throw .serialization : M Ser Unit) s)
      (fun s' => IsTo A d b t (G ++ tagged true cs) s') (fun _ => True) := by
  rw [gets_bind]
  cases hg : s.os.good with
  | false => trivial
  | true =>
    show IsTo A d b t (G ++ tagged true cs) s
    refine ⟨?_, h.began, h.last, h.ind⟩
    rcases h.os with h1 | ⟨h1, _⟩
    · left
      rw [h1, List.map_append, List.map_append, tagged_fst, tagged_fst]
    · unfold OStream.good at hg
      rw [h1] at hg
      cases hg

theorem streamAt_fold (cs : List Nat) : ∀ {G : List (Nat × Bool)} {o : OStream}, StreamAt G o →
    StreamAt (G ++ tagged false cs) (cs.foldl (fun o c => o.offer K [c]) o) := by
  induction cs with
  | nil => intro G o h; simpa [tagged] using h
  | cons c cs ih =>
    intro G o h
    have := ih (streamAt_offer (K := K) h [c])
    rw [List.foldl_cons]
    simpa [tagged] using this

theorem to_putOther (H : Prints A P) (h : IsTo A d b t G s) {c : Nat} (hc : shortEscape c = none) :
    Ends (putOtherTo A K c s) (fun s' => IsTo A d b t (G ++ tagged true (charText P.uesc P.enc c)) s') (fun _ => True) := by
  have hct : charText P.uesc P.enc c = if Escaped A.uesc c then uniEscape c else P.enc c := by
    unfold charText; rw [hc, H.uesc]
  rw [hct]
  unfold putOtherTo
  by_cases he : Escaped A.uesc c
  · have he' : c ≤ 0x1F ∨ (A.uesc = true ∧ c ≥ 0x7F) := by
      rcases he with he | he
      · exact Or.inl (by omega)
      · exact Or.inr he
    rw [if_pos he, if_pos he']
    by_cases hb : c ≤ 0xFFFF
    · rw [if_pos hb]
      have hm : c % 65536 = c := by omega
      have hu : hexText 2 (c % 65536) = uniEscape c := by
        rw [hm, hexText_short (by omega)]
        unfold uniEscape
        rw [if_pos (by omega)]
      rw [hu]
      obtain ⟨s', h1, h2⟩ := to_output (K := K) h (uniEscape c)
      exact Ends.after h1 (ends_check h2)
    · rw [if_neg hb]
      obtain ⟨s1, h1, i1⟩ := to_output (K := K) h (hexText 4 (encodeSurrogates c).1)
      obtain ⟨s2, h2, i2⟩ := to_output (K := K) i1 (hexText 4 (encodeSurrogates c).2)
      rw [List.append_assoc, ← tagged_append, uniEscape_pair (by omega)] at i2
      exact Ends.after h1 (Ends.after h2 (ends_check i2))
  · have he' : ¬ (c ≤ 0x1F ∨ (A.uesc = true ∧ c ≥ 0x7F)) := by
      rintro (h1 | h1)
      · exact he (Or.inl (by omega))
      · exact he (Or.inr h1)
    rw [if_neg he, if_neg he']
    rw [modify_bind]
    have hu := encode_units A.te A.tw (.ofString []) rfl c
    cases hs : storeWith (A.te.encode A.tw) [c] with
    | some u =>
      rw [hs] at hu
      simp only at hu
      have hi : IsTo A d b t (G ++ tagged false (P.enc c)) { s with os := A.te.offer A.tw K s.os c } := by
        refine ⟨?_, h.began, h.last, h.ind⟩
        show StreamAt _ (A.te.offer A.tw K s.os c)
        unfold Enc.offer
        rw [hu, H.enc c u hs]
        exact streamAt_fold u h.os
      exact ends_check hi
    | none =>
      rw [hs] at hu
      simp only at hu
      have hf : (A.te.offer A.tw K s.os c).failb = true := by
        unfold Enc.offer
        rw [if_pos hu]
        rfl
      have : Ends (((M.gets fun s => s.os.good) >>= fun g => if g = true then pure () else M.throw .serialization : M Ser Unit)
          { s with os := A.te.offer A.tw K s.os c }) (fun s' => IsTo A d b t (G ++ tagged true (P.enc c)) s') (fun _ => True) := by
        rw [gets_bind]
        simp only [OStream.good, hf]
        trivial
      exact this

theorem to_putCp (H : Prints A P) (h : IsTo A d b t G s) (c : Nat) :
    Ends (putCpTo A K c s) (fun s' => IsTo A d b t (G ++ tagged (shortEscape c).isNone (charText P.uesc P.enc c)) s') (fun _ => True) := by
  have short : ∀ e, shortEscape c = some e → Ends (outputTo K [0x5C, e] s)
      (fun s' => IsTo A d b t (G ++ tagged (shortEscape c).isNone (charText P.uesc P.enc c)) s') (fun _ => True) := by
    intro e he
    obtain ⟨s', h1, h2⟩ := to_output (K := K) h [0x5C, e]
    refine .of_wr h1 ?_
    unfold charText; rw [he]; exact h2
  unfold putCpTo
  split
  · exact short _ (by subst c; rfl)
  split
  · exact short _ (by subst c; rfl)
  split
  · exact short _ (by subst c; rfl)
  split
  · exact short _ (by subst c; rfl)
  split
  · exact short _ (by subst c; rfl)
  split
  · exact short _ (by subst c; rfl)
  split
  · exact short _ (by subst c; rfl)
  · have hn : shortEscape c = none := by
      unfold shortEscape
      simp [*]
    have := to_putOther (K := K) H h hn
    rw [hn]
    exact this

theorem to_stringLoop (H : Prints A P) {iss : IStream StrBuf} {l : List (Option Nat)}
    (hl : Delivers (A.se.decode A.sw (strSBuf A.sw)) iss l) (n : Nat) (hn : l.length < n) (s : Ser) (G : List (Nat × Bool))
    (h : IsTo A d b t G s) :
    Ends (stringLoopTo A K n iss s)
      (fun s' => ∃ cps : List Nat, l = cps.map some ∧
        IsTo A d b t (G ++ cps.flatMap (fun c => tagged (shortEscape c).isNone (charText P.uesc P.enc c))) s')
      (fun _ => True) := by
  induction hl generalizing n s G with
  | done hd =>
    obtain ⟨n, rfl⟩ : ∃ m, n = m + 1 := ⟨n - 1, by omega⟩
    unfold stringLoopTo
    simp only [hd]
    exact ⟨[], rfl, by simpa using h⟩
  | bad hd hg =>
    obtain ⟨n, rfl⟩ : ∃ m, n = m + 1 := ⟨n - 1, by omega⟩
    unfold stringLoopTo
    simp only [hd, hg, if_true]
    trivial
  | @more iss cp iss' l hd hg _ ih =>
    obtain ⟨n, rfl⟩ : ∃ m, n = m + 1 := ⟨n - 1, by omega⟩
    unfold stringLoopTo
    simp only [hd, hg, if_true]
    refine Ends.bind (to_putCp H h cp) (fun _ _ => trivial) ?_
    intro s' hi
    refine (ih n (by simp at hn; omega) s' _ hi).imp ?_ (fun _ _ => trivial)
    rintro s'' ⟨cps, rfl, h3⟩
    exact ⟨cp :: cps, rfl, by simpa using h3⟩

theorem to_putString (H : Prints A P) (h : IsTo A d b t G s) (k : List Nat) :
    Ends (putStringTo A K k s) (fun s' => IsTo A d b t (G ++ P.markedLiteral k) s') (fun _ => True) := by
  unfold putStringTo
  obtain ⟨s1, h1, i1⟩ := to_output (K := K) h [0x22]
  have hd := itemsOf_delivers A.se A.sw k
  have hl := itemsOf_length A.se A.sw k
  refine Ends.after h1 (Ends.bind (to_stringLoop H hd (k.length + 1) (by omega) s1 _ i1) (fun _ _ => trivial) ?_)
  rintro s2 ⟨cps, hc, i2⟩
  obtain ⟨s3, h3, i3⟩ := to_output (K := K) i2 [0x22]
  rw [hc] at hd
  have hr := readsAs_of_delivers hd
  refine .of_wr h3 ?_
  unfold Printer.markedLiteral
  rw [H.txt k cps hr]
  simpa using i3

/-! ## Tokens -/

theorem to_scalar {tk : Token} {cs : List Nat} (h : IsTo A d b t G s) (hs : startsValue tk = true)
    (ho : nextOutputTo A K tk = outputTo K cs ∨ (nextOutputTo A K tk = pure () ∧ cs = [])) :
    ∃ s', Wr (nextTo A K tk) s s' ∧ IsTo A d false tk (G ++ tagged false (pre A.style d b t) ++ tagged false cs) s' := by
  have := to_next (K := K) (tk := tk) (d' := d) (b' := false) (cs := cs) h (by
    intro s1 out1 h1
    rcases ho with ho | ⟨ho, rfl⟩
    · rw [ho]; exact to_output h1 cs
    · rw [ho]; exact ⟨s1, rfl, by simpa [tagged] using h1⟩)
  rwa [hs, if_pos rfl] at this

theorem to_open {tk : Token} {c : Nat} (h : IsTo A d b t G s) (hs : startsValue tk = true) (ho : nextOutputTo A K tk = openingTo K c) :
    ∃ s', Wr (nextTo A K tk) s s' ∧ IsTo A (d + 1) true tk (G ++ tagged false (pre A.style d b t) ++ tagged false [c]) s' := by
  have := to_next (K := K) (tk := tk) (d' := d + 1) (b' := true) (cs := [c]) h (by
    intro s1 out1 h1
    rw [ho]
    obtain ⟨s2, h2, i2⟩ := to_output (K := K) h1 [c]
    exact ⟨_, h2.bind rfl, i2.os, rfl, i2.last, i2.ind.inc⟩)
  rwa [hs, if_pos rfl] at this

theorem to_close {tk : Token} {c : Nat} (h : IsTo A (d + 1) b t G s) (hs : startsValue tk = false)
    (ho : nextOutputTo A K tk = closingTo A K c) :
    ∃ s', Wr (nextTo A K tk) s s' ∧
      IsTo A d false tk (G ++ tagged false A.style.nl ++ tagged false (A.style.indent d) ++ tagged false [c]) s' := by
  have := to_next (K := K) (tk := tk) (d' := d) (b' := false) (cs := A.style.nl ++ A.style.indent d ++ [c]) h (by
    intro s1 out1 h1
    rw [ho]
    have i2 : IsTo A d false t out1 { s1 with ind := s1.ind.dec } := ⟨h1.os, h1.began, h1.last, h1.ind.dec⟩
    obtain ⟨s3, h3, i3⟩ := to_newline (K := K) i2
    obtain ⟨s4, h4, i4⟩ := to_outputIndent (K := K) i3
    obtain ⟨s5, h5, i5⟩ := to_output (K := K) i4 [c]
    exact ⟨s5, Wr.bind (s' := { s1 with ind := s1.ind.dec }) rfl (h3.bind (h4.bind h5)), by simpa [tagged_append] using i5⟩)
  rw [hs] at this
  simpa [tagged_append, tagged_nil] using this

theorem to_comma (h : IsTo A d false t G s) :
    ∃ s', Wr (nextTo A K .valueSeparator) s s' ∧ IsTo A d false .valueSeparator (G ++ tagged false [0x2C] ++ tagged false A.style.nl) s' := by
  have := to_next (K := K) (tk := .valueSeparator) (d' := d) (b' := false) (cs := [0x2C] ++ A.style.nl) h (by
    intro s1 out1 h1
    obtain ⟨s3, h3, i3⟩ := to_output (K := K) h1 [0x2C]
    obtain ⟨s4, h4, i4⟩ := to_newline (K := K) i3
    exact ⟨s4, h3.bind h4, by rw [tagged_append, ← List.append_assoc]; exact i4⟩)
  rw [tagged_append] at this
  simpa [startsValue, tagged_nil] using this

theorem to_colon (h : IsTo A d false t G s) :
    ∃ s', Wr (nextTo A K .nameSeparator) s s' ∧ IsTo A d false .nameSeparator (G ++ tagged false [0x3A] ++ tagged false A.style.space) s' := by
  have := to_next (K := K) (tk := .nameSeparator) (d' := d) (b' := false) (cs := [0x3A] ++ A.style.space) h (by
    intro s1 out1 h1
    obtain ⟨s3, h3, i3⟩ := to_output (K := K) h1 [0x3A]
    obtain ⟨s4, h4, i4⟩ := to_outputIndent1 (K := K) i3
    exact ⟨s4, h3.bind h4, by rw [tagged_append, ← List.append_assoc]; exact i4⟩)
  rw [tagged_append] at this
  simpa [startsValue, tagged_nil] using this

/-! ## Values -/

mutual

theorem to_doDump (H : Prints A P) (v : Value F) (d : Nat) (b : Bool) (t : Token) (G : List (Nat × Bool)) (s : Ser)
    (h : IsTo A d b t G s) :
    Ends (doDumpTo A K v s)
      (fun s' => ∃ t', t' ≠ .nameSeparator ∧ IsTo A d false t' (G ++ tagged false (pre A.style d b t) ++ P.marked d v) s')
      (fun _ => True) := by
  match v with
  | .null =>
    obtain ⟨s', h1, h2⟩ := to_scalar (K := K) h (tk := .literalNull) rfl (Or.inl rfl)
    exact .of_wr h1 ⟨_, by decide, h2⟩
  | .bool true =>
    obtain ⟨s', h1, h2⟩ := to_scalar (K := K) h (tk := .literalTrue) rfl (Or.inl rfl)
    exact .of_wr h1 ⟨_, by decide, h2⟩
  | .bool false =>
    obtain ⟨s', h1, h2⟩ := to_scalar (K := K) h (tk := .literalFalse) rfl (Or.inl rfl)
    exact .of_wr h1 ⟨_, by decide, h2⟩
  | .int i =>
    obtain ⟨s', h1, h2⟩ := to_scalar (K := K) h (tk := .valueInteger) rfl (Or.inr ⟨rfl, rfl⟩)
    obtain ⟨s'', h3, h4⟩ := to_output (K := K) h2 (decText i)
    refine .of_wr (h1.bind h3) ⟨.valueInteger, by decide, ?_⟩
    simp only [Printer.marked, H.num]
    simpa [tagged_nil] using h4
  | .flt f =>
    obtain ⟨s', h1, h2⟩ := to_scalar (K := K) h (tk := .valueFloat) rfl (Or.inr ⟨rfl, rfl⟩)
    unfold doDumpTo
    refine Ends.after h1 ?_
    unfold putFloatTo
    cases hi : A.fo.isIntegral f with
    | false =>
      rw [if_neg (by simp)]
      obtain ⟨s'', h3, h4⟩ := to_output (K := K) h2 (A.fo.fmt f)
      refine .of_wr h3 ⟨.valueFloat, by decide, ?_⟩
      simp only [Printer.marked, H.flt f hi]
      simpa [tagged_nil] using h4
    | true =>
      rw [if_pos rfl]
      cases hc : A.fo.toI64 f with
      | none => trivial
      | some i =>
        obtain ⟨s3, h3, i3⟩ := to_output (K := K) h2 (decText i)
        obtain ⟨s4, h4, i4⟩ := to_output (K := K) i3 [0x2E, 0x30]
        refine .of_wr (h3.bind h4) ⟨.valueFloat, by decide, ?_⟩
        simp only [Printer.marked, H.intFlt f i hi hc, tagged_append]
        simpa [tagged_nil] using i4
  | .str k =>
    obtain ⟨s', h1, h2⟩ := to_scalar (K := K) h (tk := .valueString) rfl (Or.inr ⟨rfl, rfl⟩)
    unfold doDumpTo
    refine Ends.after h1 ((to_putString H h2 k).imp ?_ (fun _ _ => trivial))
    intro s2 i2
    refine ⟨.valueString, by decide, ?_⟩
    simp only [Printer.marked]
    simpa [tagged_nil] using i2
  | .arr xs =>
    obtain ⟨s1, h1, i1⟩ := to_open (K := K) h (tk := .beginArray) rfl rfl
    unfold doDumpTo
    refine Ends.after h1 (Ends.bind (to_dumpElems H xs (d + 1) true .beginArray _ s1 (by decide) i1) (fun _ _ => trivial) ?_)
    rintro s2 ⟨b', t', ht', i2⟩
    obtain ⟨s3, h3, i3⟩ := to_close (K := K) i2 (tk := .endArray) rfl rfl
    refine .of_wr h3 ⟨.endArray, by decide, ?_⟩
    simp only [Printer.marked, Printer.markedBlock, H.style]
    cases xs with
    | nil => simpa [Printer.markedElems] using i3
    | cons x xs => simpa [Printer.markedElems, H.style] using i3
  | .obj ms =>
    obtain ⟨s1, h1, i1⟩ := to_open (K := K) h (tk := .beginObject) rfl rfl
    unfold doDumpTo
    refine Ends.after h1 (Ends.bind (to_dumpMembers H ms (d + 1) true .beginObject _ s1 (by decide) i1) (fun _ _ => trivial) ?_)
    rintro s2 ⟨b', t', ht', i2⟩
    obtain ⟨s3, h3, i3⟩ := to_close (K := K) i2 (tk := .endObject) rfl rfl
    refine .of_wr h3 ⟨.endObject, by decide, ?_⟩
    simp only [Printer.marked, Printer.markedBlock, H.style]
    cases ms with
    | nil => simpa [Printer.markedMembers] using i3
    | cons x xs => simpa [Printer.markedMembers, H.style] using i3

theorem to_dumpElems (H : Prints A P) (xs : List (Value F)) (d : Nat) (b : Bool) (t : Token) (G : List (Nat × Bool)) (s : Ser)
    (ht : t ≠ .nameSeparator) (h : IsTo A d b t G s) :
    Ends (dumpElemsTo A K xs s)
      (fun s' => ∃ b' t', t' ≠ .nameSeparator ∧
        IsTo A d b' t' (G ++ if xs = [] then [] else tagged false (if b then A.style.nl else []) ++ P.markedItems d (P.markedElems d xs)) s')
      (fun _ => True) := by
  match xs with
  | [] => exact ⟨b, t, ht, by simpa using h⟩
  | x :: xs =>
    unfold dumpElemsTo
    refine Ends.bind (to_doDump H x d b t G s h) (fun _ _ => trivial) ?_
    rintro s1 ⟨t1, ht1, i1⟩
    rw [pre_sep _ _ ht, tagged_append] at i1
    cases xs with
    | nil =>
      refine ⟨false, t1, ht1, ?_⟩
      simp only [Printer.markedElems, markedItems_cons, H.style]
      simpa using i1
    | cons y ys =>
      obtain ⟨s2, h2, i2⟩ := to_comma (K := K) i1
      refine Ends.after h2 ((to_dumpElems H (y :: ys) d false .valueSeparator _ s2 (by decide) i2).imp ?_ (fun _ _ => trivial))
      rintro s3 ⟨b', t', ht', i3⟩
      refine ⟨b', t', ht', ?_⟩
      simp only [Printer.markedElems, markedItems_cons d _ (_ :: _), H.style] at i3 ⊢
      simpa [tagged_nil] using i3

theorem to_dumpMembers (H : Prints A P) (ms : List (List Nat × Value F)) (d : Nat) (b : Bool) (t : Token) (G : List (Nat × Bool))
    (s : Ser) (ht : t ≠ .nameSeparator) (h : IsTo A d b t G s) :
    Ends (dumpMembersTo A K ms s)
      (fun s' => ∃ b' t', t' ≠ .nameSeparator ∧
        IsTo A d b' t' (G ++ if ms = [] then [] else tagged false (if b then A.style.nl else []) ++ P.markedItems d (P.markedMembers d ms)) s')
      (fun _ => True) := by
  match ms with
  | [] => exact ⟨b, t, ht, by simpa using h⟩
  | (k, v) :: ms =>
    unfold dumpMembersTo
    obtain ⟨s1, h1, i1⟩ := to_scalar (K := K) h (tk := .valueString) rfl (Or.inr ⟨rfl, rfl⟩)
    refine Ends.after h1 (Ends.bind (to_putString H i1 k) (fun _ _ => trivial) ?_)
    intro s2 i2
    obtain ⟨s3, h3, i3⟩ := to_colon (K := K) i2
    refine Ends.after h3 (Ends.bind (to_doDump H v d false .nameSeparator _ s3 i3) (fun _ _ => trivial) ?_)
    rintro s4 ⟨t4, ht4, i4⟩
    rw [pre_sep _ _ ht, tagged_append] at i4
    cases ms with
    | nil =>
      refine ⟨false, t4, ht4, ?_⟩
      simp only [Printer.markedMembers, markedItems_cons, H.style]
      simpa [pre, tagged_nil] using i4
    | cons y ys =>
      obtain ⟨s5, h5, i5⟩ := to_comma (K := K) i4
      refine Ends.after h5 ((to_dumpMembers H (y :: ys) d false .valueSeparator _ s5 (by decide) i5).imp ?_ (fun _ _ => trivial))
      rintro s6 ⟨b', t', ht', i6⟩
      refine ⟨b', t', ht', ?_⟩
      obtain ⟨yk, yv⟩ := y
      simp only [Printer.markedMembers, markedItems_cons d _ (_ :: _), H.style] at i6 ⊢
      simpa [pre, tagged_nil] using i6

end

/-- What a call of `json::dump` that returns has written. -/
theorem dumpTo_arrived (H : Prints A P) (K : Sink) (v : Value F) (hr : (jsonDumpTo A K none v).1 = .ok ()) :
    MarkedArrived (P.marked 0 v) (jsonDumpTo A K none v).2.1 := by
  have hi : IsTo A 0 false .uninitialized [] (init A []) := ⟨.inl rfl, rfl, rfl, indOk_make A⟩
  have h2 : Ends ((do doDumpTo A K v; nextTo A K .endOfInput : M Ser Unit) (init A []))
      (fun s' => StreamAt (P.marked 0 v) s'.os) (fun _ => True) := by
    refine Ends.bind (to_doDump H v 0 false .uninitialized [] _ hi) (fun _ h => h) ?_
    rintro s1 ⟨t', ht', i1⟩
    obtain ⟨s2, h2, i2⟩ := to_next (K := K) (tk := .endOfInput) (d' := 0) (b' := false) (cs := []) i1 (by
      intro s1 out1 h1
      exact ⟨s1, rfl, by simpa [tagged_nil] using h1⟩)
    refine .of_wr h2 ?_
    have : pre A.style 0 false .uninitialized = [] := by
      unfold pre Style.indent; simp
    have h3 := i2.os
    simpa [startsValue, this, tagged_nil] using h3
  have done : ∀ {o : OStream}, StreamAt (P.marked 0 v) o → MarkedArrived (P.marked 0 v) o.out := by
    rintro o (rfl | ⟨_, h⟩)
    · exact ⟨_, [], by simp, rfl, by simp⟩
    · exact h
  unfold jsonDumpTo dumpTo at hr ⊢
  rcases hx : (do doDumpTo A K v; nextTo A K .endOfInput : M Ser Unit) (init A []) with ⟨e | _, s'⟩
  · rw [hx] at hr
    cases e <;> cases hr
  · rw [hx] at h2
    exact done h2

end Configor
