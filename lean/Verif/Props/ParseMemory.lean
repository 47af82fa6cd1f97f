import Verif.Proofs.NoEscape
import Verif.Spec.ParseMemory
import Verif.Props.Heap
import Verif.Props.Stream
import Verif.Props.ParserText
/-!
# Parsing into memory: C106, C107

`Holds s E L`: the variables have the contents `E`, each block belongs to one place, and just the blocks in `L` to none.
`parseFromH A B n h room k x p b` is `parse(c, is, options)` where `c` is the part at path `p` of variable `x`; its local
values are variables from number `k` on. `parseFrom` is the same call on trees. `room t` is the length to which a string can
grow whose allocation is the `t`-th and fails.
-/
set_option autoImplicit false
namespace Configor.Props
open Spec

variable {F σ : Type}

/-! ## Helpers -/

theorem seen_givenUp {h : Option Handler} {e : Err} (he : Oom e) : GivenUp h (seen h e) := by
  refine ⟨e, he, ?_⟩
  cases h with
  | none => exact .inl rfl
  | some h =>
    simp only [seen]
    split
    · next hw => exact .inr ⟨rfl, h, rfl, hw⟩
    · exact .inl rfl

theorem env_free {E : Env F} {k : Nat} (hk : ∀ j, k ≤ j → E j = none) : Free E.all k := ⟨all_quiet E, fun j hj => hk j hj⟩

/-- The call, for any knowledge `I` about the source. -/
theorem parseFromH_holds (A : ParseArgs F) (B : SBuf σ) (n : Nat) (h : Option Handler) (room : Nat → Nat) {I : Lex (IStream σ) F → Prop}
    (hI : Calm (A.cfg B n) I) {s : State F} {E : Env F} {L : Nat → Prop} (hs : Holds s E L) {x : Nat} {p : List Nat} {u : Value F}
    (hx : E.get ⟨x, p⟩ = some u) {k : Nat} (hk : ∀ j, k ≤ j → E j = none) (b : σ) :
    ∃ r s' w L', parseFromH A B n h room k x p b s = (r, s') ∧ (s'.heap.plan = s.heap.plan ∧ s.heap.tick ≤ s'.heap.tick) ∧ Holds s' (E.set ⟨x, p⟩ w) L' ∧
      ((NoFailure s s' ∧ (r, w) = parseFrom A B n h u b ∧ L' = L) ∨
       (¬ NoFailure s s' ∧ LosesOnlyUnused s' L L' ∧
        (GivenUp h r ∨ (r = (parseFrom A B n h u b).1 ∧ (I (Lex.init (.ofBuf b) (A.fo.ofInt 0)) → w = (parseFrom A B n h u b).2))))) := by
  obtain ⟨fp, o, hL⟩ := holds_iff.1 hs
  obtain ⟨l, c, hat⟩ := o.vat (x := .user x) (p := p) hx
  have e : parseFromH A B n h room k x p b s =
      ((parseH (A.cfg B n) room n k h l (Lex.init (.ofBuf b) (A.fo.ofInt 0)) s).1,
       (parseH (A.cfg B n) room n k h l (Lex.init (.ofBuf b) (A.fo.ofInt 0)) s).2.2) := by
    simp only [parseFromH]
    exact M.bind_ok hat.ref
  obtain ⟨u', fp', o', g⟩ := parseH_goes hI (A.te.sticky A.tw) room n k h (Lex.init (.ofBuf b) (A.fo.ofInt 0)) o (env_free hk) hat (u := u) hx
  generalize parseH (A.cfg B n) room n k h l (Lex.init (.ofBuf b) (A.fo.ofInt 0)) s = R at e o' g
  have hset : (E.set ⟨x, p⟩ u').all = vset E.all (.user x) p u' := all_set E ⟨x, p⟩ u'
  have well : ∀ {st : State F} {fp2}, Well s fp st fp2 → NoFailure s st ∧ (fun a => Leaked st fp2 a) = L := fun w =>
    ⟨w.good, funext fun a => propext ((w.leaked a).trans (hL a).symm)⟩
  have ill : ∀ {st : State F} {fp2}, Ill s fp st fp2 → ¬ NoFailure s st ∧ LosesOnlyUnused st L (fun a => Leaked st fp2 a) := by
    intro st fp2 i
    refine ⟨?_, fun a ha => i.old a ((hL a).1 ha), fun a ha => ?_⟩
    · obtain ⟨t, h1, h2, h3⟩ := i.failed
      intro hn
      rw [hn t h1 h2] at h3
      cases h3
    · rcases i.new a ha with h1 | h1
      · exact .inl ((hL a).2 h1)
      · exact .inr h1.2
  have pt : R.2.2.heap.plan = s.heap.plan ∧ s.heap.tick ≤ R.2.2.heap.tick := by
    rcases g with ⟨i, _⟩ | ⟨⟨w, _⟩ | ⟨i, _⟩, _⟩
    · exact ⟨i.plan, i.tick⟩
    · exact ⟨w.plan, w.tick⟩
    · exact ⟨i.plan, i.tick⟩
  refine ⟨_, _, u', fun a => Leaked R.2.2 fp' a, e, pt, holds_iff.2 ⟨fp', by rw [hset]; exact o', fun _ => .rfl⟩, ?_⟩
  rcases g with ⟨i, er, he, e1⟩ | ⟨⟨w, e1⟩ | ⟨i, e1⟩, e2⟩
  · refine .inr ⟨(ill i).1, (ill i).2, .inl ?_⟩
    rw [e1]
    exact seen_givenUp he
  · exact .inl ⟨(well w).1, by simp only [parseFrom]; rw [e1, e2], (well w).2⟩
  · exact .inr ⟨(ill i).1, (ill i).2, .inr ⟨e2, e1⟩⟩

/-! ## C106 -/

/-- C106. Parsing into a value, which may be part of a larger one. Afterwards this value has some content, everything else
in the variables is as before, each block still has one owner, and no local value is left behind. If no allocation failed,
the call ended as on trees (also if with an error) with the same content, and no memory was lost. If one failed, the call
was given up or ended as on trees, and only memory was lost that was allocated and never used. -/
theorem C106_parse_in_memory (A : ParseArgs F) (B : SBuf σ) (n : Nat) (h : Option Handler) (room : Nat → Nat)
    {s : State F} {E : Env F} {L : Nat → Prop} (hs : Holds s E L) {x : Nat} {p : List Nat} {u : Value F}
    (hx : E.get ⟨x, p⟩ = some u) {k : Nat} (hk : ∀ j, k ≤ j → E j = none) (b : σ) :
    ∃ r s' w L', parseFromH A B n h room k x p b s = (r, s') ∧ Holds s' (E.set ⟨x, p⟩ w) L' ∧
      ((NoFailure s s' ∧ (r, w) = parseFrom A B n h u b ∧ L' = L) ∨
       (¬ NoFailure s s' ∧ LosesOnlyUnused s' L L' ∧ (GivenUp h r ∨ r = (parseFrom A B n h u b).1))) := by
  obtain ⟨r, s', w, L', h1, _, h2, h3⟩ := parseFromH_holds A B n h room calm_false hs hx hk b
  refine ⟨r, s', w, L', h1, h2, ?_⟩
  rcases h3 with h3 | ⟨h3, h4, h5⟩
  · exact .inl h3
  · refine .inr ⟨h3, h4, ?_⟩
    rcases h5 with h5 | h5
    · exact .inl h5
    · exact .inr h5.1

/-- C106. `value x = parse(is, options)`: the new variable gets the content, and if the call throws it is gone again. -/
theorem C106_parse_new (A : ParseArgs F) (B : SBuf σ) (n : Nat) (h : Option Handler) (room : Nat → Nat)
    {s : State F} {E : Env F} {L : Nat → Prop} (hs : Holds s E L) {x : Nat} (hx : E x = none) {k : Nat} (hxk : x < k)
    (hk : ∀ j, k ≤ j → E j = none) (b : σ) :
    ∃ r s' w L', parseNewH A B n h room k x b s = (r, s') ∧ Holds s' (if r = .ok () then E.bind x (some w) else E) L' ∧
      ((NoFailure s s' ∧ (r, w) = parseFrom A B n h .null b ∧ L' = L) ∨
       (¬ NoFailure s s' ∧ LosesOnlyUnused s' L L' ∧ (GivenUp h r ∨ r = (parseFrom A B n h .null b).1))) := by
  obtain ⟨fp, o, hL⟩ := holds_iff.1 hs
  have o1 := o.null (t := .user x) hx
  have hs1 : Holds { s with vars := upd s.vars (.user x) (some .null) } (E.bind x (some .null)) L :=
    holds_iff.2 ⟨fp, by rw [all_bind]; exact o1, hL⟩
  obtain ⟨r, s', w, L', e1, ⟨hp, ht⟩, h2, h3⟩ := parseFromH_holds A B n h room calm_false hs1 (x := x) (p := []) (u := .null)
    (by simp [Env.get, Env.bind, part]) (k := k) (by intro j hj; simp only [Env.bind, if_neg (show ¬ j = x by omega)]; exact hk j hj) b
  have hset : (E.bind x (some .null)).set ⟨x, []⟩ w = E.bind x (some w) := by
    funext y
    simp only [Env.set, Env.bind]
    split <;> simp [replace]
  rw [hset] at h2
  have e2 : State.declare (.user x) .null s = (.ok (), { s with vars := upd s.vars (.user x) (some .null) }) := rfl
  have h4 : (NoFailure s s' ∧ (r, w) = parseFrom A B n h .null b ∧ L' = L) ∨
       (¬ NoFailure s s' ∧ LosesOnlyUnused s' L L' ∧ (GivenUp h r ∨ r = (parseFrom A B n h .null b).1)) := by
    rcases h3 with h3 | ⟨h3, h4, h5⟩
    · exact .inl h3
    · refine .inr ⟨h3, h4, ?_⟩
      rcases h5 with h5 | h5
      · exact .inl h5
      · exact .inr h5.1
  cases r with
  | ok a =>
    refine ⟨.ok (), s', w, L', ?_, by simpa using h2, h4⟩
    simp only [parseNewH]
    refine (M.bind_ok e2).trans ?_
    simp only [e1]
  | error er =>
    obtain ⟨fp2, o2, hL2⟩ := holds_iff.1 h2
    rw [all_bind] at o2
    obtain ⟨s3, e3, o3, w3⟩ := o2.destruct_well (t := .user x) (w := w) (upd_eq _ _ _)
    have hE : upd (upd E.all (.user x) (some w)) (.user x) none = E.all := by
      rw [upd_same, ← show E.all (.user x) = none from hx, upd_self]
    rw [hE] at o3
    refine ⟨.error er, s3, w, L', ?_, ?_, ?_⟩
    · simp only [parseNewH]
      refine (M.bind_ok e2).trans ?_
      simp only [e1, e3]
    · simp only [reduceCtorEq, if_false]
      exact holds_iff.2 ⟨_, o3, fun a => (hL2 a).trans (w3.leaked a).symm⟩
    · have nf : NoFailure s s3 ↔ NoFailure s s' := by
        constructor
        · intro hn t h1 h2
          exact hn t h1 (Nat.lt_of_lt_of_le h2 w3.tick)
        · intro hn t h1 h2
          rcases Nat.lt_or_ge t s'.heap.tick with h5 | h5
          · exact hn t h1 h5
          · have := w3.good t h5 h2
            rw [hp] at this
            exact this
      rw [nf]
      rcases h4 with h4 | ⟨h4, ⟨h5, h6⟩, h7⟩
      · exact .inl h4
      · refine .inr ⟨h4, ⟨h5, fun a ha => ?_⟩, h7⟩
        rcases h6 a ha with h8 | h8
        · exact .inl h8
        · exact .inr (w3.raw a ((hL2 a).1 ha) h8)

/-- The hypotheses of both are met: `v0 = [["a"], null]`, `v1 = {}` in memory, parsing `{"k":[1]}` into `v0[0]` or into a new
variable. -/
example : ∃ (s : State Unit) (E : Env Unit), Holds s E nothing ∧ E.get ⟨0, [0]⟩ = some (.arr [.str [97]]) ∧
    (∀ j, 3 ≤ j → E j = none) ∧ E 2 = none ∧
    parseFrom (utf8Args true) (strSBuf 8) 30 none (.arr [.str [97]]) (.ofString (ascii "{\"k\":[1]}")) =
      (.ok (), .obj [(ascii "k", .arr [.int 1])]) := by
  obtain ⟨s, h1, h2, E, h3, h4, h5, h6⟩ := memorySample_reached (utf8Args true).fo
  obtain ⟨E', L, h7, _, h9⟩ := h1.holds
  have := h3.unique h7.shows
  subst this
  have hL : L = nothing := by
    funext a
    refine propext ⟨fun ha => ?_, fun ha => ha.elim⟩
    obtain ⟨t, _, k5⟩ := h9 ⟨a, ha⟩
    rw [h2 t] at k5
    cases k5
  subst hL
  exact ⟨s, E, h7, by simp [Env.get, h4, part, kids], fun j hj => h6 j (by omega), h6 2 (by omega), by decide +kernel⟩

/-! ## C107 -/

/-- A program with one variable, which is null; the third allocation fails. -/
def oneNull : State Unit := { heap := ⟨fun _ => none, 0, fun t => t != 2, 0⟩, vars := upd (fun _ => none) (.user 0) (some .null) }

theorem oneNull_holds : Holds oneNull (fun x => if x = 0 then some .null else none) nothing := by
  refine ⟨fun _ => [], ⟨fun x => ?_, by simp, by simp, by simp [oneNull]⟩, by simp [nothing, oneNull]⟩
  cases x with
  | user n =>
    simp only [oneNull, Env.all, upd, Var.user.injEq]
    split
    · exact ⟨0, rfl⟩
    · rfl
  | _ => simp [oneNull, Env.all, upd, Stands]

/-- The call of the witness. -/
def truncated : Except Stop Unit × State Unit :=
  parseFromH (utf8Args true) (strSBuf 8) 30 none (fun _ => 3) 1 0 [] (.ofString (ascii "\"abc\\n\"")) oneNull

theorem truncated_facts : truncated.1 = .ok () ∧ truncated.2.heap.tick = 3 ∧ truncated.2.heap.next = 1 ∧
    truncated.2.heap.mem 0 = some (.str (ascii "abc")) ∧ truncated.2.vars (.user 0) = some (.str 0) := by
  refine ⟨?_, by decide +kernel, by decide +kernel, ?_, ?_⟩
  · have h : (match truncated.1 with | .ok _ => true | _ => false) = true := by decide +kernel
    revert h
    cases truncated.1 <;> simp
  · have h : (match truncated.2.heap.mem 0 with | some (.str w) => decide (w = ascii "abc") | _ => false) = true := by decide +kernel
    revert h
    rcases truncated.2.heap.mem 0 with _ | (_ | _ | _ | _) <;> simp
  · have h : (match truncated.2.vars (.user 0) with | some (.str a) => decide (a = 0) | _ => false) = true := by decide +kernel
    revert h
    rcases truncated.2.vars (.user 0) with _ | (_ | _ | _ | _ | _ | _ | _) <;> simp

/-- C107 is false: the text `"abc\n"` (with the escape) is parsed, the memory does not suffice for a fourth character, and the
call returns normally with the string `abc`. -/
theorem C107_violated : Holds oneNull (fun x => if x = 0 then some .null else none) nothing ∧
    jsonParse (utf8Args true) none .null (ascii "\"abc\\n\"") = (.ok (), .str (ascii "abc\n")) ∧
    ∃ s', parseFromH (utf8Args true) (strSBuf 8) 30 none (fun _ => 3) 1 0 [] (.ofString (ascii "\"abc\\n\"")) oneNull = (.ok (), s') ∧
      ¬ NoFailure oneNull s' ∧ Holds s' (fun x => if x = 0 then some (.str (ascii "abc")) else none) nothing := by
  refine ⟨oneNull_holds, by decide +kernel, truncated.2, ?_⟩
  obtain ⟨h1, h2, h3, h4, h5⟩ := truncated_facts
  have hE : ∀ j, 1 ≤ j → (fun x : Nat => if x = 0 then some (Value.null : Value Unit) else none) j = none := fun j hj => if_neg (by omega)
  obtain ⟨r, s', w, L', k1, k2, k3⟩ := C106_parse_in_memory (utf8Args true) (strSBuf 8) 30 none (fun _ => 3) oneNull_holds
      (x := 0) (p := []) (u := .null) rfl (k := 1) hE (.ofString (ascii "\"abc\\n\""))
  have k0 : truncated = (r, s') := k1
  rw [k1]
  rw [k0] at h1 h2 h3 h4 h5 ⊢
  simp only at h1 h2 h3 h4 h5 ⊢
  have nf : ¬ NoFailure oneNull s' := by
    intro h
    have := h 2 (by decide) (by omega)
    cases this
  refine ⟨by rw [h1], nf, ?_⟩
  rcases k3 with ⟨k3, _⟩ | ⟨_, ⟨_, k3⟩, _⟩
  · exact absurd k3 nf
  obtain ⟨fp, o, hL⟩ := k2
  have hw : w = .str (ascii "abc") := by
    have := o.stands (.user 0)
    simp only [h5, Env.all, Env.set, if_true, Option.map, replace] at this
    obtain ⟨m, hm⟩ := this
    have key : ∀ fp, Flat s'.heap.mem (.str 0) w fp → w = .str (ascii "abc") := by
      intro fp hf
      cases w with
      | str t =>
        have := hf.1.symm.trans h4
        simp only [Option.some.injEq, Block.str.injEq] at this
        rw [this]
      | _ => exact hf.elim
    cases m with
    | zero => exact key _ hm
    | succ m =>
      rcases hm with hm | ⟨a, b, fps, _, hm, _⟩
      · exact key _ hm
      · cases b <;> exact hm.elim
  subst hw
  have hset : (Env.set (fun x : Nat => if x = 0 then some (Value.null : Value Unit) else none) ⟨0, []⟩ (.str (ascii "abc"))) =
      fun x => if x = 0 then some (.str (ascii "abc")) else none := by
    funext y
    simp only [Env.set]
    split <;> simp [replace]
  rw [hset] at o
  refine ⟨fp, o, fun a => ⟨fun h => h.elim, fun ha => ?_⟩⟩
  have ha' := k3 a ((hL a).2 ha)
  rcases ha' with ha' | ha'
  · exact ha'.elim
  · rcases Nat.eq_zero_or_pos a with rfl | hp
    · rw [h4] at ha'
      cases ha'
    · rw [o.fresh a (by omega)] at ha'
      cases ha'

/-- C107, partial: what is missing from C107 are texts with backslashes. If the decoded text has none, the call was given up,
or it ended as on trees, with the same content. -/
theorem C107_no_wrong_value_partial (A : ParseArgs F) (B : SBuf σ) (n : Nat) (h : Option Handler) (room : Nat → Nat)
    {s : State F} {E : Env F} {L : Nat → Prop} (hs : Holds s E L) {x : Nat} {p : List Nat} {u : Value F}
    (hx : E.get ⟨x, p⟩ = some u) {k : Nat} (hk : ∀ j, k ≤ j → E j = none) {b : σ} {units : List Int} (hb : Delivering B b units)
    {text : List (Option Nat)} (ht : Delivers (A.se.decode A.sw B) (.ofBuf b) text) (hno : some 0x5C ∉ text) :
    ∃ r s' w L', parseFromH A B n h room k x p b s = (r, s') ∧ Holds s' (E.set ⟨x, p⟩ w) L' ∧
      (GivenUp h r ∨ (r, w) = parseFrom A B n h u b) := by
  obtain ⟨R, V, hR⟩ := view_of_holds hb
  have hd := items_delivers A.se A.sw V hR
  have := delivers_unique hd ht
  obtain ⟨r, s', w, L', h1, _, h2, h3⟩ := parseFromH_holds A B n h room (silent_calm (C := A.cfg B n) (silent_canon (e := A.se) (w := A.sw) V)) hs hx hk b
  refine ⟨r, s', w, L', h1, h2, ?_⟩
  rcases h3 with ⟨_, h3, _⟩ | ⟨_, _, h3 | ⟨h3, h4⟩⟩
  · exact .inr h3
  · exact .inl h3
  · refine .inr ?_
    rw [h3, h4 ⟨⟨items (A.se.step A.sw) units, false, false⟩, .inr ⟨rfl, rfl, rfl, rfl, units, hR, rfl⟩, by rw [this]; exact hno⟩]

/-- The hypotheses are met: a file with the text `["ab"]`. -/
example : ∃ text, Delivering (cacheSBuf fgetc) (⟨ascii "[\"ab\"]", 0⟩ : CacheBuf (List Nat)) ((ascii "[\"ab\"]").map Int.ofNat) ∧
    Delivers (Enc.utf8.decode 8 (cacheSBuf fgetc)) (.ofBuf (⟨ascii "[\"ab\"]", 0⟩ : CacheBuf (List Nat))) text ∧ some 0x5C ∉ text := by
  have h := file_holds (ascii "[\"ab\"]") (by decide)
  obtain ⟨R, V, hR⟩ := view_of_holds h
  exact ⟨_, h, items_delivers .utf8 8 V hR, by decide +kernel⟩

end Configor.Props
