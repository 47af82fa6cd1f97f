import Verif.Proofs.Counted
import Verif.Proofs.StackHeap
import Verif.Props.Stack
import Verif.Props.ObjectType
import Verif.Props.Value
import Verif.Props.Heap
import Verif.Props.ParserLit
import Verif.Proofs.ConvertTree
/-!
# How deep the calls of dumping, comparing, copying and destroying nest, and how many comparisons are made: C130, C131

`height v` is the number of values on the longest way from `v` to one of its innermost parts. The functions with `Within` have room
for `n` nested calls and end with `fuel` or `none` if that is not enough.
-/
set_option autoImplicit false
namespace Configor.Props
open Spec

variable {F : Type}

/-! ## C130 -/

theorem height_nest (v : Value F) : nest v ≤ height v ∧ height v ≤ nest v + 1 := by
  have main : ∀ n, ∀ v : Value F, height v ≤ n → nest v ≤ height v ∧ height v ≤ nest v + 1 := by
    intro n
    induction n with
    | zero => intro v h; have := height_pos v; omega
    | succ n ih =>
      intro v h
      cases v with
      | arr xs =>
        simp only [height, nest] at h ⊢
        have : ∀ xs : List (Value F), heightElems xs ≤ n → nestElems xs ≤ heightElems xs ∧ heightElems xs ≤ nestElems xs + 1 := by
          intro xs
          induction xs with
          | nil => intro _; simp [nestElems, heightElems]
          | cons x xs ihx =>
            intro h
            simp only [nestElems, heightElems] at h ⊢
            have h1 := ih x (by omega)
            have h2 := ihx (by omega)
            omega
        have := this xs (by omega)
        omega
      | obj ms =>
        simp only [height, nest] at h ⊢
        have : ∀ ms : List (List Nat × Value F), heightMembers ms ≤ n → nestMembers ms ≤ heightMembers ms ∧ heightMembers ms ≤ nestMembers ms + 1 := by
          intro ms
          induction ms with
          | nil => intro _; simp [nestMembers, heightMembers]
          | cons x ms ihx =>
            intro h
            obtain ⟨k, x⟩ := x
            simp only [nestMembers, heightMembers] at h ⊢
            have h1 := ih x (by omega)
            have h2 := ihx (by omega)
            omega
        have := this ms (by omega)
        omega
      | _ => simp [height, nest]
  exact main _ v (Nat.le_refl _)

/-- `{"a":[[1],2],"b":true}`, for examples. -/
def tall : Value Unit := .obj [([0x61], .arr [.arr [.int 1], .int 2]), ([0x62], .bool true)]

example : height tall = 4 ∧ nest tall = 3 ∧ nodes tall = 6 := by decide +kernel

/-- C130. Dumping takes as many nested calls as the value is high: with that room the call is as without bound, for every
handler, and with less it is not enough for any dump that would end normally. -/
theorem C130_dump (A : DumpArgs F) (v : Value F) (n : Nat) :
    (height v ≤ n → ∀ h str, jsonDumpWithin A n h str v = jsonDump A h str v) ∧
    (n < height v → ∀ str t, jsonDump A none str v = (.ok (), t) → (jsonDumpWithin A n none str v).1 = .error .fuel) := by
  refine ⟨fun hn h str => ?_, fun hn str t hd => ?_⟩
  · unfold jsonDumpWithin jsonDump Serializer.dumpWithin Serializer.dump
    rw [Serializer.doDumpWithin_eq A n v hn]
    rfl
  · have hs := Serializer.Short.left (f := fun _ => Serializer.next A .endOfInput) (f' := fun _ => Serializer.next A .endOfInput)
      (Serializer.doDumpWithin_short A n v hn)
    unfold jsonDump Serializer.dump at hd
    unfold jsonDumpWithin Serializer.dumpWithin
    generalize hr : (Serializer.doDump A v >>= fun _ => Serializer.next A .endOfInput : M Ser Unit) (Serializer.init A str) = r at hd
    obtain ⟨r | r, u⟩ := r
    · exact absurd (congrArg Prod.fst hd) (by simp)
    · obtain ⟨t', e⟩ := hs _ _ _ hr
      show ((match (Serializer.doDumpWithin A n v >>= fun _ => Serializer.next A .endOfInput : M Ser Unit) (Serializer.init A str), none with
        | (.error (.exn e), s), some h => if Handler.swallows h e then (.ok (), s) else (.error (.exn e), s)
        | r, _ => r : Except Stop Unit × Ser)).1 = _
      rw [e]

example : (jsonDumpWithin (dumpArgs false true 2 0x20) 4 none [] tall).1 = .ok () ∧ (jsonDumpWithin (dumpArgs false true 2 0x20) 3 none [] tall).1 = .error .fuel := by
  decide +kernel

theorem equalBy_none {α : Type} {e : α → α → Option Bool} : ∀ {xs ys : List α}, xs.length = ys.length →
    (∀ p ∈ xs.zip ys, e p.1 p.2 = some true ∨ e p.1 p.2 = none) → (∃ p ∈ xs.zip ys, e p.1 p.2 = none) → equalBy e xs ys = none
  | [], [], _, _, ⟨_, h, _⟩ => by cases h
  | x :: xs, y :: ys, hl, h, ⟨p, hp, hn⟩ => by
    unfold equalBy
    rcases h (x, y) (by simp) with h1 | h1
    · rw [h1]
      refine equalBy_none (by simpa using hl) (fun q hq => h q (by simp [hq])) ⟨p, ?_, hn⟩
      rcases List.mem_cons.1 (by simpa using hp) with rfl | hp
      · rw [hn] at h1; cases h1
      · exact hp
    · rw [h1]

theorem eqElems_zip (fo : FloatOps F) : ∀ {xs ys : List (Value F)}, eqElems fo xs ys = true →
    xs.length = ys.length ∧ ∀ p ∈ xs.zip ys, Value.eq fo p.1 p.2 = true
  | [], [], _ => ⟨rfl, by simp⟩
  | x :: xs, y :: ys, h => by
    unfold eqElems at h
    obtain ⟨h1, h2⟩ := Bool.and_eq_true_iff.1 h
    obtain ⟨h3, h4⟩ := eqElems_zip fo h2
    refine ⟨by simp [h3], fun p hp => ?_⟩
    rcases List.mem_cons.1 (by simpa using hp) with rfl | hp
    · exact h1
    · exact h4 p hp
  | [], _ :: _, h => by unfold eqElems at h; cases h
  | _ :: _, [], h => by unfold eqElems at h; cases h

theorem eqMembers_zip (fo : FloatOps F) : ∀ {xs ys : List (List Nat × Value F)}, eqMembers fo xs ys = true →
    xs.length = ys.length ∧ ∀ p ∈ xs.zip ys, (p.1.1 == p.2.1) = true ∧ Value.eq fo p.1.2 p.2.2 = true
  | [], [], _ => ⟨rfl, by simp⟩
  | (k, x) :: xs, (l, y) :: ys, h => by
    unfold eqMembers at h
    obtain ⟨h1, h2⟩ := Bool.and_eq_true_iff.1 h
    obtain ⟨h0, h1⟩ := Bool.and_eq_true_iff.1 h1
    obtain ⟨h3, h4⟩ := eqMembers_zip fo h2
    refine ⟨by simp [h3], fun p hp => ?_⟩
    rcases List.mem_cons.1 (by simpa using hp) with rfl | hp
    · exact ⟨h0, h1⟩
    · exact h4 p hp
  | [], _ :: _, h => by unfold eqMembers at h; cases h
  | _ :: _, [], h => by unfold eqMembers at h; cases h

theorem mem_zip_left {α β : Type} : ∀ {xs : List α} {ys : List β} {x : α}, xs.length = ys.length → x ∈ xs → ∃ y, (x, y) ∈ xs.zip ys
  | a :: xs, b :: ys, x, hl, hx => by
    rcases List.mem_cons.1 hx with rfl | hx
    · exact ⟨b, by simp⟩
    · obtain ⟨y, hy⟩ := mem_zip_left (by simpa using hl) hx
      exact ⟨y, by simp [hy]⟩

theorem eqWithin_short (fo : FloatOps F) : ∀ (n : Nat) (v w : Value F), Value.eq fo v w = true →
    (Value.eqWithin fo n v w = some true ∨ Value.eqWithin fo n v w = none) ∧ (n < height v → Value.eqWithin fo n v w = none) := by
  intro n
  induction n with
  | zero => intro v w _; exact ⟨.inr rfl, fun _ => rfl⟩
  | succ n ih =>
    intro v w he
    by_cases hn : height v ≤ n + 1
    · rw [eqWithin_eq fo _ v w (.inl hn), he]
      exact ⟨.inl rfl, fun h => by omega⟩
    · suffices h : Value.eqWithin fo (n + 1) v w = none from ⟨.inr h, fun _ => h⟩
      cases v with
      | arr xs =>
        cases w with
        | arr ys =>
          simp only [height] at hn
          unfold Value.eq at he
          unfold Value.eqWithin
          obtain ⟨hl, hz⟩ := eqElems_zip fo he
          rw [if_pos hl]
          obtain ⟨x, hx, hd⟩ := heightElems_eq_of (show n < heightElems xs by omega)
          obtain ⟨y, hy⟩ := mem_zip_left hl hx
          exact equalBy_none hl (fun p hp => (ih _ _ (hz p hp)).1) ⟨(x, y), hy, (ih _ _ (hz _ hy)).2 hd⟩
        | _ => unfold Value.eq at he; cases he
      | obj xs =>
        cases w with
        | obj ys =>
          simp only [height] at hn
          unfold Value.eq at he
          unfold Value.eqWithin
          obtain ⟨hl, hz⟩ := eqMembers_zip fo he
          rw [if_pos hl]
          obtain ⟨x, hx, hd⟩ := heightMembers_eq_of (show n < heightMembers xs by omega)
          obtain ⟨y, hy⟩ := mem_zip_left hl hx
          refine equalBy_none hl (fun p hp => ?_) ⟨(x, y), hy, ?_⟩
          · unfold pairBy
            rw [if_pos (hz p hp).1]
            exact (ih _ _ (hz p hp).2).1
          · unfold pairBy
            rw [if_pos (hz _ hy).1]
            exact (ih _ _ (hz _ hy).2).2 hd
        | _ => unfold Value.eq at he; cases he
      | _ => simp only [height] at hn; omega

/-- C130. `==` takes at most as many nested calls as the lower of the two values is high; for equal values it takes no less. -/
theorem C130_equal (fo : FloatOps F) (v w : Value F) (n : Nat) :
    (min (height v) (height w) ≤ n → Value.eqWithin fo n v w = some (Value.eq fo v w)) ∧
    (Value.eq fo v w = true → n < height v → Value.eqWithin fo n v w = none) :=
  ⟨fun h => eqWithin_eq fo n v w (by omega), fun he hn => (eqWithin_short fo n v w he).2 hn⟩

example : Value.eqWithin unitFloat 3 tall tall = none ∧ Value.eqWithin unitFloat 4 tall tall = some true ∧
    Value.eqWithin unitFloat 1 tall .null = some false := by decide +kernel

theorem lexBy_none {α : Type} {l : α → α → Option Bool} : ∀ {xs : List α}, (∀ x ∈ xs, l x x = some false ∨ l x x = none) →
    (∃ x ∈ xs, l x x = none) → lexBy l xs xs = none
  | [], _, ⟨_, h, _⟩ => by cases h
  | x :: xs, h, ⟨y, hy, hn⟩ => by
    unfold lexBy
    rcases h x (by simp) with h1 | h1
    · rw [h1]
      refine lexBy_none (fun z hz => h z (by simp [hz])) ⟨y, ?_, hn⟩
      rcases List.mem_cons.1 hy with rfl | hy
      · rw [hn] at h1; cases h1
      · exact hy
    · rw [h1]

theorem ltWithin_short (fo : FloatOps F) (ha : ∀ a b, fo.lt a b = true → fo.lt b a = false) : ∀ (n : Nat) (v : Value F),
    (Value.ltWithin fo n v v = some false ∨ Value.ltWithin fo n v v = none) ∧ (n < height v → Value.ltWithin fo n v v = none) := by
  intro n
  induction n with
  | zero => intro v; exact ⟨.inr rfl, fun _ => rfl⟩
  | succ n ih =>
    intro v
    by_cases hn : height v ≤ n + 1
    · rw [ltWithin_eq fo _ v v (.inl hn), (C51_asymmetric fo ha v v).2.1]
      exact ⟨.inl rfl, fun h => by omega⟩
    · suffices h : Value.ltWithin fo (n + 1) v v = none from ⟨.inr h, fun _ => h⟩
      cases v with
      | arr xs =>
        simp only [height] at hn
        unfold Value.ltWithin
        obtain ⟨x, hx, hd⟩ := heightElems_eq_of (show n < heightElems xs by omega)
        exact lexBy_none (fun x _ => (ih x).1) ⟨x, hx, (ih x).2 hd⟩
      | obj xs =>
        simp only [height] at hn
        unfold Value.ltWithin
        obtain ⟨x, hx, hd⟩ := heightMembers_eq_of (show n < heightMembers xs by omega)
        have hp : ∀ x : List Nat × Value F, pairLess (Value.ltWithin fo n) x x = Value.ltWithin fo n x.2 x.2 := by
          intro x
          unfold pairLess
          rw [ltKey_self]
          rfl
        refine lexBy_none (fun x _ => ?_) ⟨x, hx, ?_⟩
        · rw [hp]; exact (ih x.2).1
        · rw [hp]; exact (ih x.2).2 hd
      | _ => simp only [height] at hn; omega

/-- C130. The same for `<`, and for `>`, `<=` and `>=`, which are made from it; comparing a value with itself takes no less. -/
theorem C130_less (fo : FloatOps F) (v w : Value F) (n : Nat) :
    (min (height v) (height w) ≤ n → Value.ltWithin fo n v w = some (Value.lt fo v w)) ∧
    ((∀ a b, fo.lt a b = true → fo.lt b a = false) → n < height v → Value.ltWithin fo n v v = none) :=
  ⟨fun h => ltWithin_eq fo n v w (by omega), fun ha hn => (ltWithin_short fo ha n v).2 hn⟩

example : Value.ltWithin unitFloat 3 tall tall = none ∧ Value.ltWithin unitFloat 4 tall tall = some false := by decide +kernel

theorem Owns.room {s : State F} {V : Var → Option (Value F)} {fp} (h : Owns s V fp) {t : Var} {w : Value F} (hw : V t = some w) :
    ∃ r N, s.vars t = some r ∧ Repr s.heap.mem N r w (fp t) ∧ nest w ≤ s.depth := by
  obtain ⟨r, n, hr, hn⟩ := h.alive hw
  have hlen : (fp t).length ≤ s.heap.next := length_le_of_nodup _ _ (h.nodup t) fun a ha => (h.alloc ha).2
  have hn' : Repr s.heap.mem s.depth r w (fp t) := hn.depth.mono (by simp only [State.depth]; omega)
  refine ⟨r, n, hr, hn, Nat.not_lt.1 fun hlt => ?_⟩
  obtain ⟨h', e⟩ := destroy_short hn' (h.nodup t) hlt
  rw [destroy_ok hn' (h.nodup t)] at e
  cases e

/-- C130. The destructor of a variable: with room for the nesting of its value it is as without bound, with less it is not enough. -/
theorem C130_destroy (fo : FloatOps F) {s : State F} (h : Reach fo s) {E : Env F} (hE : Shows s E) {x : Nat} {v : Value F} (hx : E x = some v)
    (n : Nat) :
    (nest v ≤ n → State.destructWithin n (.user x) s = State.destruct (.user x) s) ∧
    (n < nest v → (State.destructWithin n (.user x) s).1 = .error .fuel) := by
  obtain ⟨E', L, hh, _, _⟩ := h.holds
  have := hE.unique hh.shows
  subst this
  obtain ⟨fp, ho, _⟩ := hh
  obtain ⟨r, N, hr, hn, hd⟩ := Owns.room ho (t := .user x) (w := v) hx
  have e1 : State.read (.var (.user x)) s = (.ok r, s) := by simp [State.read, hr]
  have e2 : (M.gets State.depth : M (State F) Nat) s = (.ok s.depth, s) := rfl
  constructor
  · intro hv
    unfold State.destructWithin State.destruct
    rw [M.bind_ok e1, M.bind_ok e1, M.bind_ok e2]
    have k : ∀ m, nest v ≤ m → State.onHeap (Heap.destroy m r) s = (.ok (), { s with heap := without s.heap (fp (.user x)) }) := by
      intro m hm
      simp only [State.onHeap, destroy_ok ((Repr.nest hn).mono hm) (ho.nodup (.user x))]
    rw [M.bind_ok (k n hv), M.bind_ok (k _ hd)]
  · intro hv
    obtain ⟨h', e⟩ := destroy_short hn (ho.nodup (.user x)) hv
    unfold State.destructWithin
    rw [M.bind_ok e1, M.bind_error (show State.onHeap (Heap.destroy n r) s = (.error .fuel, { s with heap := h' }) by simp only [State.onHeap, e])]

/-- C130. The copy constructor of a variable from another one: with room for the nesting of the value it is as without bound, whichever
allocations fail. -/
theorem C130_copy (fo : FloatOps F) {s : State F} (h : Reach fo s) {E : Env F} (hE : Shows s E) {y : Nat} {v : Value F} (hy : E y = some v)
    (x : Var) (n : Nat) (hn : nest v ≤ n) :
    State.copyConstructWithin n x (.var (.user y)) s = State.copyConstruct x (.var (.user y)) s := by
  obtain ⟨E', L, hh, _, _⟩ := h.holds
  have := hE.unique hh.shows
  subst this
  obtain ⟨fp, ho, _⟩ := hh
  obtain ⟨r, N, hr, hr', hd⟩ := Owns.room ho (t := .user y) (w := v) hy
  have e1 : State.read (.var (.user y)) s = (.ok r, s) := by simp [State.read, hr]
  have e2 : (M.gets State.depth : M (State F) Nat) s = (.ok s.depth, s) := rfl
  unfold State.copyConstructWithin State.copyConstruct
  rw [M.bind_ok e1, M.bind_ok e1, M.bind_ok e2]
  have : State.onHeap (Heap.copy n r) s = State.onHeap (Heap.copy s.depth r) s := by
    simp only [State.onHeap, copy_same hr' ho.fresh (fun a ha => (ho.alloc ha).2) hn hd]
  rw [M.bind_def, M.bind_def, this]

/-- The hypotheses of both are met: `v0 = [["a"], null]`. -/
example (fo : FloatOps F) : ∃ s E v, Reach fo s ∧ Shows s E ∧ E 0 = some v ∧ nest v = 2 := by
  obtain ⟨s, h1, _, E, h2, h3, _, _⟩ := memorySample_reached fo
  exact ⟨s, E, _, h1, h2, h3, rfl⟩

theorem emplaced_mem {k : List Nat} {v : Value F} {m : List Nat × Value F} : ∀ {ms : List (List Nat × Value F)}, m ∈ Map.emplace k v ms →
    m ∈ ms ∨ m = (k, v)
  | [], h => by simpa [Map.emplace] using h
  | (l, w) :: ms, h => by
    unfold Map.emplace at h
    split at h
    · rcases List.mem_cons.1 h with rfl | h
      · exact .inr rfl
      · exact .inl h
    · split at h
      · rcases List.mem_cons.1 h with rfl | h
        · exact .inl (by simp)
        · rcases emplaced_mem h with h | h
          · exact .inl (by simp [h])
          · exact .inr h
      · exact .inl h

theorem emplaced_all_mem {m : List Nat × Value F} : ∀ {ms o : List (List Nat × Value F)},
    m ∈ ms.foldl (fun o m => Map.emplace m.1 m.2 o) o → m ∈ o ∨ m ∈ ms
  | [], _, h => .inl h
  | n :: ms, o, h => by
    rcases emplaced_all_mem (ms := ms) h with h | h
    · rcases emplaced_mem h with h | h
      · exact .inl h
      · exact .inr (by simp [h])
    · exact .inr (by simp [h])

theorem arrangedElems_mem {keep : MemberList F → MemberList F} {y : Value F} : ∀ {xs : List (Value F)}, y ∈ arrangedElems keep xs → ∃ x ∈ xs, y = arranged keep x
  | x :: xs, h => by
    rw [arrangedElems] at h
    rcases List.mem_cons.1 h with rfl | h
    · exact ⟨x, by simp, rfl⟩
    · obtain ⟨z, hz, e⟩ := arrangedElems_mem h
      exact ⟨z, by simp [hz], e⟩
  | [], h => by rw [arrangedElems] at h; cases h

theorem arrangedMembers_mem {keep : MemberList F → MemberList F} {y : List Nat × Value F} : ∀ {ms : MemberList F}, y ∈ arrangedMembers keep ms →
    ∃ x ∈ ms, y = (x.1, arranged keep x.2)
  | (k, x) :: ms, h => by
    rw [arrangedMembers] at h
    rcases List.mem_cons.1 h with rfl | h
    · exact ⟨(k, x), by simp, rfl⟩
    · obtain ⟨z, hz, e⟩ := arrangedMembers_mem h
      exact ⟨z, by simp [hz], e⟩
  | [], h => by rw [arrangedMembers] at h; cases h

theorem height_arranged : ∀ (n : Nat) (v : Value F), height v ≤ n →
    height (arranged (fun ms => ms.foldl (fun o m => Map.emplace m.1 m.2 o) []) v) ≤ height v := by
  intro n
  induction n with
  | zero => intro v h; have := height_pos v; omega
  | succ n ih =>
    intro v h
    cases v with
    | arr xs =>
      simp only [arranged, height] at h ⊢
      refine Nat.add_le_add_left (heightElems_le.2 fun y hy => ?_) 1
      obtain ⟨x, hx, rfl⟩ := arrangedElems_mem hy
      have := height_elem hx
      exact Nat.le_trans (ih x (by omega)) this
    | obj ms =>
      simp only [arranged, height] at h ⊢
      refine Nat.add_le_add_left (heightMembers_le.2 fun y hy => ?_) 1
      rcases emplaced_all_mem hy with hy | hy
      · cases hy
      · obtain ⟨x, hx, rfl⟩ := arrangedMembers_mem hy
        have := height_member hx
        exact Nat.le_trans (ih x.2 (by omega)) this
    | _ => exact Nat.le_refl _

/-- C130. A value that was read from a text is no higher than the calls were deep when it was read: who had the room to read it has
the room to dump, compare, copy and destroy it. -/
theorem C130_parsed (A : ParseArgs F) (hA : A.Usual) (c v : Value F) (str : List Nat) (h : jsonParse A none c str = (.ok (), v)) :
    nest v ≤ height v ∧ height v ≤ jsonParseCalls A str := by
  refine ⟨(height_nest v).1, ?_⟩
  have hl := (sees_iff A str _).2 rfl
  rw [← C123_std_map] at h
  obtain ⟨tree, ht, rfl⟩ := (C123_members_in_text_order A hA _ c v str _ hl).1 h
  have h1 := (C115_accepted_partial A hA str _ hl tree ht).1
  have h2 := (height_nest tree).2
  have h3 := height_arranged _ tree (Nat.le_refl _)
  omega

example : jsonParse (utf8Args true) none .null (ascii "{\"a\":[[1]]}") = (.ok (), .obj [([0x61], .arr [.arr [.int 1]])]) ∧
    height (.obj [([0x61], .arr [.arr [.int 1]])] : Value Unit) = 4 ∧ jsonParseCalls (utf8Args true) (ascii "{\"a\":[[1]]}") = 4 := by decide +kernel

/-! ## C131 -/

/-- C131. What the comparisons answer is what `==` and `<` answer: `eqCounted` and `ltCounted` only count the calls. -/
theorem C131_follows (fo : FloatOps F) (v w : Value F) :
    (Value.eqCounted fo v w).1 = Value.eq fo v w ∧ (Value.ltCounted fo v w).1 = Value.lt fo v w :=
  ⟨eqCounted_fst fo v w, ltCounted_fst fo v w⟩

/-- C131. `==` is called at most once for each part of the smaller of the two values. -/
theorem C131_equal (fo : FloatOps F) (v w : Value F) : (Value.eqCounted fo v w).2 ≤ min (nodes v) (nodes w) := by
  have h1 := eqCounted_left fo v w
  have h2 := eqCounted_right fo v w
  omega

/-- Of values of one part each, one call; of equal values, all of them. -/
example : (Value.eqCounted unitFloat tall tall).2 = nodes tall ∧ (Value.eqCounted unitFloat tall .null).2 = 1 := by decide +kernel

theorem eqElems_stops (fo : FloatOps F) (x y : Value F) (r s : List (Value F)) (hx : Value.eq fo x y = false) :
    ∀ p q : List (Value F), eqElems fo p q = true → p.length = q.length ∧
      eqElemsCounted fo (p ++ x :: r) (q ++ y :: s) = eqElemsCounted fo (p ++ [x]) (q ++ [y])
  | [], [], _ => by
    simp only [List.nil_append, eqElemsCounted, eqCounted_fst fo x y, hx, Bool.false_eq_true, if_false, and_self]
  | a :: p, b :: q, he => by
    simp only [eqElems, Bool.and_eq_true] at he
    obtain ⟨h1, h2⟩ := eqElems_stops fo x y r s hx p q he.2
    simp only [List.cons_append, eqElemsCounted, h1, h2, List.length_cons, and_self]
  | [], _ :: _, he => by cases he
  | _ :: _, [], he => by cases he

theorem eqMembers_stops (fo : FloatOps F) (k l : List Nat) (x y : Value F) (r s : List (List Nat × Value F)) :
    ∀ p q : List (List Nat × Value F), eqMembers fo p q = true → p.length = q.length ∧
      (k = l → Value.eq fo x y = false → eqMembersCounted fo (p ++ (k, x) :: r) (q ++ (l, y) :: s) = eqMembersCounted fo (p ++ [(k, x)]) (q ++ [(l, y)])) ∧
      (k ≠ l → (eqMembersCounted fo (p ++ (k, x) :: r) (q ++ (l, y) :: s)).2 = (eqMembersCounted fo p q).2)
  | [], [], _ => by
    refine ⟨rfl, fun e hx => ?_, fun e => ?_⟩
    · simp only [List.nil_append, eqMembersCounted, eqCounted_fst fo x y, hx, e, beq_self_eq_true, Bool.false_eq_true, if_false, if_true]
    · simp only [List.nil_append, eqMembersCounted, beq_eq_false_iff_ne.2 e, Bool.false_eq_true, if_false]
  | (a, v) :: p, (b, w) :: q, he => by
    simp only [eqMembers, Bool.and_eq_true] at he
    obtain ⟨h1, h2, h3⟩ := eqMembers_stops fo k l x y r s p q he.2
    refine ⟨by simp only [List.length_cons, h1], fun e hx => ?_, fun e => ?_⟩
    · simp only [List.cons_append, eqMembersCounted, h2 e hx]
    · simp only [List.cons_append, eqMembersCounted, he.1.1, eqCounted_fst fo v w, he.1.2, if_true, h3 e]
  | [], _ :: _, he => by cases he
  | _ :: _, [], he => by cases he

/-- C131. `==` stops at the first difference: if the first elements are equal and the next ones are not, then what is behind them
is not compared. -/
theorem C131_stops_array (fo : FloatOps F) (p q r s : List (Value F)) (x y : Value F) (hp : Value.eq fo (.arr p) (.arr q) = true)
    (hx : Value.eq fo x y = false) (hl : r.length = s.length) :
    Value.eqCounted fo (.arr (p ++ x :: r)) (.arr (q ++ y :: s)) = Value.eqCounted fo (.arr (p ++ [x])) (.arr (q ++ [y])) := by
  simp only [Value.eq] at hp
  obtain ⟨h1, h2⟩ := eqElems_stops fo x y r s hx p q hp
  simp only [Value.eqCounted, List.length_append, List.length_cons, List.length_nil, h1, hl, if_true, h2]

example : Value.eq unitFloat (.arr [.int 1]) (.arr [.int 1]) = true ∧ Value.eq unitFloat (.int 2) (.int 3) = false ∧
    (Value.eqCounted unitFloat (.arr [.int 1, .int 2, tall]) (.arr [.int 1, .int 3, tall])).2 = 3 := by decide +kernel

/-- C131. The same for the members of objects; the values of members with different names are not compared at all. -/
theorem C131_stops_object (fo : FloatOps F) (p q r s : List (List Nat × Value F)) (k l : List Nat) (x y : Value F)
    (hp : Value.eq fo (.obj p) (.obj q) = true) (hl : r.length = s.length) :
    (k = l → Value.eq fo x y = false →
      Value.eqCounted fo (.obj (p ++ (k, x) :: r)) (.obj (q ++ (l, y) :: s)) = Value.eqCounted fo (.obj (p ++ [(k, x)])) (.obj (q ++ [(l, y)]))) ∧
    (k ≠ l → (Value.eqCounted fo (.obj (p ++ (k, x) :: r)) (.obj (q ++ (l, y) :: s))).2 = (Value.eqCounted fo (.obj p) (.obj q)).2) := by
  simp only [Value.eq] at hp
  obtain ⟨h1, h2, h3⟩ := eqMembers_stops fo k l x y r s p q hp
  refine ⟨fun e hx => ?_, fun e => ?_⟩
  · simp only [Value.eqCounted, List.length_append, List.length_cons, List.length_nil, h1, hl, if_true, h2 e hx]
  · simp only [Value.eqCounted, List.length_append, List.length_cons, h1, hl, if_true, h3 e]

example : (Value.eqCounted unitFloat (.obj [([1], .null), ([2], tall)]) (.obj [([1], .null), ([3], tall)])).2 = 2 ∧
    Value.eq unitFloat (.obj [([1], .null)]) (.obj [([1], .null)]) = true := by decide +kernel

/-- The number of calls `<` makes for arrays nested in each other. -/
theorem nested_calls (fo : FloatOps F) (n : Nat) :
    (Value.ltCounted fo (nested n) (nested n)).1 = false ∧ (Value.ltCounted fo (nested n) (nested n)).2 + 1 = 2 ^ (n + 1) := by
  induction n with
  | zero => simp only [nested]; unfold Value.ltCounted ltElemsCounted; exact ⟨rfl, rfl⟩
  | succ n ih =>
    have hb : (ltElemsCounted fo ([] : List (Value F)) []) = (false, 0) := by unfold ltElemsCounted; rfl
    simp only [nested]
    unfold Value.ltCounted ltElemsCounted
    simp only [ih.1, hb, Bool.false_eq_true, if_false]
    refine ⟨trivial, ?_⟩
    rw [Nat.pow_succ]
    omega

theorem nested_nodes (n : Nat) : nodes (nested n : Value F) = n + 1 ∧ height (nested n : Value F) = n + 1 := by
  induction n with
  | zero => exact ⟨rfl, rfl⟩
  | succ n ih =>
    simp only [nested, nodes, nodesElems, height, heightElems, ih.1, ih.2]
    exact ⟨by omega, by omega⟩

/-- C131 is false for `<`, and for `>`, `<=` and `>=`: for two equal values of `n + 1` parts it is called `2 ^ (n + 1) - 1` times, since
the comparison of arrays and objects asks for each pair of parts twice, in both orders. There is no bound by the size times a
constant. -/
theorem C131_violated (fo : FloatOps F) :
    (∀ n, ∃ v : Value F, nodes v = n + 1 ∧ (Value.ltCounted fo v v).2 = 2 ^ (n + 1) - 1) ∧
    ¬ ∃ k, ∀ v w : Value F, (Value.ltCounted fo v w).2 ≤ k * (nodes v + nodes w) := by
  refine ⟨fun n => ⟨nested n, (nested_nodes n).1, by have := (nested_calls fo n).2; omega⟩, ?_⟩
  rintro ⟨k, h⟩
  have hp : ∀ m : Nat, m * m < 2 ^ (m + 1) := by
    intro m
    have : ∀ m : Nat, 2 * m < 2 ^ (m + 1) ∧ m * m < 2 ^ (m + 1) := by
      intro m
      induction m with
      | zero => simp
      | succ m ih =>
        rw [Nat.pow_succ, show (m + 1) * (m + 1) = m * m + 2 * m + 1 by rw [Nat.add_mul, Nat.mul_add]; omega]
        omega
    exact (this m).2
  have h1 := h (nested (2 * k + 3)) (nested (2 * k + 3))
  have h2 := (nested_calls fo (2 * k + 3)).2
  rw [(nested_nodes _).1] at h1
  have h3 := hp (2 * k + 3)
  have h4 : k * (2 * k + 3 + 1 + (2 * k + 3 + 1)) + 1 ≤ (2 * k + 3) * (2 * k + 3) := by
    rw [show k * (2 * k + 3 + 1 + (2 * k + 3 + 1)) = 4 * (k * k) + 8 * k by grind, show (2 * k + 3) * (2 * k + 3) = 4 * (k * k) + 12 * k + 9 by grind]
    omega
  omega

/-- Objects nested in each other, `n + 1` of them. -/
def nestedObj : Nat → Value F
  | 0 => .obj []
  | n + 1 => .obj [([0x61], nestedObj n)]

/-- C131 is false for `<` of objects too: it is called `2 ^ (n + 1) - 1` times for `n + 1` objects nested in each other. -/
theorem C131_violated_object (fo : FloatOps F) (n : Nat) :
    nodes (nestedObj n : Value F) = n + 1 ∧ (Value.ltCounted fo (nestedObj n) (nestedObj n)).2 = 2 ^ (n + 1) - 1 := by
  have h : (Value.ltCounted fo (nestedObj n) (nestedObj n)).1 = false ∧ (Value.ltCounted fo (nestedObj n) (nestedObj n)).2 + 1 = 2 ^ (n + 1) := by
    induction n with
    | zero => simp only [nestedObj]; unfold Value.ltCounted ltMembersCounted; exact ⟨rfl, rfl⟩
    | succ n ih =>
      have hb : (ltMembersCounted fo ([] : List (List Nat × Value F)) []) = (false, 0) := by unfold ltMembersCounted; rfl
      have hk : ltKey [0x61] [0x61] = false := by decide
      simp only [nestedObj]
      unfold Value.ltCounted ltMembersCounted
      simp only [ih.1, hb, hk, Bool.false_eq_true, if_false]
      refine ⟨trivial, ?_⟩
      rw [Nat.pow_succ]
      omega
  refine ⟨?_, by omega⟩
  clear h
  induction n with
  | zero => rfl
  | succ n ih =>
    simp only [nestedObj, nodes, nodesMembers, ih]
    omega

/-- C131, partial: `<` is called at most as often as either of the values has parts, times two for each level of it but one. What is
missing is the same without the powers of two, for which it is false. -/
theorem C131_less_partial (fo : FloatOps F) (v w : Value F) :
    (Value.ltCounted fo v w).2 ≤ 2 ^ (height v - 1) * nodes v ∧ (Value.ltCounted fo v w).2 ≤ 2 ^ (height w - 1) * nodes w :=
  ⟨(ltCounted_le fo _ v w (by have := height_pos v; omega)).1, (ltCounted_le fo _ w v (by have := height_pos w; omega)).2⟩

/-- Flat arrays: one call for themselves and two for each element. -/
example : (Value.ltCounted unitFloat (.arr [.int 1, .int 2]) (.arr [.int 1, .int 2])).2 = 5 ∧
    (Value.ltCounted unitFloat tall tall).2 ≤ 2 ^ 3 * nodes tall := by
  refine ⟨?_, ?_⟩ <;> decide +kernel

end Configor.Props
