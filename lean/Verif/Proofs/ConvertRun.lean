import Verif.Proofs.ConvertSteps
import Verif.Proofs.ParseSound
set_option autoImplicit false
/-!
# Conversions in memory: whole objects
-/
namespace Spec
open Configor

variable {F : Type}

/-! ## Members -/

/-- Assigning to the member that `operator[]` gives. -/
theorem emplace_set (key : List Nat) (v : Value F) : ∀ ms : List (List Nat × Value F),
    ((Map.emplace key .null ms).map Prod.fst).idxOf key < (Map.emplace key Value.null ms).length ∧
    ((Map.emplace key Value.null ms).map Prod.fst).zip
      (((Map.emplace key Value.null ms).map Prod.snd).set (((Map.emplace key Value.null ms).map Prod.fst).idxOf key) v) = setMember key v ms
  | [] => by simp [Map.emplace, setMember]
  | (k', v') :: ms => by
    simp only [Map.emplace, setMember]
    split
    · simp [zip_fst_snd]
    · next h1 =>
      split
      · next h2 =>
        have hne : k' ≠ key := by rintro rfl; exact h1 h2
        obtain ⟨i1, i2⟩ := emplace_set key v ms
        have : ((k' :: (Map.emplace key Value.null ms).map Prod.fst).idxOf key) = ((Map.emplace key Value.null ms).map Prod.fst).idxOf key + 1 := by
          rw [List.idxOf_cons]
          have : (k' == key) = false := by simp [hne]
          rw [this]; rfl
        simp only [List.map_cons, this, List.length_cons, List.set_cons_succ, List.zip_cons_cons, i2]
        exact ⟨by omega, trivial⟩
      · next h2 =>
        have : k' = key := by
          rw [Bool.not_eq_true, ltKey_false] at h1 h2
          exact (List.le_antisymm (by simpa using h1) (by simpa using h2))
        subst this
        simp [zip_fst_snd]

theorem emplace_blocks (key : List Nat) : ∀ ms : List (List Nat × Value F), blocksMembers (Map.emplace key .null ms) = blocksMembers ms
  | [] => by simp [Map.emplace, blocksMembers, blocks]
  | (k', v') :: ms => by
    simp only [Map.emplace]
    split
    · simp [blocksMembers, blocks]
    · split
      · simp [blocksMembers, emplace_blocks key ms]
      · rfl

theorem member_place {s : State F} {E : Env F} {L : Nat → Prop} (hs : Holds s E L) {k : Nat} {ms : List (List Nat × Value F)} (hk : E k = some (.obj ms))
    (key : List Nat) : State.member k key s = State.ref (.user k) [(ms.map Prod.fst).idxOf key] s := by
  obtain ⟨fp, o, _⟩ := hs
  have h := o.stands (.user k)
  have hE : E.all (.user k) = some (.obj ms) := hk
  rw [hE] at h
  cases hc : s.vars (.user k) with
  | none => rw [hc] at h; exact h.elim
  | some c =>
    rw [hc] at h
    obtain ⟨n, h⟩ := h
    obtain ⟨a, ms', rfl, h2, h3⟩ : ∃ a ms', c = .obj a ∧ s.heap.mem a = some (.obj ms') ∧ ms'.map Prod.fst = ms.map Prod.fst := by
      cases n with
      | zero => simp only [Repr] at h; cases c <;> simp [Flat] at h
      | succ n =>
        rcases h with h | ⟨a, b, fps, h1, h2, _, _⟩
        · cases c <;> simp [Flat] at h
        · cases c <;> cases b <;> simp only [Node] at h2
          exact ⟨_, _, rfl, by rw [h2.1]; exact h1, h2.2⟩
    have hr : State.read (.var (.user k)) s = (.ok (.obj a), s) := by simp [State.read, hc]
    have hm : State.onHeap (Heap.map a) s = (.ok ms', s) := by simp [State.onHeap, Heap.map, h2]
    simp only [State.member]
    rw [M.bind_ok hr]
    simp only
    rw [M.bind_ok hm, h3]

/-! ## The contents around a call -/

/-- The variables of the program have their contents, and those after variable `k` are not in use. -/
structure Over (E0 E : Env F) (k : Nat) : Prop where
  low : ∀ x, E0 x ≠ none → x < k ∧ E x = E0 x
  high : ∀ j, k < j → E j = none

theorem Over.bind {E0 E : Env F} {k : Nat} (h : Over E0 E k) (w : Option (Value F)) : Over E0 (E.bind k w) k where
  low x hx := ⟨(h.low x hx).1, by rw [bind_ne _ (by have := (h.low x hx).1; omega)]; exact (h.low x hx).2⟩
  high j hj := by rw [bind_ne _ (by omega)]; exact h.high j hj

theorem Over.next {E0 E : Env F} {k : Nat} (h : Over E0 E k) (w : Option (Value F)) : Over E0 (E.bind (k + 1) w) (k + 1) where
  low x hx := ⟨by have := (h.low x hx).1; omega, by rw [bind_ne _ (by have := (h.low x hx).1; omega)]; exact (h.low x hx).2⟩
  high j hj := by rw [bind_ne _ (by omega)]; exact h.high j (by omega)

theorem Over.get {E0 E : Env F} {k : Nat} (h : Over E0 E k) {r : Ref} (hr : E0.get r ≠ none) : r.var ≠ k ∧ E.get r = E0.get r := by
  have h0 : E0 r.var ≠ none := by intro e; simp [Env.get, e] at hr
  have := h.low _ h0
  exact ⟨by omega, by simp only [Env.get, this.2]⟩

/-! ## Calls -/

theorem reset_conv (fo : FloatOps F) {s : State F} {E : Env F} {L : Nat → Prop} (hs : Holds s E L) {k : Nat} {c v : Value F} (hk : E k = some c) (hv : Childless v) :
    Conv' k (State.reset (.user k) v) s E L (.ok v) := by
  obtain ⟨s1, h1, h2, h3, h4⟩ := cmd_still fo (.delete k) hs (by simp only [Cmd.Allowed, hk]; simp) trivial
  have h1' : State.destruct (.user k) s = (.ok (), s1) := h1
  simp only [Cmd.meaning] at h2
  rcases cmd_cases fo (.new k v) h2 ⟨bind_at _ _ _, hv⟩ with ⟨s2, k1, k2, k3, k4⟩ | ⟨s2, E', L', k1, k2, k3, k4, k5, k6⟩
  · have k1' : State.construct (.user k) v s1 = (.ok (), s2) := k1
    refine .inl ⟨s2, v, ?_, rfl, ?_, h3.trans k3, (noFailure_trans h3 k3).2 ⟨h4, k4⟩⟩
    · simp only [State.reset]; rw [M.bind_ok h1', k1']
    · simp only [Cmd.meaning] at k2; rw [bind_bind] at k2; exact k2
  · have k1' : State.construct (.user k) v s1 = (.error (.exn .badAlloc), s2) := k1
    have : E' = E.bind k none := by rcases k3 with k3 | k3 <;> exact k3
    subst this
    refine .inr ⟨s2, .badAlloc, none, L', ?_, k2, h3.trans k5, .inr ⟨fun h => k6 ((noFailure_trans h3 k5).1 h).2, rfl, k4⟩⟩
    simp only [State.reset]; rw [M.bind_ok h1', k1']

theorem conv_ok {k : Nat} {s : State F} {E : Env F} {L : Nat → Prop} {c : Value F} (hs : Holds s E L) (hk : E k = some c) :
    Conv' k (pure ()) s E L (.ok c) :=
  .inl ⟨s, c, rfl, rfl, by rw [bind_same hk]; exact hs, Later.refl s, NoFailure.refl s⟩

/-- `c = o` where `c` is null. -/
theorem assignObj_conv (fo : FloatOps F) {s : State F} {E : Env F} {L : Nat → Prop} {k : Nat} (hk : E k = some .null) (ht : E (k + 1) = none)
    {o : Obj F} (ho : ∀ x q, o ≠ .value x q) {m : M (State F) Unit} {res}
    (hm : Made (k + 1) (State.making (.user (k + 1)) m) s E L res) :
    Conv' k (State.assignObj (State.ref (.user k) []) (k + 1) o m) s E L res := by
  have hkt : k ≠ k + 1 := by omega
  have e : State.assignObj (State.ref (.user k) []) (k + 1) o m =
      (State.making (.user (k + 1)) m >>= fun _ => State.moveFrom (State.ref (.user k) []) (k + 1)) := by
    cases o <;> first | rfl | exact absurd rfl (ho _ _)
  rw [e]
  rcases hm with ⟨s1, v, h1, h2, h3, h4, h5⟩ | ⟨s1, e, L', h1, h2, h3, h4⟩
  · obtain ⟨s2, j1, j2, j3, j4⟩ := moveFrom_holds fo h3 hkt (bind_at _ _ _) (by rw [bind_ne _ hkt, hk]) (p := []) (by simp [part]) rfl
    refine .inl ⟨s2, v, ?_, h2, ?_, h4.trans j3, (noFailure_trans h4 j3).2 ⟨h5, j4⟩⟩
    · rw [M.bind_ok h1, j1]
    · have := settle' ht (some v) (some v) (some v)
      rw [bind_bind] at this
      simp only [replace] at j2
      rw [this] at j2
      exact j2
  · refine .inr ⟨s1, e, some .null, L', ?_, by rw [bind_same hk]; exact h2, h3, ?_⟩
    · rw [M.bind_error h1]
    · rcases h4 with ⟨h5, n, h6, h7⟩ | h5
      · exact .inl ⟨h5, n, .null, rfl, h6, by simpa [blocks] using h7⟩
      · exact .inr h5

theorem copy_conv (fo : FloatOps F) {s : State F} {E : Env F} {L : Nat → Prop} (hs : Holds s E L) {k : Nat} {c v : Value F} (hk : E k = some c) {x : Nat}
    {q : List Nat} (hv : E.get ⟨x, q⟩ = some v) :
    Conv' k (do State.copyAssign (← State.ref (.user k) []) (← State.ref (.user x) q)) s E L (.ok v) := by
  rcases cmd_cases fo (.copyAssign ⟨k, []⟩ ⟨x, q⟩) hs ⟨by simp [Env.get, hk, part], by rw [hv]; simp⟩ with
    ⟨s2, k1, k2, k3, k4⟩ | ⟨s2, E1, L1, k1, k2, k3, k4, k5, k6⟩
  · refine .inl ⟨s2, v, k1, rfl, ?_, k3, k4⟩
    simp only [Cmd.meaning, hv, Env.put] at k2
    rw [bind_set hk] at k2
    exact k2
  · have : E1 = E := by rcases k3 with k3 | k3 <;> exact k3
    subst this
    exact .inr ⟨s2, .badAlloc, some c, L1, k1, by rw [bind_same hk]; exact k2, k5, .inr ⟨k6, rfl, k4⟩⟩

theorem index_meaning (fo : FloatOps F) {E : Env F} {k : Nat} {us : List (Value F)} (hk : E k = some (.arr us)) :
    Cmd.meaning fo (.index ⟨k, []⟩ us.length) E = E.bind k (some (.arr (us ++ [.null]))) ∧
    Cmd.begun (.index ⟨k, []⟩ us.length) E = E.bind k (some (.arr us)) := by
  have hg : E.get ⟨k, []⟩ = some (.arr us) := by simp [Env.get, hk, part]
  have e1 : us.length + 1 - us.length = 1 := by omega
  have hb : Cmd.begun (.index ⟨k, []⟩ us.length) E = E.bind k (some (.arr us)) := by
    simp only [Cmd.begun, hg, Option.map_some, fillWith, Env.put]
    rw [bind_set hk]; rfl
  refine ⟨?_, hb⟩
  simp only [Cmd.meaning, hb, bind_same hk, hg, indexed, e1, Env.put, List.replicate_one]
  rw [bind_set hk]; rfl

/-- The members, and then the object with one of them null. -/
theorem key_meaning (fo : FloatOps F) {E : Env F} {k : Nat} {c : Value F} (hk : E k = some c) (hc : c = .null ∨ ∃ ms, c = .obj ms) (key : List Nat) :
    Cmd.meaning fo (.key ⟨k, []⟩ key) E = E.bind k (some (.obj (Map.emplace key .null (membersOf c)))) ∧
    Cmd.begun (.key ⟨k, []⟩ key) E = E.bind k (some (fillWith (.obj []) c)) := by
  have hg : E.get ⟨k, []⟩ = some c := by simp [Env.get, hk, part]
  have hb : Cmd.begun (.key ⟨k, []⟩ key) E = E.bind k (some (fillWith (.obj []) c)) := by
    simp only [Cmd.begun, hg, Option.map_some, Env.put]
    rw [bind_set hk]; rfl
  refine ⟨?_, hb⟩
  have hg' : (E.bind k (some (fillWith (.obj []) c))).get ⟨k, []⟩ = some (fillWith (.obj []) c) := by simp [Env.get, bind_at, part]
  simp only [Cmd.meaning, hb, hg']
  rcases hc with rfl | ⟨ms, rfl⟩ <;>
  · simp only [fillWith, keyed, Env.put, membersOf]
    rw [bind_set (bind_at _ _ _), bind_bind]; rfl

theorem placed_items (done : List (Value F)) (left : Bool) (res : Except (Err × Nat) (Value F)) :
    placed (.arr (done ++ [.null])) [done.length] (blocks (if left then .arr (done ++ [.null]) else .arr done)) res =
      match res with
      | .ok v => .ok (.arr (done ++ [v]))
      | .error (e, n) => .error (e, n + blocks (.arr done)) := by
  have hb : blocks (.arr (done ++ [.null])) = blocks (.arr done) := by simp [blocks, blocksAll_eq]
  cases res with
  | ok v => simp [placed, replace, kids, withKids]
  | error x => cases left <;> simp [placed, hb]

theorem placed_members {c : Value F} (hc : c = .null ∨ ∃ ms, c = .obj ms) (key : List Nat) (left : Bool) (res : Except (Err × Nat) (Value F)) :
    placed (.obj (Map.emplace key .null (membersOf c))) [((Map.emplace key Value.null (membersOf c)).map Prod.fst).idxOf key]
      (blocks (if left then .obj (Map.emplace key .null (membersOf c)) else c)) res =
      match res with
      | .ok v => .ok (.obj (setMember key v (membersOf c)))
      | .error (e, n) => .error (e, n + blocks (if left then fillWith (.obj []) c else c)) := by
  have hb : blocks (.obj (Map.emplace key .null (membersOf c))) = blocks (fillWith (.obj []) c) := by
    simp only [blocks, emplace_blocks]
    rcases hc with rfl | ⟨ms, rfl⟩ <;> simp [fillWith, membersOf, blocks]
  cases res with
  | ok v =>
    obtain ⟨h1, h2⟩ := emplace_set key v (membersOf c)
    simp only [placed, replace, kids]
    have : ((Map.emplace key Value.null (membersOf c)).map Prod.snd)[((Map.emplace key Value.null (membersOf c)).map Prod.fst).idxOf key]? =
        some (((Map.emplace key Value.null (membersOf c)).map Prod.snd)[((Map.emplace key Value.null (membersOf c)).map Prod.fst).idxOf key]'(by
          rw [List.length_map]; exact h1)) := List.getElem?_eq_getElem _
    rw [this]
    simp only [withKids, h2]
  | error x => cases left <;> simp [placed, hb]

theorem valid_ptr {E : Env F} {o : Obj F} (h : Valid E (.ptr o)) : Valid E o := by simpa [Valid, valuesIn] using h

mutual

theorem toValue_conv (fo : FloatOps F) (d : Order) {E0 : Env F} (o : Obj F) {k : Nat} {s : State F} {E : Env F} {L : Nat → Prop} (hv : Valid E0 o)
    (hs : Holds s E L) (ho : Over E0 E k) (hk : E k = some .null) : Conv' k (State.toValue d k o) s E L (convert d E0 o) := by
  match o, hv with
  | .null, _ =>
    have hm : Made (k + 1) (State.making (.user (k + 1)) (pure ())) s E L (.ok .null) :=
      Conv'.made fo hs (ho.high _ (by omega)) fun s1 h1 => conv_ok h1 (bind_at _ _ _)
    have h2 := assignObj_conv fo hk (ho.high _ (by omega)) (o := .null) (fun _ _ => by simp) hm
    have e : State.assignObj (State.ref (.user k) []) (k + 1) (.null : Obj F) (pure ()) = State.toValue d k .null := by
      simp only [State.assignObj, State.toValue, State.making]
      congr 1
    rw [e] at h2
    simpa [convert] using h2
  | .bool b, _ => simp only [State.toValue, convert]; exact reset_conv fo hs hk rfl
  | .int b, _ => simp only [State.toValue, convert]; exact reset_conv fo hs hk rfl
  | .flt b, _ => simp only [State.toValue, convert]; exact reset_conv fo hs hk rfl
  | .str b, _ => simp only [State.toValue, convert]; exact reset_conv fo hs hk rfl
  | .value x p, hv =>
    have h1 := hv ⟨x, p⟩ (by simp [valuesIn])
    have h2 := (ho.get h1).2
    simp only [State.toValue, convert]
    cases h3 : E0.get ⟨x, p⟩ with
    | none => exact (h1 h3).elim
    | some v => exact copy_conv fo hs hk (h2.trans h3)
  | .ptr o, hv =>
    simp only [State.toValue, convert]
    have hv' : Valid E0 o := valid_ptr hv
    by_cases hx : ∃ x p, o = .value x p
    · obtain ⟨x, p, rfl⟩ := hx
      have h1 := hv' ⟨x, p⟩ (by simp [valuesIn])
      have h2 := (ho.get h1).2
      simp only [State.assignObj, convert]
      cases h3 : E0.get ⟨x, p⟩ with
      | none => exact (h1 h3).elim
      | some v => exact copy_conv fo hs hk (h2.trans h3)
    · refine assignObj_conv fo hk (ho.high _ (by omega)) (fun x p e => hx ⟨x, p, e⟩) ?_
      exact Conv'.made fo hs (ho.high _ (by omega)) fun s1 h1 => toValue_conv fo d o hv' h1 (ho.next _) (bind_at _ _ _)
  | .seq os, hv =>
    simp only [State.toValue, convert]
    refine (reset_conv fo hs hk (v := .arr []) rfl).bind (fun s1 v h1 h2 => ?_) (by simp)
    simp only [Except.ok.injEq] at h1
    subst h1
    exact putItems_conv fo d os (by simpa [Valid, valuesIn] using hv) h2 (ho.bind _) (bind_at _ _ _)
  | .map ms, hv =>
    simp only [State.toValue, convert]
    refine (reset_conv fo hs hk (v := .obj []) rfl).bind (fun s1 v h1 h2 => ?_) (by simp)
    simp only [Except.ok.injEq] at h1
    subst h1
    exact putMembers_conv fo d d.leftFirst ms (by simpa [Valid, valuesIn] using hv) h2 (ho.bind _) (bind_at _ _ _) (.inr ⟨_, rfl⟩)
  | .bound ms, hv =>
    simp only [State.toValue, convert]
    exact putMembers_conv fo d d.macroLeftFirst ms (by simpa [Valid, valuesIn] using hv) hs ho hk (.inl rfl)
  | .throws e, _ =>
    simp only [State.toValue, convert]
    exact .inr ⟨s, e, some .null, L, rfl, by rw [bind_same hk]; exact hs, Later.refl s, .inl ⟨NoFailure.refl s, 0, .null, rfl, MoreBy.refl L, by simp [blocks]⟩⟩

theorem putItems_conv (fo : FloatOps F) (d : Order) {E0 : Env F} (os : List (Obj F)) {k : Nat} {done : List (Value F)} {s : State F} {E : Env F} {L : Nat → Prop}
    (hv : ∀ r ∈ valuesInAll os, E0.get r ≠ none) (hs : Holds s E L) (ho : Over E0 E k) (hk : E k = some (.arr done)) :
    Conv' k (State.putItems d k done.length os) s E L (convertAll d E0 done os) := by
  match os, hv with
  | [], _ => simp only [State.putItems, convertAll]; exact conv_ok hs hk
  | o :: os, hv =>
    have hvo : Valid E0 o := fun r hr => hv r (by simp [valuesInAll, hr])
    have hA : ∀ E1 : Env F, E1 k = some (.arr done) → (Cmd.index ⟨k, []⟩ done.length : Cmd F).Allowed E1 := by
      intro E1 h
      simp only [Cmd.Allowed, Cmd.ArrayLike, Env.get, h, part]
      exact .inr ⟨_, rfl⟩
    have h1 : Conv' k (State.assignPart d.leftFirst ((Cmd.index ⟨k, []⟩ done.length).run fo) (State.ref (.user k) [done.length]) (k + 1) o
        (State.toValue d (k + 1) o)) s E L
        (match convert d E0 o with
        | .ok v => .ok (.arr (done ++ [v]))
        | .error (e, n) => .error (e, n + blocks (.arr done))) := by
      rw [← placed_items done d.leftFirst]
      by_cases hx : ∃ x p, o = .value x p
      · obtain ⟨x, p, rfl⟩ := hx
        have h1 := hvo ⟨x, p⟩ (by simp [valuesIn])
        cases h3 : E0.get ⟨x, p⟩ with
        | none => exact (h1 h3).elim
        | some v =>
          have e : convert d E0 (.value x p) = .ok v := by simp [convert, h3]
          rw [e]
          exact assignPart_value fo _ hs hk hA (fun E1 h => (index_meaning fo h).1) (fun E1 h => (index_meaning fo h).2)
            (by simp [part, kids]) (fun _ _ _ _ _ => rfl) (ho.get h1).1 ((ho.get h1).2.trans h3) _ _ _
      · exact assignPart_conv fo _ hs hk (ho.high _ (by omega)) hA (fun E1 h => (index_meaning fo h).1)
          (fun E1 h => (index_meaning fo h).2) (by simp [part, kids]) (fun _ _ _ _ _ => rfl) (fun x p e => hx ⟨x, p, e⟩)
          fun s1 w h1 => Conv'.made fo h1 (by rw [bind_ne _ (by omega)]; exact ho.high _ (by omega)) fun s2 h2 =>
            toValue_conv fo d o hvo h2 ((ho.bind _).next _) (bind_at _ _ _)
    simp only [State.putItems]
    refine Conv'.bind h1 (fun s1 v h2 h3 => ?_) (fun e h2 => ?_)
    · cases h4 : convert d E0 o with
      | error x => rw [h4] at h2; cases h2
      | ok w =>
        rw [h4] at h2
        simp only [Except.ok.injEq] at h2
        subst h2
        have := putItems_conv fo d os (done := done ++ [w]) (fun r hr => hv r (by simp [valuesInAll, hr])) h3 (ho.bind _) (bind_at _ _ _)
        simp only [convertAll, h4]
        simpa using this
    · cases h4 : convert d E0 o with
      | ok w => rw [h4] at h2; cases h2
      | error x => rw [h4] at h2; simp only [convertAll, h4]; exact h2

theorem putMembers_conv (fo : FloatOps F) (d : Order) (left : Bool) {E0 : Env F} (ms : List (List Nat × Obj F)) {k : Nat} {c : Value F} {s : State F} {E : Env F}
    {L : Nat → Prop} (hv : ∀ r ∈ valuesInMembers ms, E0.get r ≠ none) (hs : Holds s E L) (ho : Over E0 E k) (hk : E k = some c)
    (hc : c = .null ∨ ∃ ms, c = .obj ms) : Conv' k (State.putMembers d left k ms) s E L (convertMembers d E0 left c ms) := by
  match ms, hv with
  | [], _ => simp only [State.putMembers, convertMembers]; exact conv_ok hs hk
  | (key, o) :: ms, hv =>
    have hvo : Valid E0 o := fun r hr => hv r (by simp [valuesInMembers, hr])
    have hA : ∀ E1 : Env F, E1 k = some c → (Cmd.key ⟨k, []⟩ key : Cmd F).Allowed E1 := by
      intro E1 h
      simp only [Cmd.Allowed, Cmd.ObjectLike, Env.get, h, part]
      rcases hc with rfl | ⟨ms, rfl⟩
      · exact .inl rfl
      · exact .inr ⟨_, rfl⟩
    have hp : part (.obj (Map.emplace key .null (membersOf c))) [((Map.emplace key Value.null (membersOf c)).map Prod.fst).idxOf key] ≠ none := by
      have := (emplace_set key .null (membersOf c)).1
      simp [part, kids, List.getElem?_eq_getElem this]
    have h1 : Conv' k (State.assignPart left ((Cmd.key ⟨k, []⟩ key).run fo) (State.member k key) (k + 1) o (State.toValue d (k + 1) o)) s E L
        (match convert d E0 o with
        | .ok v => .ok (.obj (setMember key v (membersOf c)))
        | .error (e, n) => .error (e, n + blocks (if left then fillWith (.obj []) c else c))) := by
      rw [← placed_members hc]
      by_cases hx : ∃ x p, o = .value x p
      · obtain ⟨x, p, rfl⟩ := hx
        have h1 := hvo ⟨x, p⟩ (by simp [valuesIn])
        cases h3 : E0.get ⟨x, p⟩ with
        | none => exact (h1 h3).elim
        | some v =>
          have e : convert d E0 (.value x p) = .ok v := by simp [convert, h3]
          rw [e]
          exact assignPart_value fo _ hs hk hA (fun E1 h => (key_meaning fo h hc key).1) (fun E1 h => (key_meaning fo h hc key).2)
            hp (fun _ _ _ g1 g2 => member_place g1 g2 key) (ho.get h1).1 ((ho.get h1).2.trans h3) _ _ _
      · exact assignPart_conv fo _ hs hk (ho.high _ (by omega)) hA (fun E1 h => (key_meaning fo h hc key).1)
          (fun E1 h => (key_meaning fo h hc key).2) hp (fun _ _ _ g1 g2 => member_place g1 g2 key) (fun x p e => hx ⟨x, p, e⟩)
          fun s1 w h1 => Conv'.made fo h1 (by rw [bind_ne _ (by omega)]; exact ho.high _ (by omega)) fun s2 h2 =>
            toValue_conv fo d o hvo h2 ((ho.bind _).next _) (bind_at _ _ _)
    simp only [State.putMembers]
    refine Conv'.bind h1 (fun s1 v h2 h3 => ?_) (fun e h2 => ?_)
    · cases h4 : convert d E0 o with
      | error x => rw [h4] at h2; cases h2
      | ok w =>
        rw [h4] at h2
        simp only [Except.ok.injEq] at h2
        subst h2
        simp only [convertMembers, h4]
        exact putMembers_conv fo d left ms (fun r hr => hv r (by simp [valuesInMembers, hr])) h3 (ho.bind _) (bind_at _ _ _) (.inr ⟨_, rfl⟩)
    · cases h4 : convert d E0 o with
      | ok w => rw [h4] at h2; cases h2
      | error x => rw [h4] at h2; simp only [convertMembers, h4]; exact h2

end

/-- Calls that begin by destroying the content of `c`, whatever it was. -/
theorem toValue_resets (fo : FloatOps F) (d : Order) {E0 : Env F} {o : Obj F} (hr : Resets o) {k : Nat} {s : State F} {E : Env F} {L : Nat → Prop} {c : Value F}
    (hv : Valid E0 o) (hs : Holds s E L) (ho : Over E0 E k) (hk : E k = some c) : Conv' k (State.toValue d k o) s E L (convert d E0 o) := by
  cases o with
  | bool b => simp only [State.toValue, convert]; exact reset_conv fo hs hk rfl
  | int b => simp only [State.toValue, convert]; exact reset_conv fo hs hk rfl
  | flt b => simp only [State.toValue, convert]; exact reset_conv fo hs hk rfl
  | str b => simp only [State.toValue, convert]; exact reset_conv fo hs hk rfl
  | seq os =>
    simp only [State.toValue, convert]
    refine (reset_conv fo hs hk (v := .arr []) rfl).bind (fun s1 v h1 h2 => ?_) (by simp)
    simp only [Except.ok.injEq] at h1
    subst h1
    exact putItems_conv fo d os (by simpa [Valid, valuesIn] using hv) h2 (ho.bind _) (bind_at _ _ _)
  | map ms =>
    simp only [State.toValue, convert]
    refine (reset_conv fo hs hk (v := .obj []) rfl).bind (fun s1 v h1 h2 => ?_) (by simp)
    simp only [Except.ok.injEq] at h1
    subst h1
    exact putMembers_conv fo d d.leftFirst ms (by simpa [Valid, valuesIn] using hv) h2 (ho.bind _) (bind_at _ _ _) (.inr ⟨_, rfl⟩)
  | null => exact hr.elim
  | value => exact hr.elim
  | ptr => exact hr.elim
  | bound => exact hr.elim
  | throws => exact hr.elim

end Spec
