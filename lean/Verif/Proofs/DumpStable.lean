import Verif.Proofs.DumpRound
/-! Dumping a value, parsing the text, and dumping again. -/
namespace Configor
open Spec Props

variable {F : Type}

mutual

theorem withFloats_text (P : Printer F) (fl : F → Value F) (d : Nat) (v : Value F)
    (h : ∀ f, HasFloat v f → ∀ d, P.text d (fl f) = P.flt f) : P.text d (withFloats fl v) = P.text d v := by
  match v with
  | .null | .bool _ | .int _ | .str _ => rfl
  | .flt f =>
    simp only [withFloats]
    rw [h f .flt d]
    rfl
  | .arr xs =>
    simp only [withFloats, Printer.text]
    rw [withFloatsElems_texts P fl (d + 1) xs fun x hx f hf => h f (.elem hx hf)]
  | .obj ms =>
    simp only [withFloats, Printer.text]
    rw [withFloatsMembers_members P fl (d + 1) ms fun k v hx f hf => h f (.member hx hf)]

theorem withFloatsElems_texts (P : Printer F) (fl : F → Value F) (d : Nat) (xs : List (Value F))
    (h : ∀ x ∈ xs, ∀ f, HasFloat x f → ∀ d, P.text d (fl f) = P.flt f) : P.texts d (withFloatsElems fl xs) = P.texts d xs := by
  match xs with
  | [] => rfl
  | x :: xs =>
    simp only [withFloatsElems, Printer.texts]
    rw [withFloats_text P fl d x (h x (by simp)), withFloatsElems_texts P fl d xs fun y hy => h y (by simp [hy])]

theorem withFloatsMembers_members (P : Printer F) (fl : F → Value F) (d : Nat) (ms : List (List Nat × Value F))
    (h : ∀ k v, (k, v) ∈ ms → ∀ f, HasFloat v f → ∀ d, P.text d (fl f) = P.flt f) :
    P.members d (withFloatsMembers fl ms) = P.members d ms := by
  match ms with
  | [] => rfl
  | (k, v) :: ms =>
    simp only [withFloatsMembers, Printer.members]
    rw [withFloats_text P fl d v (h k v (by simp)), withFloatsMembers_members P fl d ms fun k' v' hy => h k' v' (by simp [hy])]

end

theorem withFloatsElems_mem (fl : F → Value F) {xs : List (Value F)} {y : Value F} (h : y ∈ withFloatsElems fl xs) :
    ∃ x ∈ xs, y = withFloats fl x := by
  induction xs with
  | nil => simp [withFloatsElems] at h
  | cons x xs ih =>
    simp only [withFloatsElems, List.mem_cons] at h
    rcases h with rfl | h
    · exact ⟨x, by simp, rfl⟩
    · obtain ⟨z, hz, e⟩ := ih h
      exact ⟨z, by simp [hz], e⟩

theorem withFloatsMembers_mem (fl : F → Value F) {ms : List (List Nat × Value F)} {k : List Nat} {y : Value F} (h : (k, y) ∈ withFloatsMembers fl ms) :
    ∃ x, (k, x) ∈ ms ∧ y = withFloats fl x := by
  induction ms with
  | nil => simp [withFloatsMembers] at h
  | cons m ms ih =>
    obtain ⟨k', v'⟩ := m
    simp only [withFloatsMembers, List.mem_cons, Prod.mk.injEq] at h
    rcases h with ⟨rfl, rfl⟩ | h
    · exact ⟨v', by simp, rfl⟩
    · obtain ⟨z, hz, e⟩ := ih h
      exact ⟨z, by simp [hz], e⟩

theorem withFloats_hasText (fl : F → Value F) {w : Value F} {s : List Nat} (h : HasText w s) :
    ∀ v, w = withFloats fl v → (∀ f, HasFloat v f → ¬ HasText (fl f) s) → HasText v s := by
  induction h with
  | str =>
    intro v e hf
    cases v with
    | str t => injection e with e; subst e; exact .str
    | flt f => exact absurd (by rw [withFloats] at e; rw [← e]; exact .str) (hf f .flt)
    | _ => simp [withFloats] at e
  | elem hx hs ih =>
    intro v e hf
    cases v with
    | flt f => exact absurd (by rw [withFloats] at e; rw [← e]; exact .elem hx hs) (hf f .flt)
    | arr xs =>
      simp only [withFloats, Value.arr.injEq] at e
      subst e
      obtain ⟨x, hx', e⟩ := withFloatsElems_mem fl hx
      exact .elem hx' (ih x e fun f h => hf f (.elem hx' h))
    | _ => simp [withFloats] at e
  | key hx =>
    intro v e hf
    cases v with
    | flt f => exact absurd (by rw [withFloats] at e; rw [← e]; exact .key hx) (hf f .flt)
    | obj ms =>
      simp only [withFloats, Value.obj.injEq] at e
      subst e
      obtain ⟨x, hx', _⟩ := withFloatsMembers_mem fl hx
      exact .key hx'
    | _ => simp [withFloats] at e
  | member hx hs ih =>
    intro v e hf
    cases v with
    | flt f => exact absurd (by rw [withFloats] at e; rw [← e]; exact .member hx hs) (hf f .flt)
    | obj ms =>
      simp only [withFloats, Value.obj.injEq] at e
      subst e
      obtain ⟨x, hx', e⟩ := withFloatsMembers_mem fl hx
      exact .member hx' (ih x e fun f h => hf f (.member hx' h))
    | _ => simp [withFloats] at e

theorem withFloats_hasFloat (fl : F → Value F) {w : Value F} {g : F} (h : HasFloat w g) :
    ∀ v, w = withFloats fl v → ∃ f, HasFloat v f ∧ HasFloat (fl f) g := by
  induction h with
  | flt =>
    intro v e
    cases v with
    | flt f => exact ⟨f, .flt, by rw [withFloats] at e; rw [← e]; exact .flt⟩
    | _ => simp [withFloats] at e
  | elem hx hs ih =>
    intro v e
    cases v with
    | flt f => exact ⟨f, .flt, by rw [withFloats] at e; rw [← e]; exact .elem hx hs⟩
    | arr xs =>
      simp only [withFloats, Value.arr.injEq] at e
      subst e
      obtain ⟨x, hx', e⟩ := withFloatsElems_mem fl hx
      obtain ⟨f, h1, h2⟩ := ih x e
      exact ⟨f, .elem hx' h1, h2⟩
    | _ => simp [withFloats] at e
  | member hx hs ih =>
    intro v e
    cases v with
    | flt f => exact ⟨f, .flt, by rw [withFloats] at e; rw [← e]; exact .member hx hs⟩
    | obj ms =>
      simp only [withFloats, Value.obj.injEq] at e
      subst e
      obtain ⟨x, hx', e⟩ := withFloatsMembers_mem fl hx
      obtain ⟨f, h1, h2⟩ := ih x e
      exact ⟨f, .member hx' h1, h2⟩
    | _ => simp [withFloats] at e

/-- Dumping, parsing and dumping again, if floats are read as numbers with the same text. -/
theorem dump_stable {A : DumpArgs F} {B : ParseArgs F} (hAB : Reverses A B) {spec spec' : Nat → List Nat}
    (hs : Target A.se A.sw spec) (ht : Target A.te A.tw spec') (hb : BlankStyle A.style) (fl : F → Value F) (v : Value F)
    (hv : KeysSorted v) (hi : ∀ i, HasInt v i → -9223372036854775808 < i ∧ i < 9223372036854775808)
    (hf : ∀ f, HasFloat v f → FloatOk A f ∧ All (· < 128) (floatText A.fo f) ∧
      ∀ nx, After nx → Val B.dialect (floatText A.fo f) nx (fl f))
    (hst : ∀ f, HasFloat v f → (∃ g, fl f = .flt g ∧ FloatOk A g ∧ floatText A.fo g = floatText A.fo f) ∨
      ∃ i, fl f = .int i ∧ decText i = floatText A.fo f)
    (htx : ∀ s, HasText v s → TextOk A spec s) :
    ∃ t, (∀ str, jsonDump A none str v = (.ok (), str ++ t)) ∧
      (∀ h c, jsonParse B h c t = (.ok (), withFloats fl v)) ∧
      ∀ str, jsonDump A none str (withFloats fl v) = (.ok (), str ++ t) := by
  obtain ⟨h1, h2⟩ := dump_parse_as hAB hs ht hb fl v hv hi hf htx
  refine ⟨_, h1, h2, fun str => ?_⟩
  have htext : (A.printer spec').text 0 (withFloats fl v) = (A.printer spec').text 0 v := by
    refine withFloats_text _ fl 0 v fun f hf d => ?_
    rcases hst f hf with ⟨g, e, _, e2⟩ | ⟨i, e, e2⟩
    · rw [e]; exact e2
    · rw [e]; exact e2
  have hd := jsonDump_spec ht.prints str (withFloats fl v)
  rcases hr : jsonDump A none str (withFloats fl v) with ⟨e | _, r⟩
  · rw [hr] at hd
    rcases hd with ⟨_, s, hts, hn⟩ | ⟨_, g, hg, hn⟩
    · exfalso
      have hv' := withFloats_hasText fl hts v rfl fun f hf hc => by
        rcases hst f hf with ⟨g, e, _, _⟩ | ⟨i, e, _⟩
        · rw [e] at hc; cases hc
        · rw [e] at hc; cases hc
      -- what can be dumped has only fine texts
      have h0 := jsonDump_spec ht.prints [] v
      rw [h1 []] at h0
      exact hn (h0.1.1 s hv')
    · exfalso
      obtain ⟨f, hf', hg'⟩ := withFloats_hasFloat fl hg v rfl
      rcases hst f hf' with ⟨g', e, e2, _⟩ | ⟨i, e, _⟩
      · rw [e] at hg'
        cases hg'
        exact hn e2
      · rw [e] at hg'
        cases hg'
  · rw [hr] at hd
    rw [hd.2, htext]

end Configor
