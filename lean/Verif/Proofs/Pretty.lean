import Verif.Proofs.DumpToks
import Verif.Spec.Pretty
/-! The lines of an indented text. -/
namespace Configor
open Spec

variable {F : Type}

section
variable (w : Nat → Nat) (ch : Nat)

/-- The text of further lines. -/
def more : List Line' → List Nat
  | [] => []
  | (d, t) :: ls => [0x0A] ++ List.replicate (w d) ch ++ t ++ more ls

/-- The text of lines, without the indentation of the first. -/
def body : List Line' → List Nat
  | [] => []
  | (_, t) :: ls => t ++ more w ch ls

theorem more_append (a b : List Line') : more w ch (a ++ b) = more w ch a ++ more w ch b := by
  induction a with
  | nil => rfl
  | cons l a ih => obtain ⟨d, t⟩ := l; simp [more, ih]

theorem textOfLines_cons (d : Nat) (t : List Nat) (ls : List Line') :
    textOfLines w ch ((d, t) :: ls) = List.replicate (w d) ch ++ t ++ more w ch ls := by
  induction ls generalizing d t with
  | nil => simp [textOfLines, more, List.intercalate]
  | cons l ls ih =>
    obtain ⟨d', t'⟩ := l
    have := ih d' t'
    simp only [textOfLines, List.map_cons, List.intercalate, List.intersperse] at this ⊢
    simp only [List.flatten_cons, more]
    rw [this]
    simp

theorem more_onLast (x : List Nat) : ∀ (ls : List Line'), ls ≠ [] → more w ch (onLast x ls) = more w ch ls ++ x
  | [], h => absurd rfl h
  | [(d, l)], _ => by simp [onLast, more]
  | (d, l) :: l' :: ls, _ => by
    have := more_onLast x (l' :: ls) (by simp)
    simp only [onLast, more, this]
    simp

theorem body_onFirst (x : List Nat) (ls : List Line') (h : ls ≠ []) : body w ch (onFirst x ls) = x ++ body w ch ls := by
  cases ls with
  | nil => exact absurd rfl h
  | cons l ls => obtain ⟨d, t⟩ := l; simp [onFirst, body]

end

/-- The depth of the first line. -/
def Starts (d : Nat) (ls : List Line') : Prop := ∃ t r, ls = (d, t) :: r

theorem more_of_starts {w : Nat → Nat} {ch d : Nat} {ls : List Line'} (h : Starts d ls) :
    more w ch ls = [0x0A] ++ List.replicate (w d) ch ++ body w ch ls := by
  obtain ⟨t, r, rfl⟩ := h
  simp [more, body]

theorem linesOf_starts (tok : Value F → List Nat) (ch d : Nat) (v : Value F) : Starts d (linesOf tok ch d v) := by
  cases v <;> exact ⟨_, _, rfl⟩

theorem onFirst_starts {d : Nat} {ls : List Line'} (x : List Nat) (h : Starts d ls) : Starts d (onFirst x ls) := by
  obtain ⟨t, r, rfl⟩ := h
  exact ⟨_, _, rfl⟩

theorem Starts.ne {d : Nat} {ls : List Line'} (h : Starts d ls) : ls ≠ [] := by
  obtain ⟨t, r, rfl⟩ := h
  simp

/-- Items and their lines. -/
theorem more_commas {P : Printer F} {w : Nat → Nat} (hn : P.style.nl = [0x0A]) {d : Nat} (hi : P.style.indent d = List.replicate (w d) P.style.ch) :
    ∀ (is : List (List Line')) (ts : List (List Nat)), (∀ i ∈ is, Starts d i) → ts = is.map (body w P.style.ch) →
      more w P.style.ch (withCommas is) = if ts = [] then [] else P.style.nl ++ P.items d ts
  | [], ts, _, h => by rw [h]; simp [withCommas, more]
  | [i], ts, hs, h => by
    rw [h, hn]
    simp only [withCommas, List.map_cons, List.map_nil, Printer.items, hi]
    rw [more_of_starts (hs i (by simp))]
    simp
  | i :: j :: is, ts, hs, h => by
    have ih := more_commas hn hi (j :: is) _ (fun k hk => hs k (by simp [hk])) rfl
    simp only [List.map_cons] at ih
    rw [if_neg (by simp)] at ih
    rw [h]
    simp only [withCommas, more_append, List.map_cons]
    rw [if_neg (by simp), ih, more_onLast _ _ _ _ (hs i (by simp)).ne, more_of_starts (hs i (by simp))]
    simp only [Printer.items, hn, hi]
    simp

/-- The text of a printer is that of the lines. -/
structure Agree (P : Printer F) (w : Nat → Nat) (tok : Value F → List Nat) : Prop where
  nl : P.style.nl = [0x0A]
  indent : ∀ d, P.style.indent d = List.replicate (w d) P.style.ch
  space : P.style.space = [P.style.ch]
  null : tok .null = P.text 0 .null
  bool : ∀ b, tok (.bool b) = P.text 0 (.bool b)
  int : ∀ i, tok (.int i) = P.num i

theorem text_block {P : Printer F} {w : Nat → Nat} {tok : Value F → List Nat} (H : Agree P w tok) (d op cl : Nat) (is : List (List Line'))
    (ts : List (List Nat)) (hs : ∀ i ∈ is, Starts (d + 1) i) (h : ts = is.map (body w P.style.ch)) :
    P.block d op cl ts = body w P.style.ch ((d, [op]) :: withCommas is ++ [(d, [cl])]) := by
  simp only [List.cons_append, body, more_append, more_commas H.nl (H.indent (d + 1)) is ts hs h]
  simp only [Printer.block, more, H.nl, H.indent]
  simp

mutual

theorem text_lines {P : Printer F} {w : Nat → Nat} {tok : Value F → List Nat} (H : Agree P w tok) (d : Nat) (v : Value F)
    (ht : ∀ s, HasText v s → tok (.str s) = P.literal s) (hf : ∀ f, HasFloat v f → tok (.flt f) = P.flt f) :
    P.text d v = body w P.style.ch (linesOf tok P.style.ch d v) := by
  match v with
  | .null => simp only [linesOf, body, more, H.null, List.append_nil]; rfl
  | .bool true => simp only [linesOf, body, more, H.bool, List.append_nil]; rfl
  | .bool false => simp only [linesOf, body, more, H.bool, List.append_nil]; rfl
  | .int i => simp only [linesOf, body, more, H.int, List.append_nil]; rfl
  | .flt f => simp only [linesOf, body, more, hf f .flt, List.append_nil]; rfl
  | .str s => simp only [linesOf, body, more, ht s .str, List.append_nil]; rfl
  | .arr xs =>
    obtain ⟨h1, h2⟩ := texts_lines H (d + 1) xs (fun s x hx hs => ht s (.elem hx hs)) (fun f x hx hs => hf f (.elem hx hs))
    exact text_block H d _ _ _ _ h1 h2
  | .obj ms =>
    obtain ⟨h1, h2⟩ := members_lines H (d + 1) ms (fun k v hm => ht k (.key hm)) (fun s k x hx hs => ht s (.member hx hs)) (fun f k x hx hs => hf f (.member hx hs))
    exact text_block H d _ _ _ _ h1 h2

theorem texts_lines {P : Printer F} {w : Nat → Nat} {tok : Value F → List Nat} (H : Agree P w tok) (d : Nat) (xs : List (Value F))
    (ht : ∀ s, ∀ x ∈ xs, HasText x s → tok (.str s) = P.literal s) (hf : ∀ f, ∀ x ∈ xs, HasFloat x f → tok (.flt f) = P.flt f) :
    (∀ i ∈ elemLines tok P.style.ch d xs, Starts d i) ∧ P.texts d xs = (elemLines tok P.style.ch d xs).map (body w P.style.ch) := by
  match xs with
  | [] => exact ⟨nofun, rfl⟩
  | x :: xs =>
    obtain ⟨h1, h2⟩ := texts_lines H d xs (fun s y hy => ht s y (by simp [hy])) (fun f y hy => hf f y (by simp [hy]))
    refine ⟨?_, ?_⟩
    · intro i hi
      rcases List.mem_cons.1 hi with rfl | hi
      · exact linesOf_starts _ _ _ _
      · exact h1 i hi
    · simp only [Printer.texts, elemLines, List.map_cons, h2]
      rw [text_lines H d x (fun s => ht s x (by simp)) (fun f => hf f x (by simp))]

theorem members_lines {P : Printer F} {w : Nat → Nat} {tok : Value F → List Nat} (H : Agree P w tok) (d : Nat) (ms : List (List Nat × Value F))
    (hk : ∀ k v, (k, v) ∈ ms → tok (.str k) = P.literal k)
    (ht : ∀ s, ∀ k x, (k, x) ∈ ms → HasText x s → tok (.str s) = P.literal s) (hf : ∀ f, ∀ k x, (k, x) ∈ ms → HasFloat x f → tok (.flt f) = P.flt f) :
    (∀ i ∈ memberLines tok P.style.ch d ms, Starts d i) ∧ P.members d ms = (memberLines tok P.style.ch d ms).map (body w P.style.ch) := by
  match ms with
  | [] => exact ⟨nofun, rfl⟩
  | (k, v) :: ms =>
    obtain ⟨h1, h2⟩ := members_lines H d ms (fun k v h => hk k v (by simp [h])) (fun s k y hy => ht s k y (by simp [hy])) (fun f k y hy => hf f k y (by simp [hy]))
    refine ⟨?_, ?_⟩
    · intro i hi
      rcases List.mem_cons.1 hi with rfl | hi
      · exact onFirst_starts _ (linesOf_starts _ _ _ _)
      · exact h1 i hi
    · simp only [Printer.members, memberLines, List.map_cons, h2]
      rw [text_lines H d v (fun s => ht s k v (by simp)) (fun f => hf f k v (by simp)), body_onFirst _ _ _ _ (linesOf_starts _ _ _ _).ne,
        hk k v (by simp), H.space]
      simp

end

/-! ## Depths -/

theorem onLast_depths (x : List Nat) : ∀ (ls : List Line') (n : Nat), (∀ l ∈ ls, l.1 ≤ n) → ∀ l ∈ onLast x ls, l.1 ≤ n
  | [], _, _ => nofun
  | [(d, t)], n, h => by simpa [onLast] using h
  | (d, t) :: l' :: ls, n, h => by
    intro l hl
    simp only [onLast, List.mem_cons] at hl
    rcases hl with rfl | hl
    · exact h (d, t) (by simp)
    · exact onLast_depths x (l' :: ls) n (fun l hl => h l (List.mem_cons_of_mem _ hl)) l (by simpa [onLast] using hl)

theorem withCommas_depths : ∀ (is : List (List Line')) (n : Nat), (∀ i ∈ is, ∀ l ∈ i, l.1 ≤ n) → ∀ l ∈ withCommas is, l.1 ≤ n
  | [], _, _ => nofun
  | [i], n, h => h i (by simp)
  | i :: j :: is, n, h => by
    intro l hl
    rcases List.mem_append.1 hl with hl | hl
    · exact onLast_depths _ i n (h i (by simp)) l hl
    · exact withCommas_depths (j :: is) n (fun k hk => h k (List.mem_cons_of_mem _ hk)) l hl

mutual

theorem lines_depths (tok : Value F → List Nat) (ch d : Nat) (v : Value F) : ∀ l ∈ linesOf tok ch d v, l.1 ≤ d + levels v := by
  match v with
  | .null => simp [linesOf]
  | .bool _ => simp [linesOf]
  | .int _ => simp [linesOf]
  | .flt _ => simp [linesOf]
  | .str _ => simp [linesOf]
  | .arr xs =>
    have h := withCommas_depths _ (d + 1 + levelsAll xs) (elemLines_depths tok ch (d + 1) xs)
    intro l hl
    simp only [linesOf, List.mem_cons, List.mem_append, List.not_mem_nil, or_false, levels] at hl ⊢
    rcases hl with (rfl | hl) | rfl
    · exact Nat.le_add_right _ _
    · have := h l hl; omega
    · exact Nat.le_add_right _ _
  | .obj ms =>
    have h := withCommas_depths _ (d + 1 + levelsMembers ms) (memberLines_depths tok ch (d + 1) ms)
    intro l hl
    simp only [linesOf, List.mem_cons, List.mem_append, List.not_mem_nil, or_false, levels] at hl ⊢
    rcases hl with (rfl | hl) | rfl
    · exact Nat.le_add_right _ _
    · have := h l hl; omega
    · exact Nat.le_add_right _ _

theorem elemLines_depths (tok : Value F → List Nat) (ch d : Nat) (xs : List (Value F)) : ∀ i ∈ elemLines tok ch d xs, ∀ l ∈ i, l.1 ≤ d + levelsAll xs := by
  match xs with
  | [] => nofun
  | x :: xs =>
    intro i hi l hl
    simp only [levelsAll]
    rcases List.mem_cons.1 hi with rfl | hi
    · have := lines_depths tok ch d x l hl; omega
    · have := elemLines_depths tok ch d xs i hi l hl; omega

theorem memberLines_depths (tok : Value F → List Nat) (ch d : Nat) (ms : List (List Nat × Value F)) :
    ∀ i ∈ memberLines tok ch d ms, ∀ l ∈ i, l.1 ≤ d + levelsMembers ms := by
  match ms with
  | [] => nofun
  | (k, v) :: ms =>
    intro i hi l hl
    simp only [levelsMembers]
    rcases List.mem_cons.1 hi with rfl | hi
    · have h := lines_depths tok ch d v
      obtain ⟨t, r, e⟩ := linesOf_starts tok ch d v
      rw [e] at hl h
      have : l.1 ≤ d + levels v := by
        rcases List.mem_cons.1 hl with rfl | hl
        · exact h (d, t) List.mem_cons_self
        · exact h l (List.mem_cons_of_mem _ hl)
      omega
    · have := memberLines_depths tok ch d ms i hi l hl; omega

end

theorem textOfLines_congr {w w' : Nat → Nat} {ch : Nat} {ls : List Line'} (h : ∀ l ∈ ls, w l.1 = w' l.1) : textOfLines w ch ls = textOfLines w' ch ls := by
  unfold textOfLines
  congr 1
  exact List.map_congr_left fun l hl => by rw [h l hl]

end Configor
