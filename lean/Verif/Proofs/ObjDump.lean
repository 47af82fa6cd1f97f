import Verif.Proofs.ObjParse
import Verif.Proofs.DumpRound
/-! What `json::dump` writes of objects of other types, and what is read of it. -/
namespace Configor
open Spec Props Lexer

variable {F : Type}

/-- What makes the text of a value readable. -/
structure TreeBack (B : ParseArgs F) (P : Printer F) (v : Value F) : Prop where
  ints : ∀ i, HasInt v i → -9223372036854775808 < i ∧ i < 9223372036854775808
  floats : ∀ f, ¬ HasFloat v f
  texts : ∀ s, HasText v s → (∀ c ∈ P.txt s, Rereadable P.uesc c) ∧ B.dialect.store (P.txt s) = some s

theorem TreeBack.elem {B : ParseArgs F} {P : Printer F} {xs : List (Value F)} (h : TreeBack B P (.arr xs)) {x : Value F}
    (hx : x ∈ xs) : TreeBack B P x :=
  ⟨fun i hi => h.ints i (.elem hx hi), fun f hf => h.floats f (.elem hx hf), fun s hs => h.texts s (.elem hx hs)⟩

theorem TreeBack.member {B : ParseArgs F} {P : Printer F} {ms : List (List Nat × Value F)} (h : TreeBack B P (.obj ms))
    {k : List Nat} {v : Value F} (hx : (k, v) ∈ ms) : TreeBack B P v :=
  ⟨fun i hi => h.ints i (.member hx hi), fun f hf => h.floats f (.member hx hf), fun s hs => h.texts s (.member hx hs)⟩

theorem decText_tree (B : ParseArgs F) (hB : B.Usual) {i : Int} (h : -9223372036854775808 < i) (h' : i < 9223372036854775808)
    (nx : Option Nat) (hn : After nx) : Tree B.dialect (decText i) nx (.int i) := by
  have := decText_val B hB h h' nx hn
  generalize decText i = t at this
  generalize hv : Value.int i = v at this
  cases this with
  | num h => exact .num h
  | _ => cases hv

mutual

theorem text_tree {B : ParseArgs F} (hB : B.Usual) {P : Printer F} (H : CodePoints P) (v : Value F) (h : TreeBack B P v) (d : Nat)
    (nx : Option Nat) (hn : After nx) : Tree B.dialect (P.text d v) nx v := by
  match v with
  | .null => exact .vnull (keyword_ascii hB.sw (by decide))
  | .bool true => exact .vtrue (keyword_ascii hB.sw (by decide))
  | .bool false => exact .vfalse (keyword_ascii hB.sw (by decide))
  | .int i =>
    simp only [Printer.text, H.num]
    exact decText_tree B hB (h.ints i .int).1 (h.ints i .int).2 nx hn
  | .flt f => exact absurd .flt (h.floats f)
  | .str s =>
    simp only [Printer.text]
    exact .str (literal_strLit H (h.texts s .str))
  | .arr [] =>
    simp only [Printer.text, Printer.block, Printer.texts]
    have := TreeElems.close (D := B.dialect) (blanks_append (nl_blank P.style) (indent_blank H.style d))
    simpa using Tree.arr (nx := nx) this
  | .arr (x :: xs) =>
    have := text_treeElems hB H (x :: xs) (by simp) (fun y hy => h.elem hy) (d + 1) (P.style.nl ++ P.style.indent d)
      (fun c hc => (List.mem_append.1 hc).elim (nl_blank _ c) (indent_blank H.style d c))
    have := Tree.arr (nx := nx) this
    simpa [Printer.text, Printer.block, Printer.texts] using this
  | .obj [] =>
    simp only [Printer.text, Printer.block, Printer.members]
    have := TreeMembers.close (D := B.dialect) (blanks_append (nl_blank P.style) (indent_blank H.style d))
    simpa using Tree.obj (nx := nx) this
  | .obj ((k, v) :: ms) =>
    have := text_treeMembers hB H ((k, v) :: ms) (by simp) (fun k' v' hy => ⟨h.texts k' (.key hy), h.member hy⟩) (d + 1) (P.style.nl ++ P.style.indent d)
      (fun c hc => (List.mem_append.1 hc).elim (nl_blank _ c) (indent_blank H.style d c))
    have := Tree.obj (nx := nx) this
    simpa [Printer.text, Printer.block, Printer.members] using this

theorem text_treeElems {B : ParseArgs F} (hB : B.Usual) {P : Printer F} (H : CodePoints P) (xs : List (Value F)) (hne : xs ≠ [])
    (h : ∀ y ∈ xs, TreeBack B P y) (d : Nat) (g : List Nat) (hg : ∀ c ∈ g, IsBlank c) :
    TreeElems B.dialect (P.style.nl ++ P.items d (P.texts d xs) ++ g ++ [0x5D]) xs := by
  match xs with
  | [] => exact absurd rfl hne
  | [x] =>
    have := TreeElems.last (D := B.dialect) (blanks_append (nl_blank P.style) (indent_blank H.style d))
      (text_tree hB H x (h x (by simp)) d _ (after_blanks hg (Or.inr (Or.inl rfl)))) (gap_blanks hg)
    simpa [Printer.texts, Printer.items] using this
  | x :: y :: ys =>
    have := TreeElems.more (D := B.dialect) (blanks_append (nl_blank P.style) (indent_blank H.style d))
      (text_tree hB H x (h x (by simp)) d _ (after_blanks (g := []) (by simp) (Or.inl rfl))) .nil
      (text_treeElems hB H (y :: ys) (by simp) (fun z hz => h z (by simp [hz])) d g hg)
    simp only [Printer.texts, printItems_cons P d _ (_ :: _)] at this ⊢
    simpa using this

theorem text_treeMembers {B : ParseArgs F} (hB : B.Usual) {P : Printer F} (H : CodePoints P)
    (ms : List (List Nat × Value F)) (hne : ms ≠ [])
    (h : ∀ k' v', (k', v') ∈ ms →
      ((∀ c ∈ P.txt k', Rereadable P.uesc c) ∧ B.dialect.store (P.txt k') = some k') ∧ TreeBack B P v')
    (d : Nat) (g : List Nat) (hg : ∀ c ∈ g, IsBlank c) :
    TreeMembers B.dialect (P.style.nl ++ P.items d (P.members d ms) ++ g ++ [0x7D]) ms := by
  match ms with
  | [] => exact absurd rfl hne
  | [(k, v)] =>
    have := TreeMembers.last (D := B.dialect) (g1 := []) (blanks_append (nl_blank P.style) (indent_blank H.style d))
      (literal_strLit H (h k v (by simp)).1) .nil (gap_blanks (space_blank H.style))
      (text_tree hB H v (h k v (by simp)).2 d _ (after_blanks hg (Or.inr (Or.inr rfl)))) (gap_blanks hg)
    simpa [Printer.members, Printer.items] using this
  | (k, v) :: (k', v') :: ms =>
    have := TreeMembers.more (D := B.dialect) (g1 := []) (blanks_append (nl_blank P.style) (indent_blank H.style d))
      (literal_strLit H (h k v (by simp)).1) .nil (gap_blanks (space_blank H.style))
      (text_tree hB H v (h k v (by simp)).2 d _ (after_blanks (g := []) (by simp) (Or.inl rfl))) .nil
      (text_treeMembers hB H ((k', v') :: ms) (by simp) (fun k'' v'' hz => h k'' v'' (by simp [hz])) d g hg)
    simp only [Printer.members, printItems_cons P d _ (_ :: _)] at this ⊢
    simpa using this

end

/-- A handler is of no effect if the call succeeds without it. -/
theorem jsonParseO_handler {A : ParseArgs F} {ins : Emplace F} {c v : Value F} {str : List Nat}
    (h : jsonParseO A ins none c str = (.ok (), v)) (hd : Option Handler) : jsonParseO A ins hd c str = (.ok (), v) := by
  unfold jsonParseO parseFromO parseO at h ⊢
  rcases hn : readNext (A.cfg (strSBuf A.sw) (2 * str.length + 4)) (Lex.init (.ofBuf (.ofString str)) (A.fo.ofInt 0)) with ⟨e | _, s⟩
  · rw [hn] at h; simp at h
  · rw [hn] at h
    simp only [handled_none] at h ⊢
    rcases hb : parseBodyO (A.cfg (strSBuf A.sw) (2 * str.length + 4)) ins (2 * str.length + 4) c s with ⟨e | _, s', w⟩
    · rw [hb] at h; simp at h
    · rw [hb] at h
      simpa [handled] using h

/-- Dumping a value, and the tree of the text. -/
theorem dump_tree {A : DumpArgs F} {B : ParseArgs F} (hAB : Reverses A B) {spec spec' : Nat → List Nat}
    (hs : Target A.se A.sw spec) (ht : Target A.te A.tw spec') (hb : BlankStyle A.style) (v : Value F)
    (hi : ∀ i, HasInt v i → -9223372036854775808 < i ∧ i < 9223372036854775808) (hf : ∀ f, ¬ HasFloat v f)
    (htx : ∀ s, HasText v s → TextOk A spec s) :
    (∀ str, jsonDump A none str v = (.ok (), str ++ (A.printer spec').text 0 v)) ∧
    TreeDocument B.dialect (itemsOf B.se B.sw ((A.printer spec').text 0 v)) v := by
  have hB : B.Usual := ⟨by rw [hAB.sw]; exact ht.width, by rw [hAB.tw]; exact hs.width⟩
  obtain ⟨h1, hread, h3⟩ := dump_reads_text hAB hs ht hb v (fun f h => absurd h (hf f)) htx
  refine ⟨h1, ?_⟩
  rw [← (sees_iff B _ _).1 hread.sees]
  exact ⟨[], (A.printer self).text 0 v, [], [], by simp, .nil,
    by simpa using text_tree hB ⟨hb, rfl, fun _ => rfl⟩ v ⟨hi, hf, h3⟩ 0 none (by simp [After]), .eof .nil⟩

/-- Dumping a value and parsing the text with an object type. -/
theorem dump_parseO {A : DumpArgs F} {B : ParseArgs F} (hAB : Reverses A B) {spec spec' : Nat → List Nat}
    (hs : Target A.se A.sw spec) (ht : Target A.te A.tw spec') (hb : BlankStyle A.style) (v : Value F)
    (hi : ∀ i, HasInt v i → -9223372036854775808 < i ∧ i < 9223372036854775808) (hf : ∀ f, ¬ HasFloat v f)
    (htx : ∀ s, HasText v s → TextOk A spec s) :
    (∀ str, jsonDump A none str v = (.ok (), str ++ (A.printer spec').text 0 v)) ∧
    ∀ ins h c, jsonParseO B ins h c ((A.printer spec').text 0 v) = (.ok (), arranged (keepOf ins) v) := by
  have hB : B.Usual := ⟨by rw [hAB.sw]; exact ht.width, by rw [hAB.tw]; exact hs.width⟩
  obtain ⟨h1, h2⟩ := dump_tree hAB hs ht hb v hi hf htx
  exact ⟨h1, fun ins h c => jsonParseO_handler ((jsonParseO_iff hB ins c _ _).2 ⟨v, h2, rfl⟩) h⟩

/-! ## Values that an object type leaves as they are -/

mutual

theorem arranged_self {keep : MemberList F → MemberList F} (v : Value F)
    (h : ∀ ms, Within v (.obj ms) → keep ms = ms) : arranged keep v = v := by
  match v with
  | .null | .bool _ | .int _ | .flt _ | .str _ => simp [arranged]
  | .arr xs => simp only [arranged]; rw [arrangedElems_self xs fun x hx ms hm => h ms (.elem hx hm)]
  | .obj ms =>
    simp only [arranged]
    rw [arrangedMembers_self ms fun k x hx ms hm => h ms (.member hx hm), h ms .refl]

theorem arrangedElems_self {keep : MemberList F → MemberList F} (xs : List (Value F))
    (h : ∀ x ∈ xs, ∀ ms, Within x (.obj ms) → keep ms = ms) : arrangedElems keep xs = xs := by
  match xs with
  | [] => rfl
  | x :: xs =>
    simp only [arrangedElems]
    rw [arranged_self x (h x (by simp)), arrangedElems_self xs fun y hy => h y (by simp [hy])]

theorem arrangedMembers_self {keep : MemberList F → MemberList F} (ms : MemberList F)
    (h : ∀ k x, (k, x) ∈ ms → ∀ ns, Within x (.obj ns) → keep ns = ns) : arrangedMembers keep ms = ms := by
  match ms with
  | [] => rfl
  | (k, x) :: ms =>
    simp only [arrangedMembers]
    rw [arranged_self x (h k x (by simp)), arrangedMembers_self ms fun k y hy => h k y (by simp [hy])]

end

mutual

theorem arranged_same {keep : MemberList F → MemberList F}
    (hk : ∀ ms : MemberList F, (ms.map Prod.fst).Nodup → ms.Perm (keep ms)) (v : Value F)
    (h : ∀ ms : MemberList F, Within v (.obj ms) → (ms.map Prod.fst).Nodup) : SameMembers v (arranged keep v) := by
  match v with
  | .null => exact .null
  | .bool _ => exact .bool
  | .int _ => exact .int
  | .flt _ => exact .flt
  | .str _ => exact .str
  | .arr xs => exact .arr (arrangedElems_same hk xs fun x hx ms hm => h ms (.elem hx hm))
  | .obj ms =>
    refine .obj (arrangedMembers_same hk ms fun k x hx ms hm => h ms (.member hx hm)) (hk _ ?_)
    rw [arrangedMembers_keys]
    exact h ms .refl

theorem arrangedElems_same {keep : MemberList F → MemberList F}
    (hk : ∀ ms : MemberList F, (ms.map Prod.fst).Nodup → ms.Perm (keep ms)) (xs : List (Value F))
    (h : ∀ x ∈ xs, ∀ ms, Within x (.obj ms) → (ms.map Prod.fst).Nodup) : SameElems xs (arrangedElems keep xs) := by
  match xs with
  | [] => exact .nil
  | x :: xs => exact .cons (arranged_same hk x (h x (by simp))) (arrangedElems_same hk xs fun y hy => h y (by simp [hy]))

theorem arrangedMembers_same {keep : MemberList F → MemberList F}
    (hk : ∀ ms : MemberList F, (ms.map Prod.fst).Nodup → ms.Perm (keep ms)) (ms : MemberList F)
    (h : ∀ k x, (k, x) ∈ ms → ∀ ns, Within x (.obj ns) → (ns.map Prod.fst).Nodup) : SamePairs ms (arrangedMembers keep ms) := by
  match ms with
  | [] => exact .nil
  | (k, x) :: ms =>
    exact .cons (arranged_same hk x (h k x (by simp))) (arrangedMembers_same hk ms fun k y hy => h k y (by simp [hy]))

end

end Configor
