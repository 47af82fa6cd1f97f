import Verif.Proofs.LexNumber
/-! Soundness of the parser: what it accepts is in the grammar, it does not run out of its
loop bound, and why it fails. -/
namespace Configor
open Lexer Spec

variable {F α β : Type} {C : Cfg CpS F} {l : List (Option Nat)} {d : Data F} {E : Stop → Prop}

theorem Post.mono {E' : Stop → Prop} {m : L CpS F α} {Q : List Nat → α → List (Option Nat) → Data F → Prop}
    (h : Post E m l d Q) (hE : ∀ e, E e → E' e) : Post E' m l d Q := by
  unfold Post at *
  rcases hm : m (At l d) with ⟨_ | a, s⟩
  · rw [hm] at h; exact hE _ h
  · rw [hm] at h; exact h

/-- What a token stands for: the text `t` was consumed, `l'` is left. -/
def ScanRes (C : Cfg CpS F) (a : Token) (t : List Nat) (l' : List (Option Nat)) (d' : Data F) : Prop :=
  match a with
  | .uninitialized => False
  | .endOfInput => Finish t l'
  | .beginArray => ∃ g, Gap g ∧ t = g ++ [0x5B]
  | .endArray => ∃ g, Gap g ∧ t = g ++ [0x5D]
  | .beginObject => ∃ g, Gap g ∧ t = g ++ [0x7B]
  | .endObject => ∃ g, Gap g ∧ t = g ++ [0x7D]
  | .nameSeparator => ∃ g, Gap g ∧ t = g ++ [0x3A]
  | .valueSeparator => ∃ g, Gap g ∧ t = g ++ [0x2C]
  | .literalTrue => ∃ g k, Gap g ∧ t = g ++ k ∧ Keyword C.w kTrue k
  | .literalFalse => ∃ g k, Gap g ∧ t = g ++ k ∧ Keyword C.w kFalse k
  | .literalNull => ∃ g k, Gap g ∧ t = g ++ k ∧ Keyword C.w kNull k
  | .valueString => Gap t ∧ hd l' = 0x22
  | .valueInteger => ∃ g k, Gap g ∧ t = g ++ k ∧
      Number C.dialect k (look l') (.int (if d'.neg then -d'.numI else d'.numI))
  | .valueFloat => ∃ g k, Gap g ∧ t = g ++ k ∧
      Number C.dialect k (look l') (.flt (if d'.neg then C.fo.neg d'.numF else d'.numF))

theorem post_single (H : Canon C) (hx : E (.exn .deserialization)) (tok : Token) (hl : Ok l) :
    Post E (single C tok) l d fun t a _ _ => t = one l ∧ a = tok := by
  unfold single
  exact .bind (.readNext H hx hl fun ho _ _ => .pure ho ⟨by simp, rfl⟩)

theorem post_scan (H : Canon C) (hE : ∀ e, Fault C l e → E e) (hl : Ok l) (hb : l.length + 1 ≤ C.bound) :
    Post E (scan C) l d fun t a l' d' => ScanRes C a t l' d' := by
  have hx : E (.exn .deserialization) := hE _ (Or.inl rfl)
  unfold scan
  refine .bind ((post_skipSpaces H hx _ hl hb hb).imp ?_)
  rintro g _ l1 d1 hl1 ho1 ⟨rfl, hg⟩ _ _
  have hlen := len_of hl1
  refine .bind (.eof H ho1 fun _ _ => ?_)
  refine .ite (fun he => ?_) (fun he => ?_)
  · have he : l1 = [] := by simpa using he
    refine .pure ho1 ?_
    show Finish _ _
    simp only [List.append_nil]
    rcases hg with ⟨h1, _⟩ | ⟨_, g', u, h1, h2, rfl⟩
    · rw [he]; exact .eof h1
    · rw [he]; exact .eofInLine h1 h2
  · simp only [Bool.not_eq_true] at he
    obtain ⟨r, hr⟩ := cons_of_nonempty ho1 he
    have hg : Gap g := by
      rcases hg with ⟨h1, _⟩ | ⟨h1, _⟩
      · exact h1
      · rw [h1] at he; simp at he
    have hone : one l1 = [hd l1] := by rw [hr]; rfl
    refine .bind (.cur ho1 fun _ _ => ?_)
    have sing : ∀ (ch : Nat) (tok : Token), hd l1 = ch →
        Post E (single C tok) l1 d1 fun t' a _ _ => a = tok ∧ ∃ g', Gap g' ∧ g ++ ([] ++ ([] ++ t')) = g' ++ [ch] := by
      intro ch tok hch
      refine (post_single H hx tok ho1).imp ?_
      rintro t' a l' d' _ _ ⟨rfl, rfl⟩
      exact ⟨rfl, g, hg, by rw [hone, hch]; rfl⟩
    have lit : ∀ (k : List Nat) (tok : Token), (∀ c ∈ k, c ≠ 0) → k ≠ [] → k.head? = some (hd l1) →
        Post E (scanLiteral C k tok) l1 d1 fun t' a _ _ => a = tok ∧
          ∃ g' k', Gap g' ∧ g ++ ([] ++ ([] ++ t')) = g' ++ k' ∧ Keyword C.w k k' := by
      intro k tok hk hkne hkh
      refine (post_scanLiteral H hx k tok hk ho1).imp ?_
      rintro t' a l' d' hl' _ ⟨_, rfl, h3⟩
      refine ⟨rfl, g, t', hg, by simp, ?_, h3⟩
      rw [hkh]
      cases t' with
      | nil => simp at h3; exact absurd h3 hkne
      | cons c t' =>
        rw [hl']; rfl
    refine .ite (fun hs => ?_) (fun _ => ?_)
    · exact (sing 0x5B _ (by simpa using hs)).imp (by rintro t' a l' d' _ _ ⟨rfl, h⟩; exact h)
    refine .ite (fun hs => ?_) (fun _ => ?_)
    · exact (sing 0x5D _ (by simpa using hs)).imp (by rintro t' a l' d' _ _ ⟨rfl, h⟩; exact h)
    refine .ite (fun hs => ?_) (fun _ => ?_)
    · exact (sing 0x7B _ (by simpa using hs)).imp (by rintro t' a l' d' _ _ ⟨rfl, h⟩; exact h)
    refine .ite (fun hs => ?_) (fun _ => ?_)
    · exact (sing 0x7D _ (by simpa using hs)).imp (by rintro t' a l' d' _ _ ⟨rfl, h⟩; exact h)
    refine .ite (fun hs => ?_) (fun _ => ?_)
    · exact (sing 0x3A _ (by simpa using hs)).imp (by rintro t' a l' d' _ _ ⟨rfl, h⟩; exact h)
    refine .ite (fun hs => ?_) (fun _ => ?_)
    · exact (sing 0x2C _ (by simpa using hs)).imp (by rintro t' a l' d' _ _ ⟨rfl, h⟩; exact h)
    refine .ite (fun hs => ?_) (fun _ => ?_)
    · have hs : hd l1 = 0x74 := by simpa using hs
      exact (lit kTrue _ (by decide) (by decide) (by rw [hs]; rfl)).imp (by rintro t' a l' d' _ _ ⟨rfl, h⟩; exact h)
    refine .ite (fun hs => ?_) (fun _ => ?_)
    · have hs : hd l1 = 0x66 := by simpa using hs
      exact (lit kFalse _ (by decide) (by decide) (by rw [hs]; rfl)).imp (by rintro t' a l' d' _ _ ⟨rfl, h⟩; exact h)
    refine .ite (fun hs => ?_) (fun _ => ?_)
    · have hs : hd l1 = 0x6E := by simpa using hs
      exact (lit kNull _ (by decide) (by decide) (by rw [hs]; rfl)).imp (by rintro t' a l' d' _ _ ⟨rfl, h⟩; exact h)
    refine .ite (fun hs => .pure ho1 ?_) (fun _ => ?_)
    · exact ⟨by simpa using hg, by simpa using hs⟩
    refine .ite (fun hs => ?_) (fun _ => ?_)
    · have hs : (hd l1 = 0x2D ∨ hd l1 = 0x2B) ∨ 0x30 ≤ hd l1 ∧ hd l1 ≤ 0x39 := by simpa using hs
      refine ((post_scanNumber H ho1 (by omega) hs).mono ?_).imp ?_
      · intro e he
        apply hE
        rw [hl1]
        exact he.suffix
      · rintro t' a l' d' _ _ ⟨v, h1, ⟨rfl, rfl⟩ | ⟨rfl, rfl⟩⟩
        · exact ⟨g, t', hg, by simp, h1⟩
        · exact ⟨g, t', hg, by simp, h1⟩
    refine .ite (fun hs => .pure ho1 ?_) (fun _ => .fail hx)
    have hs : hd l1 = 0 := by simpa using hs
    show Finish _ _
    rw [hr, hs]
    exact .nul (by simpa using hg)

/-! ## Keys and members -/

theorem ltKey_iff (a b : List Nat) : ltKey a b = true ↔ a < b := by
  induction a generalizing b with
  | nil => cases b <;> simp [ltKey]
  | cons x a ih =>
    cases b with
    | nil => simp [ltKey]
    | cons y b =>
      simp only [ltKey, List.cons_lt_cons_iff]
      split
      · simp_all
      · split
        · simp; omega
        · have : x = y := by omega
          simp [ih, this]

theorem ltKey_false (a b : List Nat) : ltKey a b = false ↔ ¬ a < b := by
  rw [← ltKey_iff]; simp

/-- The keys increase strictly. -/
def Sorted {V : Type} (m : Map.T V) : Prop := m.Pairwise (fun a b => a.1 < b.1)

theorem key_total {a b : List Nat} (h1 : ¬ a < b) (h2 : ¬ b < a) : a = b :=
  List.le_antisymm (List.not_lt.1 h2) (List.not_lt.1 h1)

theorem key_trans {a b c : List Nat} (h1 : a < b) (h2 : b < c) : a < c := List.lt_trans h1 h2

theorem lookup_if {V : Type} (x : List Nat × V) (m : Map.T V) (k : List Nat) :
    List.lookup k (x :: m) = if k = x.1 then some x.2 else List.lookup k m := by
  rw [List.lookup_cons]
  by_cases h : k = x.1
  · rw [if_pos h, beq_iff_eq.2 h]
  · rw [if_neg h, beq_eq_false_iff_ne.2 h]

theorem lookup_of_lt {V : Type} {m : Map.T V} {k : List Nat} (h : ∀ x ∈ m, k < x.1) : m.lookup k = none := by
  induction m with
  | nil => rfl
  | cons x m ih =>
    have hx := h x (by simp)
    have : (k == x.1) = false := by
      rw [beq_eq_false_iff_ne]
      rintro h
      rw [← h] at hx
      exact List.lt_irrefl _ hx
    rw [List.lookup_cons, this]
    exact ih fun y hy => h y (by simp [hy])

theorem emplace_mem {V : Type} {m : Map.T V} {k : List Nat} {v : V} {x : List Nat × V}
    (h : x ∈ Map.emplace k v m) : x = (k, v) ∨ x ∈ m := by
  induction m with
  | nil => simpa [Map.emplace] using h
  | cons y m ih =>
    unfold Map.emplace at h
    split at h
    · simpa using h
    · split at h
      · rcases List.mem_cons.1 h with h | h
        · simp [h]
        · rcases ih h with h | h <;> simp [h]
      · right; exact h

theorem emplace_sorted {V : Type} {m : Map.T V} {k : List Nat} {v : V} (hm : Sorted m) :
    Sorted (Map.emplace k v m) := by
  induction m with
  | nil => simp [Map.emplace, Sorted]
  | cons y m ih =>
    obtain ⟨ky, vy⟩ := y
    have hm' := List.pairwise_cons.1 hm
    unfold Map.emplace
    split
    · rename_i h
      rw [ltKey_iff] at h
      refine List.pairwise_cons.2 ⟨?_, hm⟩
      intro x hx
      rcases List.mem_cons.1 hx with rfl | hx
      · exact h
      · exact key_trans h (hm'.1 x hx)
    · split
      · rename_i h1 h2
        rw [ltKey_iff] at h2
        refine List.pairwise_cons.2 ⟨?_, ih hm'.2⟩
        intro x hx
        rcases emplace_mem hx with rfl | hx
        · exact h2
        · exact hm'.1 x hx
      · exact hm

theorem emplace_lookup {V : Type} {m : Map.T V} {k : List Nat} {v : V} (hm : Sorted m) (j : List Nat) :
    (Map.emplace k v m).lookup j = ((m.lookup j).or (if j = k then some v else none)) := by
  induction m with
  | nil => 
    simp only [Map.emplace, lookup_if, List.lookup_nil, Option.none_or]
  | cons y m ih =>
    obtain ⟨ky, vy⟩ := y
    have hm' := List.pairwise_cons.1 hm
    unfold Map.emplace
    split
    · rename_i h
      rw [ltKey_iff] at h
      rw [lookup_if]
      by_cases hj : j = k
      · subst hj
        have : List.lookup j ((ky, vy) :: m) = none := by
          apply lookup_of_lt
          intro x hx
          rcases List.mem_cons.1 hx with rfl | hx
          · exact h
          · exact key_trans h (hm'.1 x hx)
        rw [this]
        simp
      · simp [hj]
    · split
      · rename_i h1 h2
        rw [ltKey_iff] at h2
        rw [lookup_if, lookup_if, ih hm'.2]
        split
        · simp
        · rfl
      · rename_i h1 h2
        rw [ltKey_iff] at h1 h2
        have : k = ky := key_total h1 h2
        subst this
        rw [lookup_if]
        by_cases hj : j = k
        · simp [hj]
        · simp [hj]

/-- Adding members in order. -/
def addAll {V : Type} (m : Map.T V) (ms : List (List Nat × V)) : Map.T V :=
  ms.foldl (fun m x => Map.emplace x.1 x.2 m) m

theorem addAll_spec {V : Type} (ms : List (List Nat × V)) {m : Map.T V} (hm : Sorted m) :
    Sorted (addAll m ms) ∧ ∀ k, (addAll m ms).lookup k = (m.lookup k).or (ms.lookup k) := by
  induction ms generalizing m with
  | nil => exact ⟨hm, fun k => by simp [addAll]⟩
  | cons x ms ih =>
    have := ih (emplace_sorted (k := x.1) (v := x.2) hm)
    refine ⟨this.1, fun k => ?_⟩
    show (addAll (Map.emplace x.1 x.2 m) ms).lookup k = _
    rw [this.2, emplace_lookup hm, lookup_if, Option.or_assoc]
    congr 1
    by_cases hk : k = x.1 <;> simp [hk]

theorem addAll_firstWins (ms : List (List Nat × Value F)) : FirstWins ms (addAll [] ms) := by
  have := addAll_spec ms (m := []) (by simp [Sorted])
  exact ⟨this.1, fun k => by rw [this.2]; simp⟩

theorem sorted_ext {V : Type} {m m' : Map.T V} (h : Sorted m) (h' : Sorted m')
    (e : ∀ k, m.lookup k = m'.lookup k) : m = m' := by
  induction m generalizing m' with
  | nil =>
    cases m' with
    | nil => rfl
    | cons x m' =>
      have := e x.1
      simp [lookup_if] at this
  | cons x m ih =>
    cases m' with
    | nil =>
      have := e x.1
      simp [lookup_if] at this
    | cons y m' =>
      have hx := List.pairwise_cons.1 h
      have hy := List.pairwise_cons.1 h'
      have key : x.1 = y.1 := by
        apply key_total
        · intro hlt
          have h1 := e x.1
          rw [lookup_if, if_pos rfl] at h1
          have : List.lookup x.1 (y :: m') = none := by
            apply lookup_of_lt
            intro z hz
            rcases List.mem_cons.1 hz with rfl | hz
            · exact hlt
            · exact key_trans hlt (hy.1 z hz)
          rw [this] at h1
          cases h1
        · intro hlt
          have h1 := e y.1
          rw [lookup_if y, if_pos rfl] at h1
          have : List.lookup y.1 (x :: m) = none := by
            apply lookup_of_lt
            intro z hz
            rcases List.mem_cons.1 hz with rfl | hz
            · exact hlt
            · exact key_trans hlt (hx.1 z hz)
          rw [this] at h1
          cases h1
      have hv : x.2 = y.2 := by
        have h1 := e x.1
        rw [lookup_if, if_pos rfl, lookup_if, if_pos key] at h1
        simpa using h1
      have hxy : x = y := Prod.ext key hv
      subst hxy
      congr 1
      refine ih hx.2 hy.2 fun k => ?_
      by_cases hk : k = x.1
      · subst hk
        rw [lookup_of_lt hx.1, lookup_of_lt hy.1]
      · have h1 := e k
        rw [lookup_if, lookup_if] at h1
        simpa [hk] using h1

theorem firstWins_unique {ms r r' : List (List Nat × Value F)} (h : FirstWins ms r) (h' : FirstWins ms r') :
    r = r' := sorted_ext h.1 h'.1 fun k => by rw [h.2, h'.2]

/-! ## The parser -/

/-- As `Post`, for the functions that return a value. -/
def PPost (E : Stop → Prop) (m : Lex CpS F → PRes CpS F) (l : List (Option Nat)) (d : Data F)
    (Q : List Nat → Value F → List (Option Nat) → Prop) : Prop :=
  match m (At l d) with
  | (.ok _, s, v) => ∃ t l' d', s = At l' d' ∧ Ok l' ∧ l = t.map some ++ l' ∧ Q t v l'
  | (.error e, _, _) => E e

theorem look_append {t : List Nat} (h : t ≠ []) (k : List (Option Nat)) : look (t.map some ++ k) = t.head? := by
  cases t with
  | nil => exact absurd rfl h
  | cons c t => simp [look]

/-- Where the fuel of the parser is enough. -/
def Enough (n : Nat) (l : List (Option Nat)) (a : Token) : Prop :=
  1 ≤ n ∧ (a = .beginArray ∨ a = .beginObject → 2 * l.length + 2 ≤ n)

theorem parser_sound (H : Canon C) (n : Nat) :
    (∀ l d xs, Ok l → l.length + 1 ≤ C.bound → 2 * l.length + 1 ≤ n → (∀ e, Fault C l e → E e) →
      PPost E (parseArray C n xs) l d fun t v _ => ∃ ys, v = .arr (xs ++ ys) ∧ Elems C.dialect t ys) ∧
    (∀ l d ms, Ok l → l.length + 1 ≤ C.bound → 2 * l.length + 1 ≤ n → (∀ e, Fault C l e → E e) →
      PPost E (parseObject C n ms) l d fun t v _ => ∃ ms', v = .obj (addAll ms ms') ∧ Members C.dialect t ms') ∧
    (∀ l d c a t0, Ok l → l.length + 1 ≤ C.bound → Enough n l a → ScanRes C a t0 l d →
      (∀ e, Fault C l e → E e) →
      PPost E (doParse C n c (some a)) l d fun t v l' => ∃ g u, t0 ++ t = g ++ u ∧ Gap g ∧
        Val C.dialect u (look l') v) := by
  induction n with
  | zero => refine ⟨fun l d xs _ _ h => ?_, fun l d xs _ _ h => ?_, fun l d c a t0 _ _ h => ?_⟩
            · omega
            · omega
            · exact absurd h.1 (by omega)
  | succ n ih =>
    obtain ⟨ihA, ihO, ihV⟩ := ih
    refine ⟨?_, ?_, ?_⟩
    · -- arrays
      intro l d xs hl hb hn hE
      have hx : E (.exn .deserialization) := hE _ (Or.inl rfl)
      have hs := post_scan (d := d) H hE hl hb
      unfold PPost
      rw [parseArray]
      unfold Post at hs
      rcases hsc : scan C (At l d) with ⟨e | a, s⟩
      · rw [hsc] at hs; exact hs
      rw [hsc] at hs
      obtain ⟨t1, l1, d1, rfl, ho1, hl1, hr1⟩ := hs
      have len1 := len_of hl1
      simp only
      by_cases hst : a.startsValue = true
      · rw [if_pos hst]
        have hen : Enough n l1 a := by
          cases a <;> simp [Token.startsValue] at hst <;> simp [Enough]
          · obtain ⟨g, k, _, rfl, hk, _⟩ := hr1
            have : k ≠ [] := by rintro rfl; simp [kTrue] at hk
            have := List.length_pos_iff.2 this
            simp at len1; omega
          · obtain ⟨g, k, _, rfl, hk, _⟩ := hr1
            have : k ≠ [] := by rintro rfl; simp [kFalse] at hk
            have := List.length_pos_iff.2 this
            simp at len1; omega
          · obtain ⟨g, k, _, rfl, hk, _⟩ := hr1
            have : k ≠ [] := by rintro rfl; simp [kNull] at hk
            have := List.length_pos_iff.2 this
            simp at len1; omega
          · obtain ⟨_, hh⟩ := hr1
            obtain ⟨r, hr⟩ := cons_of_hd (l := l1) (by omega)
            rw [hr] at len1
            simp at len1; omega
          · obtain ⟨g, k, _, rfl, hk⟩ := hr1
            have : k ≠ [] := by rintro rfl; cases hk
            have := List.length_pos_iff.2 this
            simp at len1; omega
          · obtain ⟨g, k, _, rfl, hk⟩ := hr1
            have : k ≠ [] := by rintro rfl; cases hk
            have := List.length_pos_iff.2 this
            simp at len1; omega
          · obtain ⟨g, _, rfl⟩ := hr1
            simp at len1; omega
          · obtain ⟨g, _, rfl⟩ := hr1
            simp at len1; omega
        have hE1 : ∀ e, Fault C l1 e → E e := fun e he => hE e (by rw [hl1]; exact he.suffix)
        have hv := ihV l1 d1 .null a t1 ho1 (by omega) hen hr1 hE1
        unfold PPost at hv
        rcases hvc : doParse C n .null (some a) (At l1 d1) with ⟨e | _, s, v⟩
        · rw [hvc] at hv; exact hv
        rw [hvc] at hv
        obtain ⟨t2, l2, d2, rfl, ho2, hl2, g, u, htu, hg, hval⟩ := hv
        have len2 := len_of hl2
        have hE2 : ∀ e, Fault C l2 e → E e := fun e he => hE1 e (by rw [hl2]; exact he.suffix)
        simp only
        have hs2 := post_scan (d := d2) H hE2 ho2 (by omega)
        unfold Post at hs2
        rcases hsc2 : scan C (At l2 d2) with ⟨e | b, s⟩
        · rw [hsc2] at hs2; exact hs2
        rw [hsc2] at hs2
        obtain ⟨t3, l3, d3, rfl, ho3, hl3, hr3⟩ := hs2
        have len3 := len_of hl3
        have hE3 : ∀ e, Fault C l3 e → E e := fun e he => hE2 e (by rw [hl3]; exact he.suffix)
        simp only
        by_cases hsep : b = .valueSeparator
        · subst hsep
          rw [if_pos rfl]
          obtain ⟨g', hg', rfl⟩ := hr3
          have := ihA l3 d3 (xs ++ [v]) ho3 (by omega) (by simp at len3; omega) hE3
          unfold PPost at this
          rcases hac : parseArray C n (xs ++ [v]) (At l3 d3) with ⟨e | _, s, w⟩
          · rw [hac] at this; exact this
          rw [hac] at this
          obtain ⟨t4, l4, d4, rfl, ho4, hl4, ys, rfl, hel⟩ := this
          refine ⟨g ++ u ++ g' ++ 0x2C :: t4, l4, d4, rfl, ho4, ?_, v :: ys, by simp, ?_⟩
          · rw [← htu, hl1, hl2, hl3, hl4]; simp
          · refine .more hg ?_ hg' hel
            rwa [hl3, look_append (by simp)] at hval
        · rw [if_neg hsep]
          by_cases hend : b = .endArray
          · subst hend
            rw [if_pos rfl]
            obtain ⟨g', hg', rfl⟩ := hr3
            refine ⟨g ++ u ++ g' ++ [0x5D], l3, d3, rfl, ho3, ?_, [v], rfl, ?_⟩
            · rw [← htu, hl1, hl2, hl3]; simp
            · refine .last hg ?_ hg'
              rwa [hl3, look_append (by simp)] at hval
          · rw [if_neg hend]; exact hx
      · rw [if_neg hst]
        by_cases hend : a = .endArray
        · subst hend
          rw [if_pos rfl]
          obtain ⟨g, hg, rfl⟩ := hr1
          exact ⟨_, l1, d1, rfl, ho1, hl1, [], by simp, .close hg⟩
        · rw [if_neg hend]; exact hx
    · -- objects
      intro l d ms hl hb hn hE
      have hx : E (.exn .deserialization) := hE _ (Or.inl rfl)
      have hs := post_scan (d := d) H hE hl hb
      unfold PPost
      rw [parseObject]
      unfold Post at hs
      rcases hsc : scan C (At l d) with ⟨e | a, s⟩
      · rw [hsc] at hs; exact hs
      rw [hsc] at hs
      obtain ⟨t1, l1, d1, rfl, ho1, hl1, hr1⟩ := hs
      have len1 := len_of hl1
      have hE1 : ∀ e, Fault C l1 e → E e := fun e he => hE e (by rw [hl1]; exact he.suffix)
      have hx1 : E (.exn .deserialization) := hE1 _ (Or.inl rfl)
      simp only
      by_cases hst : a = .valueString
      · subst hst
        rw [if_pos rfl]
        have hk := post_scanString (d := d1) H hx1 ho1 (by omega) hr1.2
        unfold Post at hk
        rcases hkc : scanString C (At l1 d1) with ⟨e | _, s⟩
        · rw [hkc] at hk; exact hk
        rw [hkc] at hk
        obtain ⟨t2, l2, d2, rfl, ho2, hl2, hlit⟩ := hk
        have len2 := len_of hl2
        have hE2 : ∀ e, Fault C l2 e → E e := fun e he => hE1 e (by rw [hl2]; exact he.suffix)
        simp only
        have hs2 := post_scan (d := d2) H hE2 ho2 (by omega)
        unfold Post at hs2
        rcases hsc2 : scan C (At l2 d2) with ⟨e | b, s⟩
        · rw [hsc2] at hs2; exact hs2
        rw [hsc2] at hs2
        obtain ⟨t3, l3, d3, rfl, ho3, hl3, hr3⟩ := hs2
        have len3 := len_of hl3
        have hE3 : ∀ e, Fault C l3 e → E e := fun e he => hE2 e (by rw [hl3]; exact he.suffix)
        simp only
        by_cases hsep : b = .nameSeparator
        · subst hsep
          rw [if_pos rfl]
          obtain ⟨g1, hg1, rfl⟩ := hr3
          cases n with
          | zero => simp at len3; omega
          | succ m =>
          rw [doParse_none]
          have hs4 := post_scan (d := d3) H hE3 ho3 (by omega)
          unfold Post at hs4
          rcases hsc4 : scan C (At l3 d3) with ⟨e | a4, s⟩
          · rw [hsc4] at hs4; exact hs4
          rw [hsc4] at hs4
          obtain ⟨t4, l4, d4, rfl, ho4, hl4, hr4⟩ := hs4
          have len4 := len_of hl4
          have hE4 : ∀ e, Fault C l4 e → E e := fun e he => hE3 e (by rw [hl4]; exact he.suffix)
          simp only
          have hv := ihV l4 d4 .null a4 t4 ho4 (by omega) ⟨by omega, fun _ => by simp at len3; omega⟩ hr4 hE4
          unfold PPost at hv
          rcases hvc : doParse C (m + 1) .null (some a4) (At l4 d4) with ⟨e | _, s, v⟩
          · rw [hvc] at hv; exact hv
          rw [hvc] at hv
          obtain ⟨t5, l5, d5, rfl, ho5, hl5, g2, u, htu, hg2, hval⟩ := hv
          have len5 := len_of hl5
          have hE5 : ∀ e, Fault C l5 e → E e := fun e he => hE4 e (by rw [hl5]; exact he.suffix)
          simp only
          have hs6 := post_scan (d := d5) H hE5 ho5 (by omega)
          unfold Post at hs6
          rcases hsc6 : scan C (At l5 d5) with ⟨e | b6, s⟩
          · rw [hsc6] at hs6; exact hs6
          rw [hsc6] at hs6
          obtain ⟨t6, l6, d6, rfl, ho6, hl6, hr6⟩ := hs6
          have len6 := len_of hl6
          have hE6 : ∀ e, Fault C l6 e → E e := fun e he => hE5 e (by rw [hl6]; exact he.suffix)
          simp only
          have htu' : t4.map some ++ t5.map some = g2.map some ++ u.map some := by
            rw [← List.map_append, htu, List.map_append]
          by_cases hsep6 : b6 = .valueSeparator
          · subst hsep6
            rw [if_pos rfl]
            obtain ⟨g', hg', rfl⟩ := hr6
            have := ihO l6 d6 (Map.emplace d2.out.out v ms) ho6 (by omega) (by simp at len3; omega) hE6
            unfold PPost at this
            rcases hac : parseObject C (m + 1) (Map.emplace d2.out.out v ms) (At l6 d6) with ⟨e | _, s, w⟩
            · rw [hac] at this
              simp only [At] at hac ⊢
              rw [hac]; exact this
            rw [hac] at this
            obtain ⟨t7, l7, d7, rfl, ho7, hl7, ms', rfl, hel⟩ := this
            simp only [At] at hac ⊢
            rw [hac]
            refine ⟨t1 ++ t2 ++ g1 ++ 0x3A :: g2 ++ u ++ g' ++ 0x2C :: t7, l7, d7, rfl, ho7, ?_,
              (d2.out.out, v) :: ms', rfl, ?_⟩
            · rw [hl1, hl2, hl3, hl4, hl5, hl6, hl7]
              simp only [List.map_append, List.map_cons, List.append_assoc, List.cons_append, List.map_nil, List.nil_append]
              rw [← List.append_assoc (t4.map some), htu']
              simp
            · refine .more hr1.1 hlit hg1 hg2 ?_ hg' hel
              rwa [hl6, look_append (by simp)] at hval
          · rw [if_neg hsep6]
            by_cases hend : b6 = .endObject
            · subst hend
              rw [if_pos rfl]
              obtain ⟨g', hg', rfl⟩ := hr6
              refine ⟨t1 ++ t2 ++ g1 ++ 0x3A :: g2 ++ u ++ g' ++ [0x7D], l6, d6, rfl, ho6, ?_,
                [(d2.out.out, v)], rfl, ?_⟩
              · rw [hl1, hl2, hl3, hl4, hl5, hl6]
                simp only [List.map_append, List.map_cons, List.append_assoc, List.cons_append, List.map_nil, List.nil_append]
                rw [← List.append_assoc (t4.map some), htu']
                simp
              · refine .last hr1.1 hlit hg1 hg2 ?_ hg'
                rwa [hl6, look_append (by simp)] at hval
            · rw [if_neg hend]; exact hx
        · rw [if_neg hsep]
          by_cases hend : b = .endObject
          · subst hend
            rw [if_pos rfl]
            obtain ⟨g', hg', rfl⟩ := hr3
            refine ⟨t1 ++ t2 ++ g' ++ [0x7D], l3, d3, rfl, ho3, ?_, [], rfl, ?_⟩
            · rw [hl1, hl2, hl3]; simp
            · exact .keyOnly hr1.1 hlit hg'
          · rw [if_neg hend]; exact hx
      · rw [if_neg hst]
        by_cases hend : a = .endObject
        · subst hend
          rw [if_pos rfl]
          obtain ⟨g, hg, rfl⟩ := hr1
          exact ⟨_, l1, d1, rfl, ho1, hl1, [], rfl, .close hg⟩
        · rw [if_neg hend]; exact hx
    · -- values
      intro l d c a t0 hl hb hn hr hE
      have hx : E (.exn .deserialization) := hE _ (Or.inl rfl)
      unfold PPost
      cases a <;> simp only [doParse]
      case uninitialized => exact hx
      case endArray => exact hx
      case endObject => exact hx
      case nameSeparator => exact hx
      case valueSeparator => exact hx
      case endOfInput => exact hx
      case literalTrue =>
        obtain ⟨g, k, hg, rfl, hk⟩ := hr
        exact ⟨[], l, d, rfl, hl, rfl, g, k, by simp, hg, .vtrue hk⟩
      case literalFalse =>
        obtain ⟨g, k, hg, rfl, hk⟩ := hr
        exact ⟨[], l, d, rfl, hl, rfl, g, k, by simp, hg, .vfalse hk⟩
      case literalNull =>
        obtain ⟨g, k, hg, rfl, hk⟩ := hr
        exact ⟨[], l, d, rfl, hl, rfl, g, k, by simp, hg, .vnull hk⟩
      case valueInteger =>
        obtain ⟨g, k, hg, rfl, hk⟩ := hr
        exact ⟨[], l, d, rfl, hl, rfl, g, k, by simp, hg, .num hk⟩
      case valueFloat =>
        obtain ⟨g, k, hg, rfl, hk⟩ := hr
        exact ⟨[], l, d, rfl, hl, rfl, g, k, by simp, hg, .num hk⟩
      case valueString =>
        have hk := post_scanString (d := d) H hx hl hb hr.2
        unfold Post at hk
        rcases hkc : scanString C (At l d) with ⟨e | _, s⟩
        · rw [hkc] at hk; exact hk
        rw [hkc] at hk
        obtain ⟨t2, l2, d2, rfl, ho2, hl2, hlit⟩ := hk
        exact ⟨t2, l2, d2, rfl, ho2, hl2, t0, t2, rfl, hr.1, .str hlit⟩
      case beginArray =>
        obtain ⟨g, hg, rfl⟩ := hr
        have := ihA l d [] hl hb (by have := hn.2 (Or.inl rfl); omega) hE
        unfold PPost at this
        rcases hac : parseArray C n [] (At l d) with ⟨e | _, s, w⟩
        · rw [hac] at this; exact this
        rw [hac] at this
        obtain ⟨t4, l4, d4, rfl, ho4, hl4, ys, rfl, hel⟩ := this
        exact ⟨t4, l4, d4, rfl, ho4, hl4, g, 0x5B :: t4, by simp, hg, .arr hel⟩
      case beginObject =>
        obtain ⟨g, hg, rfl⟩ := hr
        have := ihO l d [] hl hb (by have := hn.2 (Or.inr rfl); omega) hE
        unfold PPost at this
        rcases hac : parseObject C n [] (At l d) with ⟨e | _, s, w⟩
        · rw [hac] at this; exact this
        rw [hac] at this
        obtain ⟨t4, l4, d4, rfl, ho4, hl4, ms, rfl, hel⟩ := this
        exact ⟨t4, l4, d4, rfl, ho4, hl4, g, 0x7B :: t4, by simp, hg, .obj hel (addAll_firstWins ms)⟩

end Configor
