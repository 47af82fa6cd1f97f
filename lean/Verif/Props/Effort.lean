import Verif.Proofs.Effort
import Verif.Props.Stream
/-!
# How much of its source a parser asks for

`calls A B n h c b` is how many code points a call of `parse` asks its decoder for, and
`accesses A B n h c b` how often it looks at a character of the stream buffer and how often it
takes one; see `Spec/Effort`.
-/
set_option autoImplicit false
namespace Configor.Props
open Spec

variable {F : Type}

/-! ## C134 -/

/-- C134. On any stream buffer that delivers `k` characters, a call of `parse` asks for at most
`k + 2` code points, however it ends. -/
theorem C134_calls {σ : Type} (A : ParseArgs F) (B : SBuf σ) (b : σ) (l : List Int) (hb : Delivering B b l)
    (n : Nat) (h : Option Handler) (c : Value F) : calls A B n h c b ≤ l.length + 2 := by
  obtain ⟨R, V, hr⟩ := view_of_holds hb
  exact asked_le V hr A n h c

/-- C134. It looks at a character at most `k + 1` times and takes one at most `k + 1` times. -/
theorem C134_accesses {σ : Type} (A : ParseArgs F) (B : SBuf σ) (b : σ) (l : List Int) (hb : Delivering B b l)
    (n : Nat) (h : Option Handler) (c : Value F) :
    (accesses A B n h c b).1 ≤ l.length + 1 ∧ (accesses A B n h c b).2 ≤ l.length + 1 := by
  obtain ⟨R, V, hr⟩ := view_of_holds hb
  exact accesses_le V hr A n h c

/-- C134 for `parse(c, str)` of a `std::basic_string`. -/
theorem C134_string (A : ParseArgs F) (str : List Nat) (n : Nat) (h : Option Handler) (c : Value F) :
    calls A (strSBuf A.sw) n h c (.ofString str) ≤ str.length + 2 ∧
    (accesses A (strSBuf A.sw) n h c (.ofString str)).1 ≤ str.length + 1 ∧
    (accesses A (strSBuf A.sw) n h c (.ofString str)).2 ≤ str.length + 1 := by
  obtain ⟨R, V, hr⟩ := str_view_start A.sw str
  have h1 := asked_le V hr A n h c
  have h2 := accesses_le V hr A n h c
  have h3 := unitsOf_length A.sw str
  exact ⟨by omega, by omega, by omega⟩

/-- C134 for `parse(c, ptr)` of a C string. -/
theorem C134_cstring (A : ParseArgs F) (text behind : List Nat) (h0 : ∀ u ∈ text, u ≠ 0) (n : Nat) (h : Option Handler) (c : Value F) :
    calls A (strSBuf A.sw) n h c (.ofCString (text ++ 0 :: behind)) ≤ text.length + 2 ∧
    (accesses A (strSBuf A.sw) n h c (.ofCString (text ++ 0 :: behind))).1 ≤ text.length + 1 ∧
    (accesses A (strSBuf A.sw) n h c (.ofCString (text ++ 0 :: behind))).2 ≤ text.length + 1 := by
  have e : (text ++ 0 :: behind).takeWhile (· ≠ 0) = text := by
    rw [List.takeWhile_append_of_pos (by simpa using h0)]
    simp
  unfold StrBuf.ofCString
  rw [e]
  exact C134_string A text n h c

/-- C134 for `parse(c, file)` of a `std::FILE` without NULs. -/
theorem C134_file (A : ParseArgs F) (text : List Nat) (h0 : ∀ u ∈ text, u ≠ 0) (n : Nat) (h : Option Handler) (c : Value F) :
    calls A (cacheSBuf fgetc) n h c ⟨text, 0⟩ ≤ text.length + 2 ∧
    (accesses A (cacheSBuf fgetc) n h c ⟨text, 0⟩).1 ≤ text.length + 1 ∧
    (accesses A (cacheSBuf fgetc) n h c ⟨text, 0⟩).2 ≤ text.length + 1 := by
  have h1 := C134_calls A _ _ _ (file_holds text h0) n h c
  have h2 := C134_accesses A _ _ _ (file_holds text h0) n h c
  simp only [List.length_map] at h1 h2
  exact ⟨h1, h2⟩

/-- `[1, 2]` is seven calls, and the bounds are reached: `1e+` makes five calls without assertions, and a text that ends inside
a character of two bytes has one character more taken than it has. -/
example : calls (utf8Args true) (strSBuf 8) 40 none .null (.ofString [0x5B, 0x31, 0x2C, 0x20, 0x32, 0x5D]) = 7 ∧
    accesses (utf8Args true) (strSBuf 8) 40 none .null (.ofString [0x5B, 0x31, 0x2C, 0x20, 0x32, 0x5D]) = (7, 6) ∧
    calls (utf8Args false) (strSBuf 8) 40 none .null (.ofString [0x31, 0x65, 0x2B]) = 5 ∧
    (accesses (utf8Args true) (strSBuf 8) 40 none .null (.ofString [0x22, 0xC3])).2 = 3 := by decide +kernel

/-- The hypotheses of `C134_cstring` and `C134_file` are met by `[1]`. -/
example : (∀ u ∈ [0x5B, 0x31, 0x5D], u ≠ 0) ∧
    calls (utf8Args true) (cacheSBuf fgetc) 40 none .null ⟨[0x5B, 0x31, 0x5D], 0⟩ = 4 ∧
    calls (utf8Args true) (strSBuf 8) 40 none .null (.ofCString [0x5B, 0x31, 0x5D, 0, 0x5B]) = 4 := by decide +kernel

/-- A buffer that delivers three characters. -/
example : Delivering (cacheSBuf fgetc) ⟨[0x5B, 0x31, 0x5D], 0⟩ [0x5B, 0x31, 0x5D] := file_holds [0x5B, 0x31, 0x5D] (by decide)

/-- C134. Counting the calls changes nothing: the counted call ends in the same way and leaves
the same value as `json::parse`. -/
theorem C134_same_calls (A : ParseArgs F) (hA : A.Usual) (h : Option Handler) (c : Value F) (str : List Nat) :
    ((parseCounted A (strSBuf A.sw) (2 * str.length + 4) h c (.ofString str)).1,
      (parseCounted A (strSBuf A.sw) (2 * str.length + 4) h c (.ofString str)).2.2) = jsonParse A h c str := by
  have hl := itemsOf_length A.se A.sw str
  have hf : (jsonParse A h c str).1 ≠ .error .fuel := by
    rw [jsonParse_items hA]
    exact parseItems_nofuel hA h c (by omega)
  have H : CfgSim (A.cfg (strSBuf A.sw) (2 * str.length + 4))
      { A.cfg (strSBuf A.sw) (2 * str.length + 4) with src := countingCalls (A.cfg (strSBuf A.sw) (2 * str.length + 4)).src }
      (fun s t => s = t.1) :=
    ⟨⟨by rintro a b rfl; rfl, by rintro a b rfl; rfl, by rintro a b rfl _; rfl, by rintro a b rfl _ _; exact ⟨rfl, rfl⟩,
      by rintro a b rfl _; rfl⟩, rfl, rfl, rfl, rfl, Nat.le_refl _⟩
  have := parse_sim H (Nat.le_refl (2 * str.length + 4)) h c (s := Lex.init (.ofBuf (.ofString str)) (A.fo.ofInt 0))
    (t := Lex.init (.ofBuf (.ofString str), 0) (A.fo.ofInt 0)) ⟨rfl, rfl, rfl, rfl, rfl, rfl⟩ hf
  unfold jsonParse parseFrom parseCounted
  simp only [Prod.mk.injEq]
  exact ⟨this.1.symm, this.2.symm⟩

/-- C134. Counting the accesses changes nothing either. -/
theorem C134_same_accesses (A : ParseArgs F) (hA : A.Usual) (h : Option Handler) (c : Value F) (str : List Nat) :
    parseFrom A (counting (strSBuf A.sw)) (2 * str.length + 4) h c (.ofString str, 0, 0) = jsonParse A h c str := by
  have hl := itemsOf_length A.se A.sw str
  obtain ⟨R, V, hr⟩ := str_view_start A.sw str
  rw [jsonParse_items hA]
  exact parseFrom_view (counting_view V (unitsOf A.sw str).length) hA ⟨hr, Nat.zero_add _⟩ h c
    (by show 2 * (itemsOf A.se A.sw str).length + 2 ≤ _; omega) (by show 2 * (itemsOf A.se A.sw str).length + 2 ≤ _; omega)

end Configor.Props
