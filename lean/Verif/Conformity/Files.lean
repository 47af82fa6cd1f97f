import Verif.Conformity.Common
import Verif.Props.Stack
import Verif.Props.Stream
set_option autoImplicit false
/-!
# tests/test_json/test_parser.cpp, test_read_from_file, lines 169-221: the second file in tests/data/json.org

The text is too long to run the decoder on it in the kernel, so by `C97_extract` and `jsonParse_items` the parser is run on its
code points. The other files are too long for this too.
-/
namespace Configor.Conformity
open Spec Configor.Props

/-- `isspace` in the classic locale. -/
def space (c : Int) : Bool := c == 0x20 || (9 ≤ c && c ≤ 13)

/-- `ifs >> json::wrap(j)` with a null `j`, on a good stream that delivers the text: how it ends, and `j`. -/
def Loads {σ : Type} (B : SBuf σ) (s : IStream σ) (text : String) (P : Value Dbl → Bool) : Prop :=
  s.good = true → Delivering B s.sb ((ascii text).map Int.ofNat) → ∀ n, 2 * (ascii text).length + 4 ≤ n →
    ∃ v, let r := extract (dblParse style true) B space n .null s
      (r.1, r.2.1) = (.ok (), v) ∧ P v = true

/-- The run on the code points. -/
def run (text : String) : Outcome Dbl :=
  parseItems (dblParse style true) (2 * (ascii text).length + 4) none .null ((ascii text).map some)

/-- Whether it ends normally with a value in `P`. -/
def runsTo (text : String) (P : Value Dbl → Bool) : Bool := match run text with | (.ok _, v) => P v | _ => false

theorem loads {σ : Type} {B : SBuf σ} {s : IStream σ} {text : String} {P : Value Dbl → Bool}
    (h : (ascii text).all (· < 128) = true) (hne : (ascii text).head?.any (fun u => !space u) = true)
    (hr : runsTo text P = true) : Loads B s text P := by
  intro hg hd n hn
  have ha : ∀ c ∈ ascii text, c < 128 := fun c hc => by simpa using List.all_eq_true.1 h c hc
  have hA : (dblParse style true).Usual := ⟨by simp [dblParse], by simp [dblParse]⟩
  have hrest : (ascii text).dropWhile (fun u : Nat => space u) = ascii text := by
    cases ht : ascii text with
    | nil => rfl
    | cons c t => rw [ht] at hne; simp at hne; rw [List.dropWhile_cons, if_neg (by simp [hne])]
  have hn0 : ascii text ≠ [] := by intro he; rw [he] at hne; simp at hne
  have h1 := (C97_extract (dblParse style true) hA B space .null s (ascii text) (fun _ _ => .inl rfl) hd n hn).1 hg
  simp only [hrest] at h1
  have h1 := (h1 hn0).1
  rw [jsonParse_items hA] at h1
  have hi : itemsOf .utf8 8 (ascii text) = (ascii text).map some := itemsOf_reads (reads_ascii true (ascii text) ha)
  have h2 : parseItems (dblParse style true) (2 * (ascii text).length + 4) none .null (itemsOf .utf8 8 (ascii text)) = run text := by
    rw [hi]; rfl
  unfold runsTo at hr
  rcases hrun : run text with ⟨e | _, v⟩ <;> rw [hrun] at hr <;> simp only at hr
  · cases hr
  · exact ⟨v, by rw [h1]; exact h2.trans hrun, hr⟩

/-- tests/data/json.org/2.json -/
def file2 : String := "{\"menu\": {
  \"id\": \"file\",
  \"value\": \"File\",
  \"popup\": {
    \"menuitem\": [
      {\"value\": \"New\", \"onclick\": \"CreateNewDoc()\"},
      {\"value\": \"Open\", \"onclick\": \"OpenDoc()\"},
      {\"value\": \"Close\", \"onclick\": \"CloseDoc()\"}
    ]
  }
}}
"

variable {σ : Type} (B : SBuf σ) (s : IStream σ)

example : Loads B s file2 fun v => at' (idx (at' (at' (at' v "menu") "popup") "menuitem") 0) "onclick" = str "CreateNewDoc()" :=
  loads (by decide +kernel) (by decide +kernel) (by decide +kernel)

end Configor.Conformity
