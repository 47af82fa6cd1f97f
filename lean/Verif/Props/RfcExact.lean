import Verif.Proofs.RfcExact
import Verif.Props.ParserText
/-!
# Which texts of RFC 8259 are refused
-/
set_option autoImplicit false
namespace Configor.Props
open Spec
variable {F : Type}

/-- The texts of RFC 8259 whose strings the target encoding can represent and whose numbers are as `ok` says. -/
def rfcWith (A : ParseArgs F) (ok : Rfc.Lit → Prop) : Rfc.Params F := ⟨A.fo, A.dialect.store, ok⟩

/-- The integer part fits in 64 bits, an exponent without sign does not start with `0`, and an exponent does not
directly follow the integer part `0`. -/
def plainNumber (n : Rfc.Lit) : Prop :=
  Rfc.decimal n.int ≤ 9223372036854775807 ∧
    ∀ e s ds, n.exp = some (e, s, ds) → (s = none → ds.head? ≠ some 0x30) ∧ (n.frac = none → n.int ≠ [0x30])

/-- C13, partial: a text of RFC 8259 is accepted if and only if all its numbers have that form. What is missing
from C13 are the texts with other numbers, and all of them are refused. -/
theorem C13_exactly_partial (A : ParseArgs F) (hA : A.Usual) (c v : Value F) (str l : List Nat) (hl : Reads A str l)
    (ht : Rfc.Text (rfcWith A fun _ => True) l v) :
    (jsonParse A none c str).1 = .ok () ↔ Rfc.Text (rfcWith A plainNumber) l v := by
  have hP : rfcWith A plainNumber = (⟨A.fo, A.dialect.store, LitTaken⟩ : Rfc.Params F) := by
    unfold rfcWith
    congr 1
    funext n
    exact propext ⟨fun h => ⟨h.1, h.2⟩, fun h => ⟨h.1, h.2⟩⟩
  rw [hP, ← text_exact hA (ok := fun _ => True) ht]
  constructor
  · intro h
    exact ⟨_, (C11_accepts_exactly_grammar A hA c _ str _ hl.sees).1 (Prod.ext h rfl)⟩
  · rintro ⟨v', h⟩
    rw [(C11_accepts_exactly_grammar A hA c v' str _ hl.sees).2 h]

/-- Both texts meet the hypothesis; the first one is refused, the second one accepted. -/
example : (∃ v, Rfc.Text (rfcWith (utf8Args true) fun _ => True) (ascii "[1e0]") v) ∧
    (jsonParse (utf8Args true) none .null (ascii "[1e0]")).1 = .error (.exn .deserialization) ∧
    (∃ v, Rfc.Text (rfcWith (utf8Args true) fun _ => True) (ascii "[1e+0]") v) ∧
    (jsonParse (utf8Args true) none .null (ascii "[1e+0]")).1 = .ok () := by
  refine ⟨?_, by decide +kernel, ?_, by decide +kernel⟩
  · refine ⟨.arr [.flt ()], [], ascii "[1e0]", [], by decide, by simp [Rfc.Ws], ?_, by simp [Rfc.Ws]⟩
    refine .arr (t := ascii "1e0") (.one (g := []) (t := ascii "1e0") (g' := []) (by simp [Rfc.Ws]) ?_ (by simp [Rfc.Ws]))
    exact .num (n := ⟨false, [0x31], none, some (0x65, none, [0x30])⟩)
      ⟨Or.inr ⟨0x31, [], rfl, by decide, by decide, by simp⟩, by simp, by simp +contextual [Rfc.Digit]⟩ trivial
  · refine ⟨.arr [.flt ()], [], ascii "[1e+0]", [], by decide, by simp [Rfc.Ws], ?_, by simp [Rfc.Ws]⟩
    refine .arr (t := ascii "1e+0") (.one (g := []) (t := ascii "1e+0") (g' := []) (by simp [Rfc.Ws]) ?_ (by simp [Rfc.Ws]))
    exact .num (n := ⟨false, [0x31], none, some (0x65, some 0x2B, [0x30])⟩)
      ⟨Or.inr ⟨0x31, [], rfl, by decide, by decide, by simp⟩, by simp, by simp +contextual [Rfc.Digit]⟩ trivial

end Configor.Props
