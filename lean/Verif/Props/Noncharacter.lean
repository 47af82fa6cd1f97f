import Verif.Spec.Noncharacter
import Verif.Props.ParserLit
/-!
# Dumping strings of `char16_t`
-/
set_option autoImplicit false
namespace Configor.Props
open Configor Spec Serializer

variable {F : Type}

/-- The same stream on the patched text. -/
def patched (s : IStream StrBuf) : IStream StrBuf := { s with sb := ⟨patchText s.sb.str, s.sb.idx⟩ }

theorem underflow_patched (b : StrBuf) : StrBuf.underflow 16 ⟨patchText b.str, b.idx⟩ = b.underflow 16 := by
  unfold StrBuf.underflow patchText
  simp only [List.getElem?_map]
  cases b.str[b.idx]? with
  | none => rfl
  | some u =>
    simp only [Option.map_some]
    unfold toIntType
    by_cases h : u = 0xFFFF
    · subst h; decide
    · simp [h]

theorem get_patched (s : IStream StrBuf) : (patched s).get (strSBuf 16) = ((s.get (strSBuf 16)).1, patched (s.get (strSBuf 16)).2) := by
  have hg : (patched s).good = s.good := rfl
  unfold IStream.get
  rw [hg]
  cases s.good with
  | false => rfl
  | true =>
    have h1 : ((strSBuf 16).sbumpc (patched s).sb).1 = ((strSBuf 16).sbumpc s.sb).1 := underflow_patched s.sb
    have h2 : ((strSBuf 16).sbumpc (patched s).sb).2 = ⟨patchText s.sb.str, s.sb.idx + 1⟩ := rfl
    have h3 : ((strSBuf 16).sbumpc s.sb).2 = ⟨s.sb.str, s.sb.idx + 1⟩ := rfl
    have h4 : ∀ b, (strSBuf 16).throws b = false := fun _ => rfl
    simp only [h1, h2, h3, h4, if_true, Bool.false_eq_true, if_false]
    split <;> rfl

theorem setFail_patched (s : IStream StrBuf) : (patched s).setFail = patched s.setFail := rfl

theorem decode_patched (s : IStream StrBuf) :
    utf16Decode (strSBuf 16) (patched s) =
      ((utf16Decode (strSBuf 16) s).1, (utf16Decode (strSBuf 16) s).2.1, patched (utf16Decode (strSBuf 16) s).2.2) := by
  unfold utf16Decode
  simp only [get_patched]
  have he : ∀ t, (patched t).eofb = t.eofb := fun _ => rfl
  simp only [he, setFail_patched]
  split
  · rfl
  · split
    · split
      · split <;> rfl
      · rfl
    · split <;> rfl

theorem stringLoop_patched (A : DumpArgs F) (he : A.se = .utf16) (hw : A.sw = 16) : ∀ (n : Nat) (s : IStream StrBuf),
    stringLoop A n (patched s) = stringLoop A n s := by
  intro n
  induction n with
  | zero => intro s; rfl
  | succ n ih =>
    intro s
    unfold stringLoop
    have e : ∀ t, A.se.decode A.sw (strSBuf A.sw) t = utf16Decode (strSBuf 16) t := by
      intro t; rw [he, hw]; rfl
    have hg : ∀ t, (patched t).good = t.good := fun _ => rfl
    simp only [e, decode_patched, hg, ih]

theorem putString_patched (A : DumpArgs F) (he : A.se = .utf16) (hw : A.sw = 16) (s : List Nat) : putString A (patchText s) = putString A s := by
  unfold putString
  have h := stringLoop_patched A he hw (s.length + 1) (.ofBuf (.ofString s))
  have e : (patchText s).length = s.length := by simp [patchText]
  rw [e, ← h]
  rfl

mutual
theorem doDump_patched (A : DumpArgs F) (he : A.se = .utf16) (hw : A.sw = 16) : ∀ v : Value F, doDump A (patch v) = doDump A v
  | .str s => by simp only [patch, doDump, putString_patched A he hw]
  | .arr xs => by simp only [patch, doDump, dumpElems_patched A he hw xs]
  | .obj ms => by simp only [patch, doDump, dumpMembers_patched A he hw ms]
  | .null | .bool _ | .int _ | .flt _ => by simp only [patch]

theorem dumpElems_patched (A : DumpArgs F) (he : A.se = .utf16) (hw : A.sw = 16) : ∀ xs : List (Value F), dumpElems A (patchElems xs) = dumpElems A xs
  | [] => by simp only [patchElems]
  | x :: xs => by
    have e : (patchElems xs).isEmpty = xs.isEmpty := by cases xs <;> simp [patchElems]
    simp only [patchElems, dumpElems, doDump_patched A he hw x, dumpElems_patched A he hw xs, e]

theorem dumpMembers_patched (A : DumpArgs F) (he : A.se = .utf16) (hw : A.sw = 16) : ∀ ms : List (List Nat × Value F),
    dumpMembers A (patchMembers ms) = dumpMembers A ms
  | [] => by simp only [patchMembers]
  | (k, x) :: ms => by
    have e : (patchMembers ms).isEmpty = ms.isEmpty := by cases ms <;> simp [patchMembers]
    simp only [patchMembers, dumpMembers, putString_patched A he hw, doDump_patched A he hw x, dumpMembers_patched A he hw ms, e]
end

/-- C113, partial: what is lost in dumping strings of `char16_t`: the dump, its result and its errors are those of the value with U+FFFD in place
of U+FFFF in all strings and keys, whatever the options. -/
theorem C113_dump_partial (A : DumpArgs F) (he : A.se = .utf16) (hw : A.sw = 16) (h : Option Handler) (out : List Nat) (v : Value F) :
    jsonDump A h out v = jsonDump A h out (patch v) := by
  unfold jsonDump Serializer.dump
  simp only [doDump_patched A he hw]

example : jsonDump (⟨.utf16, 16, .utf8, 8, false, false, 0, 0x20, unitFloat⟩ : DumpArgs Unit) none [] (.obj [([0xFFFF], .arr [.str [0xFFFF]])]) =
    (.ok (), [0x7B, 0x22] ++ utf8 0xFFFD ++ [0x22, 0x3A, 0x5B, 0x22] ++ utf8 0xFFFD ++ [0x22, 0x5D, 0x7D]) := by decide +kernel

end Configor.Props
