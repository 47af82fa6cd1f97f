import Verif.Proofs.ObjDump
import Verif.Props.Dump
/-!
# Values with another object type

C123. `jsonParseO A ins h c str` is `json::parse(c, str, options)` for a value type whose objects take a member by `ins`, the
`emplace` of the object type. `json::dump` only iterates over an object, so that `jsonDump` is the call for every object type.
-/
set_option autoImplicit false
namespace Configor.Props
open Spec

variable {F : Type}

/-- C123. Which texts are accepted, and which exception is thrown for the others, does not depend on the object type: for
every object type, handler, encoding and string the call ends as with `std::map`. -/
theorem C123_same_end (A : ParseArgs F) (ins : Emplace F) (h : Option Handler) (c : Value F) (str : List Nat) :
    (jsonParseO A ins h c str).1 = (jsonParse A h c str).1 :=
  jsonParseO_ends A ins h c str

example : (jsonParseO (utf8Args true) fifoEmplace none .null (ascii "{\"b\":1 \"a\":2}")).1 = .error (.exn .deserialization) := by
  decide +kernel
example : (jsonParseO (utf8Args true) fifoEmplace none .null (ascii "{\"b\":1,\"a\":2}")).1 = .ok () := by decide +kernel

/-- C123. With `std::map`, whose iteration is in the order of the keys, it is the call of the other properties. -/
theorem C123_std_map (A : ParseArgs F) (h : Option Handler) (c : Value F) (str : List Nat) :
    jsonParseO A Map.emplace h c str = jsonParse A h c str :=
  jsonParseO_map A h c str

example : jsonParseO (utf8Args true) Map.emplace none .null (ascii "{\"b\":1,\"a\":2,\"b\":3}") =
    (.ok (), .obj [([0x61], .int 2), ([0x62], .int 1)]) := by decide +kernel

/-- C123. The value of a text, for every object type: every object gets the members of its text, one by one, in the order of
the text, and nothing else. -/
theorem C123_members_in_text_order (A : ParseArgs F) (hA : A.Usual) (ins : Emplace F) (c v : Value F) (str : List Nat)
    (l : List (Option Nat)) (hl : Sees A str l) :
    jsonParseO A ins none c str = (.ok (), v) ↔
      ∃ tree, TreeDocument A.dialect l tree ∧ v = arranged (fun ms => ms.foldl (fun o m => ins m.1 m.2 o) []) tree := by
  rw [(sees_iff A str l).1 hl]
  exact jsonParseO_iff hA ins c v str

example : (utf8Args true).Usual := utf8Args_usual true
/-- An object type that would keep everything. -/
example : jsonParseO (utf8Args true) (fun k v ms => ms ++ [(k, v)]) none .null (ascii "{\"b\":1,\"a\":{},\"b\":3}") =
    (.ok (), .obj [([0x62], .int 1), ([0x61], .obj []), ([0x62], .int 3)]) := by decide +kernel

/-- C123. A text has one tree. -/
theorem C123_tree_unique (A : ParseArgs F) (hA : A.Usual) (str : List Nat) (l : List (Option Nat)) (hl : Sees A str l)
    (r r' : Value F) (h : TreeDocument A.dialect l r) (h' : TreeDocument A.dialect l r') : r = r' := by
  rw [(sees_iff A str l).1 hl] at h h'
  have h1 := jsonParseO_tree hA .null h
  rw [jsonParseO_tree hA .null h'] at h1
  exact (congrArg Prod.snd h1).symm

/-- C123. With an insertion-ordered map the members of every object are in the order of the text, and of several members
with the same key there is the first. -/
theorem C123_insertion_order (A : ParseArgs F) (hA : A.Usual) (c v : Value F) (str : List Nat) (l : List (Option Nat))
    (hl : Sees A str l) :
    jsonParseO A fifoEmplace none c str = (.ok (), v) ↔ ∃ tree, TreeDocument A.dialect l tree ∧ v = arranged firsts tree := by
  rw [C123_members_in_text_order A hA fifoEmplace c v str l hl]
  have : (fun ms : MemberList F => ms.foldl (fun o m => fifoEmplace m.1 m.2 o) []) = firsts := funext keepOf_fifo
  rw [this]

example : jsonParseO (utf8Args true) fifoEmplace none .null (ascii "{\"b\":1,\"a\":[{\"z\":2,\"y\":{}}],\"b\":3,\"B\":null}") =
    (.ok (), .obj [([0x62], .int 1), ([0x61], .arr [.obj [([0x7A], .int 2), ([0x79], .obj [])]]), ([0x42], .null)]) := by
  decide +kernel

/-- C123. A value whose objects are insertion-ordered maps is read back as it was saved, with the members in the same order:
for every value without floats whose objects have distinct keys, in whatever order, and whose strings and integers are as in
`C31_dump_parse`. -/
theorem C123_load_after_save (A : DumpArgs F) (B : ParseArgs F) (hAB : Reverses A B) (spec spec' : Nat → List Nat)
    (hs : Target A.se A.sw spec) (ht : Target A.te A.tw spec') (hb : A.pretty = true → A.ch = 0x20 ∨ A.ch = 0x09)
    (v : Value F) (hv : ∀ ms : MemberList F, Within v (.obj ms) → (ms.map Prod.fst).Nodup) (hf : ∀ f, ¬ HasFloat v f)
    (hi : ∀ i, HasInt v i → -9223372036854775808 < i ∧ i < 9223372036854775808)
    (htx : ∀ s, HasText v s → ∃ cps : List Nat, s = cps.flatMap spec ∧
      ∀ c ∈ cps, Rereadable A.uesc c ∧ (A.sw = 16 ∨ A.tw = 16 → c ≠ 0xFFFF)) :
    ∃ t, (∀ str, jsonDump A none str v = (.ok (), str ++ t)) ∧ ∀ h c, jsonParseO B fifoEmplace h c t = (.ok (), v) := by
  obtain ⟨h1, h2⟩ := dump_parseO hAB hs ht hb v hi hf htx
  refine ⟨_, h1, fun h c => ?_⟩
  rw [h2 fifoEmplace h c, arranged_self v fun ms hm => (keepOf_fifo ms).trans (firsts_nodup (hv ms hm))]

/-- An example: `{"b":[{"z":1,"a":"x"}],"a":null}`. -/
def unsorted : Value Unit :=
  .obj [([0x62], .arr [.obj [([0x7A], .int 1), ([0x61], .str [0x78])]]), ([0x61], .null)]

example : ∀ ms : MemberList Unit, Within unsorted (.obj ms) → (ms.map Prod.fst).Nodup := by
  intro ms h
  cases h with
  | refl => decide
  | member hm h =>
    simp at hm
    rcases hm with ⟨rfl, rfl⟩ | ⟨rfl, rfl⟩
    · cases h with
      | elem hx h =>
        simp at hx
        subst hx
        cases h with
        | refl => decide
        | member hm h =>
          simp at hm
          rcases hm with ⟨rfl, rfl⟩ | ⟨rfl, rfl⟩ <;> cases h
    · cases h
example : jsonParseO (utf8Args true) fifoEmplace none .null (jsonDump (dumpArgs false true 2 0x20) none [] unsorted).2 =
    (.ok (), unsorted) := by decide +kernel
/-- With `std::map` the order is lost. -/
example : jsonParse (utf8Args true) none .null (jsonDump (dumpArgs false true 2 0x20) none [] unsorted).2 ≠
    (.ok (), unsorted) := by decide +kernel

/-- C123. With a hash map, which may arrange its members anew at every insertion, what is read back has the same members with
the same values, at every depth; only the order of the members may differ. -/
theorem C123_unordered_load_after_save (A : DumpArgs F) (B : ParseArgs F) (hAB : Reverses A B) (spec spec' : Nat → List Nat)
    (hs : Target A.se A.sw spec) (ht : Target A.te A.tw spec') (hb : A.pretty = true → A.ch = 0x20 ∨ A.ch = 0x09)
    (arrange : MemberList F → MemberList F) (ha : ∀ ms, (arrange ms).Perm ms)
    (v : Value F) (hv : ∀ ms : MemberList F, Within v (.obj ms) → (ms.map Prod.fst).Nodup) (hf : ∀ f, ¬ HasFloat v f)
    (hi : ∀ i, HasInt v i → -9223372036854775808 < i ∧ i < 9223372036854775808)
    (htx : ∀ s, HasText v s → ∃ cps : List Nat, s = cps.flatMap spec ∧
      ∀ c ∈ cps, Rereadable A.uesc c ∧ (A.sw = 16 ∨ A.tw = 16 → c ≠ 0xFFFF)) :
    ∃ t, (∀ str, jsonDump A none str v = (.ok (), str ++ t)) ∧
      ∀ h c, ∃ w, jsonParseO B (hashEmplace arrange) h c t = (.ok (), w) ∧ SameMembers v w := by
  obtain ⟨h1, h2⟩ := dump_parseO hAB hs ht hb v hi hf htx
  refine ⟨_, h1, fun h c => ⟨_, h2 (hashEmplace arrange) h c, arranged_same (fun ms hn => ?_) v hv⟩⟩
  have := keepOf_hash ha ms
  rw [firsts_nodup hn] at this
  exact this.symm

example : ∀ ms : MemberList Unit, (List.reverse ms).Perm ms := fun ms => ms.reverse_perm
example : jsonParseO (utf8Args true) (hashEmplace List.reverse) none .null (ascii "{\"a\":1,\"b\":2,\"c\":3,\"a\":4}") =
    (.ok (), .obj [([0x62], .int 2), ([0x61], .int 1), ([0x63], .int 3)]) := by decide +kernel
/-- `SameMembers` does tell values apart. -/
example : ¬ SameMembers (.obj [([0x61], .int 1)] : Value Unit) (.obj [([0x61], .int 2)]) := by
  intro h
  cases h with
  | obj h hp =>
    cases h with
    | cons h ht => cases ht; cases h; simp at hp

end Configor.Props
