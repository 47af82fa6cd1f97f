import Verif.Model.DumpHeap
/-! # Memory that suffices, and memory for so many characters -/
namespace Configor

/-- All allocations succeed. -/
structure DumpMemory.Ample (Y : DumpMemory) : Prop where
  start : Y.start = true
  text : ∀ o c, Y.text o c = true
  indent : ∀ o n, Y.indent o n = true
  message : ∀ o, Y.message o = true

/-- Memory for `k` characters of text. -/
def memoryFor (k : Nat) : DumpMemory := ⟨true, fun o c => o.length + c.length ≤ k, fun _ _ => true, fun _ => true⟩

end Configor
