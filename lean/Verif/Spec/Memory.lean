import Verif.Model.Memory
/-
What is said about arrays in memory (C70).
-/
namespace HS.Spec

/-- A possible array: one stride for every dimension, and the memory is made of bytes. -/
structure InMemory (m : MArr) : Prop where
  strides : m.strides.length = m.shape.length
  bytes : ∀ p, m.byte p < 256

/-- The elements along the last axis lie side by side, or there is only one.  It is so for arrays without dimensions, and for those in C order, but in general not for
transposed arrays and slices with steps. -/
def LastAxisTogether (m : MArr) : Prop := m.shape = [] ∨ m.shape.getLastD 0 = 1 ∨ m.strides.getLastD 0 = m.dt.itemsize

/-- In the order of bytes of the machine. -/
def InMachineOrder (mach : Bool) (m : MArr) : Prop := m.big = mach

end HS.Spec
