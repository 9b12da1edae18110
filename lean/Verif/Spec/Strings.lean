import Verif.Model.NpArr
/-
Independent notions for the string properties (C19, C20, C30).
-/
namespace HS

/-- Two lists related element by element. -/
inductive All2 {α β : Type} (R : α → β → Prop) : List α → List β → Prop
  | nil : All2 R [] []
  | cons {a : α} {b : β} {l : List α} {r : List β} : R a b → All2 R l r → All2 R (a :: l) (b :: r)

end HS

namespace HS.Spec

/-- Strings numpy/HDF5 storage can carry: only Unicode scalar values, and the last character's code point is not a multiple of 256
(in particular no trailing NUL; see finding F5). -/
def Storable (s : Str) : Prop :=
  (∀ c ∈ s, (c < 0xD800 ∨ 0xDFFF < c) ∧ c ≤ 0x10FFFF) ∧ ∀ c, s.getLast? = some c → c % 256 ≠ 0

/-- Only Unicode scalar values. -/
def Scalars (s : Str) : Prop := ∀ c ∈ s, (c < 0xD800 ∨ 0xDFFF < c) ∧ c ≤ 0x10FFFF

/-- The 16 bit words `l` and `l'` have the same bytes in opposite order. -/
def Swapped16 (l l' : List Nat) : Prop :=
  All2 (fun w v => ∃ a b, a < 256 ∧ b < 256 ∧ w = a * 256 + b ∧ v = b * 256 + a) l l'
/-- The same for 32 bit words. -/
def Swapped32 (l l' : List Nat) : Prop :=
  All2 (fun w v => ∃ a b c d, a < 256 ∧ b < 256 ∧ c < 256 ∧ d < 256 ∧ w = ((a * 256 + b) * 256 + c) * 256 + d ∧ v = ((d * 256 + c) * 256 + b) * 256 + a) l l'

/-- A numpy `U n` array with elements of value `ss` in C order. -/
structure IsStrArray (a : Arr) (n : Nat) (ss : List Str) : Prop where
  dt : a.dt = .str n
  size : ss.length = prodN a.shape
  data : a.data = ss.map fun s => El.units (s ++ List.replicate (n - s.length) 0)
  width : ∀ s ∈ ss, s.length ≤ n

end HS.Spec
