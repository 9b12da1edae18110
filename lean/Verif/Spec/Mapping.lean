import Verif.Spec.Local
/-
What popping the entries of a file needs.
-/
namespace HS.Spec

/-- The entries of the root Group but the references Group `r` have proper names and can be read. -/
structure Entries (x : Ctx) (n : Nat) (F : FileS) (r : Str) : Prop where
  name : ∀ k, Exists F.st.heap [k] → k ≠ r → IsName k ∧ k ≠ [dot, dot]
  reads : ∀ k, Exists F.st.heap [k] → k ≠ r → ∃ v, fileRead x n (.str k) F = .ok v

end HS.Spec
