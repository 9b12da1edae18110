import Verif.Spec.File
import Verif.Model.Mapping
/-
Sets of names.
-/
namespace HS.Spec

/-- The call gives `True` if the statement holds, and otherwise `False`; it does not raise. -/
def Tells (r : Res Bool) (p : Prop) : Prop := (r = .ok true ∧ p) ∨ (r = .ok false ∧ ¬ p)

/-- The call gives the set of the names with this property; it does not raise. -/
def GivesSet (r : Res (List Str)) (p : Str → Prop) : Prop := ∃ l, r = .ok l ∧ ∀ k, k ∈ l ↔ p k

/-- `f.keys()` does with the set `s` of names what a set with the elements `K` does. -/
structure KeysLike (x : Ctx) (F : FileS) (s : List Str) (K : Str → Prop) : Prop where
  le : Tells (keysLe x F s) (∀ k, K k → k ∈ s)
  ge : Tells (keysGe x F s) (∀ k, k ∈ s → K k)
  eq : Tells (keysEq x F s) (∀ k, K k ↔ k ∈ s)
  disjoint : Tells (keysDisjoint F s) (∀ k, K k → k ∉ s)
  and : GivesSet (keysAnd F s) (fun k => K k ∧ k ∈ s)
  or : GivesSet (keysOr x F s) (fun k => K k ∨ k ∈ s)
  sub : GivesSet (keysSub x F s) (fun k => K k ∧ k ∉ s)
  rsub : GivesSet (keysRsub F s) (fun k => k ∈ s ∧ ¬ K k)
  xor : GivesSet (keysXor x F s) (fun k => (K k ∧ k ∉ s) ∨ (k ∈ s ∧ ¬ K k))

end HS.Spec
