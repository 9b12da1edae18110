import Verif.Model.Shared
/-
What is visible of the options and collections of a process.
-/
namespace HS.Spec

/-- The user's `u`-th Options object has these values and uses this collection. -/
def UserHas (s : Proc) (u : Nat) (o : OptObj) : Prop := ∃ i : Nat, s.user[u]? = some i ∧ s.opts[i]? = some o

/-- The `f`-th File works with these options and this collection. -/
def FileHas (s : Proc) (f : Nat) (o : OptObj) : Prop := ∃ i : Nat, s.files[f]? = some i ∧ s.opts[i]? = some o

/-- Some history after the import of the package leads here. -/
def ReachProc (s : Proc) : Prop := ∃ c w l, s = (Proc.start c w).run l

/-- Neither an option nor the collection of this object is assigned. -/
def NotAssigned (u : Nat) (a : PAct) : Prop := (∀ n v, a ≠ .setOpt u n v) ∧ ∀ c, a ≠ .setColl u c

/-- The collection given, or else the default one. -/
def collOr (s : Proc) : Option Nat → Nat
  | some c => c
  | none => s.dflt

end HS.Spec
