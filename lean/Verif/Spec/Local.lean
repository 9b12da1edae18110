import Verif.Spec.File
/-
What is stored at a place.
-/
namespace HS.Spec

/-- The object refers to `q`: it is a Group with a member `q`, or a Dataset of references with a reference to `q` in it. -/
def Holds (b : Body) (q : Nat) : Prop :=
  match b with
  | .group l => ∃ k, aget l k = some q
  | .dset a _ => a.dt = .ref ∧ El.ref q ∈ a.data

/-- `q` is part of what is stored at `p`: along links and references. -/
inductive PartOf (h : Heap) (p : Nat) : Nat → Prop
  | refl : PartOf h p p
  | step {q r : Nat} {ob : Obj} : PartOf h p q → h[q]? = some ob → Holds ob.body r → PartOf h p r

/-- What is stored at `ns` consists of objects that exist and that are there, below, in the references Group, or nowhere.  This is so in files written by this package
and by MATLAB, where references only lead to the references Group. -/
def SelfContained (o : COpts) (h : Heap) (ns : List Str) : Prop :=
  ∀ q p, LPath h ns q → PartOf h q p → p < h.length ∧ ∀ l, LPath h l p → ns <+: l ∨ (hdf5Names o.refsPath <+: l ∧ l ≠ hdf5Names o.refsPath)

/-- Neither place is the other one or below it. -/
def Apart (ns ms : List Str) : Prop := ¬ ns <+: ms ∧ ¬ ms <+: ns

/-- The call leaves the place `ms` alone: whatever it writes or deletes is neither there nor above nor below, and it deletes nothing on the way to the references
Group. -/
def Elsewhere (o : COpts) (op : Op) (ms : List Str) : Prop :=
  match op with
  | .writes m => ∀ pv ∈ m, ∀ ns, Addr pv.1 ns → Apart ns ms
  | .write p _ => ∀ ns, Addr p ns → Apart ns ms
  | .del p => ∀ ns, Addr p ns → Apart ns ms ∧ ns.head? ≠ (hdf5Names o.refsPath).head?
  | _ => True

end HS.Spec
