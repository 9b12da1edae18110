import Verif.Spec.Collection
import Verif.Model.Builtin
/-
Specification of the choice of marshallers by the low level reader and writer.
-/
namespace HS.Spec

/-- What an object in the file is recognised by: its `Python.Type` if it has one, else its `MATLAB_class`, else the type of its elements, else (a Group)
as a MATLAB struct. -/
def recognisedBy (ts mc : Option Str) (kind : DKind) : Key :=
  match ts with
  | some t => .typeString t
  | none =>
    match mc with
    | some c => .matlabClass c
    | none =>
      match kind with
      | .dset tp => .type tp
      | .group => .matlabClass p!"struct"

/-- The marshaller to read with, the list having the highest priority first: the first that declares what the object is recognised by, else the first
that declares `numpy.uint8`. -/
def chosenReader (l : List Marshaller) (ts mc : Option Str) (kind : DKind) : Option Marshaller :=
  match l.find? (declares (recognisedBy ts mc kind)) with
  | some m => some m
  | none => l.find? (declares (.type (.str p!"numpy.uint8")))

/-- What kind of object it is: a Group, or a Dataset, whose elements have some numpy scalar class. -/
def KindOf (ob : Obj) : DKind → Prop
  | .group => ∃ l : List (Str × Nat), ob.body = .group l
  | .dset tp => (∀ l : List (Str × Nat), ob.body ≠ .group l) ∧ ∃ n : Str, n ≠ p!"dtype" ∧ tp = .cls p!"numpy" n

end HS.Spec
