import Verif.Model.Collection
/-
Specification of the marshaller collection: which marshaller should be found, what the user marshallers should be.
-/
namespace HS.Spec

/-- The name of a type: `module.name` of a class, or the given `str`. -/
def dottedName : TypeRef → Str
  | .str s => s
  | .cls m n => m ++ 46 :: n

/-- Does the marshaller declare this type (by class or by dotted name), type string or MATLAB class? -/
def declares (k : Key) (m : Marshaller) : Bool :=
  match k with
  | .type t => m.types.any (fun r => dottedName r == dottedName t)
  | .typeString s => m.typeStrings.contains s
  | .matlabClass c => m.matlabClasses.contains c

/-- All marshallers, highest priority first. -/
def ranked (priority : List Str) (builtin plugin user : List Marshaller) : List Marshaller :=
  priority.flatMap fun v =>
    if v = p!"builtin" then builtin else if v = p!"plugin" then plugin else if v = p!"user" then user else []

/-- Elementary changes of the set of user marshallers. -/
inductive Ev
  | add (m : Marshaller) | remove (m : Marshaller) | clear
  deriving DecidableEq, Repr

/-- The elementary changes asked for by a call, in order. -/
def eventsOf : COp → List Ev
  | .add a => (marshallersIn a.items).map .add
  | .remove a => (marshallersIn a.items).map .remove
  | .clear => [.clear]
  | _ => []

/-- Is `m` added and not since removed? The list has the most recent change first. -/
def presentR (m : Marshaller) : List Ev → Bool
  | [] => false
  | .add x :: r => x == m || presentR m r
  | .remove x :: r => x != m && presentR m r
  | .clear :: _ => false

/-- When did the present membership of `m` begin? -/
def sinceR (m : Marshaller) : List Ev → Nat
  | [] => 0
  | e :: r => if presentR m r then sinceR m r else if e = .add m then r.length else sinceR m r

/-- Calls that change the set of marshallers. -/
def isMut : COp → Bool
  | .add _ | .remove _ | .clear => true
  | _ => false

/-- No changing call in the history raised. -/
def smooth : List (Env × COp) → List COut → Prop
  | (_, o) :: r, x :: xs => (isMut o = true → x = .done) ∧ smooth r xs
  | _, _ => True

end HS.Spec
