import Verif.Model.Py
/-
Model of `does_dtype_have_a_zero_shape` (`/repo/src/hdf5storage/utilities.py:46-99`) on numpy dtypes of any nesting.
-/
namespace HS

/-- A `numpy.dtype` as far as the function looks at it: a plain type, a structured type (`.fields`), or a subarray type
(`.shape`, `.base`). -/
inductive NpDT
  | plain (name : Str)
  | struct (fields : List (Str × NpDT))
  | sub (shape : List Nat) (base : NpDT)
  deriving Repr

/-- `dt.shape`. -/
def NpDT.shape : NpDT → List Nat
  | .sub s _ => s
  | _ => []

/-- `dt.fields.values()` (element `[0]` of each is the field's dtype); empty if `dt.fields is None`. -/
def NpDT.fieldTypes : NpDT → List NpDT
  | .struct fs => fs.map (·.2)
  | _ => []

/-- `[dt.base] if dt.base != dt else []`; only subarray types differ from their base. -/
def NpDT.baseList : NpDT → List NpDT
  | .sub _ b => [b]
  | _ => []

mutual
/-- Number of nodes; used as the termination measure only. -/
def NpDT.nodes : NpDT → Nat
  | .plain _ => 1
  | .struct fs => 1 + NpDT.nodesF fs
  | .sub _ b => 1 + b.nodes
/-- Sum over fields. -/
def NpDT.nodesF : List (Str × NpDT) → Nat
  | [] => 0
  | f :: r => f.2.nodes + NpDT.nodesF r
end

/-- Sum over a stack. -/
def nodesL : List NpDT → Nat
  | [] => 0
  | c :: r => c.nodes + nodesL r

theorem nodesL_append (a b : List NpDT) : nodesL (a ++ b) = nodesL a + nodesL b := by
  induction a with
  | nil => simp [nodesL]
  | cons c r ih => simp [nodesL, ih]; omega

theorem nodesL_reverse (a : List NpDT) : nodesL a.reverse = nodesL a := by
  induction a with
  | nil => rfl
  | cons c r ih => simp [nodesL_append, nodesL, ih]; omega

theorem nodesF_eq (fs : List (Str × NpDT)) : NpDT.nodesF fs = nodesL (fs.map (·.2)) := by
  induction fs with
  | nil => rfl
  | cons c r ih => simp [NpDT.nodesF, nodesL, ih]

theorem nodes_children (c : NpDT) : nodesL c.baseList + nodesL c.fieldTypes < c.nodes := by
  cases c with
  | plain _ => simp [NpDT.baseList, NpDT.fieldTypes, nodesL, NpDT.nodes]
  | struct fs => simp [NpDT.baseList, NpDT.fieldTypes, nodesL, NpDT.nodes, nodesF_eq]
  | sub s b => simp [NpDT.baseList, NpDT.fieldTypes, nodesL, NpDT.nodes]

/-- The `while` loop (`utilities.py:91-99`). `components` is kept with its last element (the one `pop` takes) first. -/
def zeroShapeLoop : List NpDT → Bool
  | [] => false
  | c :: rest =>
    if c.shape.contains 0 then true
    else zeroShapeLoop (c.baseList.reverse ++ (c.fieldTypes.reverse ++ rest))
termination_by l => nodesL l
decreasing_by
  have h := nodes_children c
  simp only [nodesL_append, nodesL_reverse, nodesL]
  omega

/-- `does_dtype_have_a_zero_shape(dt)`. -/
def doesDtypeHaveAZeroShape (dt : NpDT) : Bool := zeroShapeLoop [dt]

end HS
