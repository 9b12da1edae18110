import Verif.Model.NpArr
import Verif.Model.DTypeTree
/-
The dtypes of the fields of structured arrays.

Simplifications: fields have no titles, structured dtypes are packed (no padding, offsets in order), and `np.record` dtypes inside an array are not told from
`np.void` ones.
-/
namespace HS

mutual
/-- `dtype.hasobject`. -/
def FT.hasObject : FT → Bool
  | .base dt _ => dt == .object
  | .struct _ t _ => FT.hasObjectL t
/-- One of the fields. -/
def FT.hasObjectL : List FT → Bool
  | [] => false
  | a :: r => FT.hasObject a || FT.hasObjectL r
end

/-- `t in s`. -/
def hasInfix (t : Str) : Str → Bool
  | [] => t.isEmpty
  | c :: r => t.isPrefixOf (c :: r) || hasInfix t r

/-- Does `repr(name)` contain the four characters `\x00`?  It does if the name has a NUL or these four characters themselves. -/
def nameHasNull (n : Str) : Bool := n.contains 0 || hasInfix p!"\\x00" n

mutual
/-- Does `str(dtype)` show such a name in the field's own dtype? -/
def FT.hasNull : FT → Bool
  | .base _ _ => false
  | .struct n t _ => n.any nameHasNull || FT.hasNullL t
/-- One of the fields. -/
def FT.hasNullL : List FT → Bool
  | [] => false
  | a :: r => FT.hasNull a || FT.hasNullL r
end

mutual
/-- Size in bytes of the field. -/
def FT.size : FT → Nat
  | .base dt sp => prodN sp * dt.itemsize
  | .struct _ t sp => prodN sp * FT.sizeL t
/-- `dtype.itemsize` of the structured dtype with such fields. -/
def FT.sizeL : List FT → Nat
  | [] => 0
  | a :: r => FT.size a + FT.sizeL r
end

/-- A dtype as a subarray. -/
def subDT (sp : List Nat) (d : NpDT) : NpDT := if sp = [] then d else .sub sp d

mutual
/-- The field's dtype as `does_dtype_have_a_zero_shape` sees it. -/
def FT.npdt : FT → NpDT
  | .base dt sp => subDT sp (.plain dt.name)
  | .struct n t sp => subDT sp (.struct (FT.npdtL n t))
/-- The fields. -/
def FT.npdtL : List Str → List FT → List (Str × NpDT)
  | n :: ns, a :: r => (n, FT.npdt a) :: FT.npdtL ns r
  | _, _ => []
end

/-- The fields of a compound that h5py takes for the parts of a complex number when it makes a numpy dtype of it (h5py's `TypeCompoundID.py_dtype`). -/
def complexPair (names : List Str) (types : List FT) : Bool :=
  names == [p!"r", p!"i"] && [DT.f16, .f32, .f64].any fun d => FT.beqL types [.base d [], .base d []]

mutual
/-- Does a structured dtype in the field have such fields? -/
def FT.hasPair : FT → Bool
  | .base _ _ => false
  | .struct n t _ => complexPair n t || FT.hasPairL t
/-- One of the fields. -/
def FT.hasPairL : List FT → Bool
  | [] => false
  | a :: r => FT.hasPair a || FT.hasPairL r
end

end HS
