import Verif.Model.Conv
/-
HDF5 Attributes and `set_attributes_all` (`/repo/src/hdf5storage/utilities.py:1382-1441`).
-/
namespace HS

/-- Lookup in an association list. -/
def aget {α : Type} (l : List (Str × α)) (k : Str) : Option α :=
  match l with
  | [] => none
  | (k', v) :: r => if k' = k then some v else aget r k
/-- Remove a key. -/
def adel {α : Type} (l : List (Str × α)) (k : Str) : List (Str × α) := l.filter fun p => !(p.1 == k)
/-- Set a key. -/
def aput {α : Type} (l : List (Str × α)) (k : Str) (v : α) : List (Str × α) := adel l k ++ [(k, v)]
/-- The keys. -/
def akeys {α : Type} (l : List (Str × α)) : List Str := l.map (·.1)

/-- Attribute values as h5py gives them back: `np.bytes_`, a one-dimensional array of variable length `str`, a one-dimensional `np.uint64`
array, a numpy integer scalar, a variable length `str`, and the array of character arrays used for `MATLAB_fields`. -/
inductive AVal
  | bytes (b : Bytes)
  | strs (l : List Str)
  | u64s (l : List Nat)
  | int (dt : DT) (v : Int)
  | pyStr (s : Str)
  | fields (l : List Bytes)
  deriving DecidableEq, Repr

/-- `value.dtype` and `value.shape` of an attribute value; Python `str` has neither (`AttributeError`). -/
def AVal.sig : AVal → Option (DT × List Nat)
  | .bytes b => some (.bytes b.length, [])
  | .strs l => some (.object, [l.length])
  | .u64s l => some (.u64, [l.length])
  | .int dt _ => some (dt, [])
  | .pyStr _ => none
  | .fields l => some (.object, [l.length])

/-- What is handed to `set_attributes_all` for one attribute: the kind and the value (`utilities.py:1403-1408`).  A Python `int` (used once,
`Marshallers.py:1128`) has no dtype and is stored as int64. -/
inductive AIn
  | stringArray (l : List Str)
  | string (s : Str)
  | value (v : AVal)
  | pyInt (v : Int)
  deriving DecidableEq, Repr

/-- The value h5py stores for it when nothing is in the way: `attrs.create` with the variable length str type encodes as UTF-8
(`UnicodeEncodeError` for surrogates), `np.bytes_(str)` encodes as ASCII (`utilities.py:1419-1423`). -/
def AIn.stored : AIn → Res AVal
  | .stringArray l => if l.all (·.all isScalar) then .ok (.strs l) else .error .unicodeError
  | .string s => do .ok (.bytes (← asciiEnc s))
  | .value v => .ok v
  | .pyInt v => .ok (.int .i64 v)

/-- One turn of the loop of `set_attributes_all` (`utilities.py:1417-1438`): `old` is the existing value.  For `MATLAB_fields` the attribute is
written again unless it is equal, either way it has the new value afterwards.  (`np.array_equal` on arrays of arrays may raise in some numpy
versions; not modelled.)  Otherwise an existing attribute is only modified if dtype and shape agree and left alone if they differ; if one of the
two has no dtype the bare `except` creates it anew. -/
def setAttrOne (k : Str) (old : Option AVal) (i : AIn) : Res AVal := do
  let v ← i.stored
  match i with
  | .stringArray _ => .ok v
  | .pyInt _ => .ok v
  | _ =>
    match old with
    | none => .ok v
    | some o =>
      if k = p!"MATLAB_fields" then .ok v
      else match v.sig, o.sig with
        | some a, some b => if a = b then .ok v else .ok o
        | _, _ => .ok v

/-- The loop (`utilities.py:1417-1438`); `existing` is the snapshot taken at the start.  Attributes set before an exception stay set. -/
def setAttrsLoop (existing : List (Str × AVal)) : List (Str × AIn) → List (Str × AVal) → Res Unit × List (Str × AVal)
  | [], cur => (.ok (), cur)
  | (k, i) :: r, cur =>
    match setAttrOne k (aget existing k) i with
    | .ok v => setAttrsLoop existing r (aput cur k v)
    | .error e => (.error e, cur)

/-- `set_attributes_all(target, attributes, discard_others)` on the attributes of the target (`utilities.py:1382-1441`). -/
def setAttributesAll (old : List (Str × AVal)) (new : List (Str × AIn)) (discard : Bool) : Res Unit × List (Str × AVal) :=
  match setAttrsLoop old new old with
  | (.ok (), cur) => (.ok (), if discard then cur.filter (fun p => (akeys new).contains p.1) else cur)
  | (.error e, cur) => (.error e, cur)

end HS
