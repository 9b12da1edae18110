import Verif.Model.NpArr
/-
`decode_complex` and `encode_complex` (`/repo/src/hdf5storage/utilities.py:1188-1321`), and h5py's own treatment of complex compounds.
-/
namespace HS

/-- `s.lower()` restricted to ASCII letters.  (No other character lower-cases to one of the letters of the field names below: the only
non-ASCII characters with a one-letter ASCII lower case is U+212A, giving k.) -/
def lowerAscii (s : Str) : Str := s.map fun c => if 65 ≤ c ∧ c ≤ 90 then c + 32 else c

/-- `utilities.py:1243`. -/
def realFields : List Str := [p!"r", p!"re", p!"real"]
/-- `utilities.py:1244`. -/
def imagFields : List Str := [p!"i", p!"im", p!"imag", p!"imaginary"]

/-- The loop choosing the fields (`utilities.py:1246-1251`), starting from `complex_names = (None, None)`. -/
def pickComplexNames (fields : List Str) : Option Str × Option Str :=
  fields.foldl (fun cn s =>
    if lowerAscii s ∈ realFields then (some s, cn.2)
    else if lowerAscii s ∈ imagFields then (cn.1, some s)
    else cn) (none, none)

/-- Part of an element of a two-field compound by position. -/
def El.part (second : Bool) : El → Int
  | .cplx r i => if second then i else r
  | _ => 0

/-- `decode_complex(data)` (`utilities.py:1188-1277`).  Only compounds with two fields of the same float type (`DT.crec`) have fields in this
model; the parts keep their bit patterns under `astype` to the complex type of the same precision. -/
def decodeComplex (a : Arr) : Arr :=
  match a.dt with
  | .crec n0 n1 dbl =>
    match pickComplexNames [n0, n1] with
    | (some re, some im) =>
      { a with dt := if dbl then .c128 else .c64,
               data := a.data.map fun e => .cplx (e.part (re == n1 && !(re == n0))) (e.part (im == n1 && !(im == n0))) }
    | _ => a
  | _ => a

/-- numpy replaces an empty field name by `f` and its position. -/
def fieldName (s : Str) (pos : Nat) : Str := if s.isEmpty then p!"f" ++ decDigits pos else s

/-- `encode_complex(data, complex_names)` (`utilities.py:1280-1321`) on complex data: a view with two named fields; `ValueError` if both have the
same name. -/
def encodeComplex (a : Arr) (names : Str × Str) : Res Arr :=
  let n0 := fieldName names.1 0
  let n1 := fieldName names.2 1
  if n0 = n1 then .error .valueError
  else match a.dt with
    | .c64 => .ok { a with dt := .crec n0 n1 false }
    | .c128 => .ok { a with dt := .crec n0 n1 true }
    | _ => .error .typeError

/-- What h5py returns for a Dataset's data (`dset[...]`): a compound with fields exactly `('r', 'i')` of one float type is given as complex, a
zero-width `S` type does not exist in HDF5. -/
def h5Read (a : Arr) : Arr :=
  match a.dt with
  | .crec n0 n1 dbl => if n0 = p!"r" ∧ n1 = p!"i" then { a with dt := if dbl then .c128 else .c64 } else a
  | _ => a

end HS
