import Verif.Model.NpArr
import Verif.Model.Unicode
/-
Opening a file: `File.__init__` (`/repo/src/hdf5storage/__init__.py:1629-1761`) as the sequence of changes to the file on disk.

Simplifications: the argument checks (`1645-1663`) are left out; of HDF5 is modelled where the superblock is looked for (which gives the size of the
userblock), that everything else depends on the bytes from the superblock on only, and that opening and closing an existing file without changing
anything does not change its bytes; the states of the disk while HDF5 creates a file are not told apart but for the empty file in between.
-/
namespace HS

/-- `datetime.datetime` in whole seconds and its `weekday()`. -/
structure DateTime where
  year : Nat
  month : Nat
  day : Nat
  hour : Nat
  minute : Nat
  second : Nat
  weekday : Nat
  deriving DecidableEq, Repr

/-- Two decimal digits (`%d`, `%H`, `%M`, `%S`). -/
def dig2 (n : Nat) : Str := [48 + n / 10 % 10, 48 + n % 10]

/-- Names of the days (`__init__.py:1718-1720`). -/
def weekdays : List Str := [p!"Mon", p!"Tue", p!"Wed", p!"Thu", p!"Fri", p!"Sat", p!"Sun"]
/-- Names of the months (`__init__.py:1721-1734`). -/
def months : List Str := [p!"Jan", p!"Feb", p!"Mar", p!"Apr", p!"May", p!"Jun", p!"Jul", p!"Aug", p!"Sep", p!"Oct", p!"Nov", p!"Dec"]

/-- Indexing of a tuple. -/
def tupleGet (l : List Str) (i : Nat) : Res Str :=
  match l[i]? with
  | some s => .ok s
  | none => .error .indexError

/-- `f"{now:%d %H:%M:%S %Y}"` (`__init__.py:1737`). -/
def strftime (now : DateTime) : Str :=
  dig2 now.day ++ [32] ++ dig2 now.hour ++ [58] ++ dig2 now.minute ++ [58] ++ dig2 now.second ++ [32] ++ decDigits now.year

/-- The text of the header (`__init__.py:1718-1740`); `now.month` is at least 1. -/
def headerText (version : Str) (now : DateTime) : Res Str := do
  let wd ← tupleGet weekdays now.weekday
  let mo ← tupleGet months (now.month - 1)
  .ok (p!"MATLAB 7.3 MAT-file, Platform: hdf5storage " ++ version ++ p!", Created on: " ++ wd ++ [32] ++ mo ++ [32] ++ strftime now ++ p!" HDF5 schema 1.00 .")

/-- The header (`__init__.py:1742-1748`); a negative number of spaces is none. -/
def header (version : Str) (now : DateTime) : Res Bytes := do
  let s ← headerText version now
  let b ← utf8Enc (s ++ List.replicate (128 - 12 - s.length) 32)
  .ok (b ++ [0, 0, 0, 0, 0, 0, 0, 0, 0x00, 0x02, 0x49, 0x4D])

/-- `__version__` (`__init__.py:37`). -/
def libVersion : Str := p!"0.2"

/-- The HDF5 signature. -/
def h5sig : Bytes := [0x89, 0x48, 0x44, 0x46, 0x0D, 0x0A, 0x1A, 0x0A]

/-- The search for the signature at the offsets 0, 512, 1024, 2048, ... (HDF5 file format specification, III.A); the first argument bounds the number of
places. -/
def findSig (b : Bytes) : Nat → Nat → Option Nat
  | 0, _ => none
  | f + 1, n =>
    if (b.drop n).take 8 = h5sig then some n
    else if b.length ≤ n then none
    else findSig b f (if n = 0 then 512 else 2 * n)

/-- `f.userblock_size` (h5py) of a file with these bytes, if it has a superblock. -/
def userblockSize (b : Bytes) : Option Nat := findSig b (b.length + 1) 0

/-- What opening depends on besides the arguments: whether HDF5 accepts what follows the userblock, the bytes of a new file with a userblock of 512
bytes, the version and the time. -/
structure OpenEnv where
  valid : Bytes → Bool
  fresh : Bytes
  version : Str
  now : DateTime

/-- The arguments: `writable`, `truncate_existing`, `truncate_invalid_matlab` and the option `matlab_compatible`. -/
structure OpenArgs where
  writable : Bool
  truncExisting : Bool
  truncInvalid : Bool
  matlab : Bool
  deriving DecidableEq, Repr

/-- `h5py.File(filename, mode="r")`, and mode "a" on an existing file: the size of the userblock, or `OSError`. -/
def h5Open (e : OpenEnv) (b : Bytes) : Res Nat :=
  match userblockSize b with
  | some n => if e.valid (b.drop n) then .ok n else .error .osError
  | none => .error .osError

/-- Overwrite the beginning of a file. -/
def overwrite (b new : Bytes) : Bytes := new ++ b.drop new.length

/-- What happened: the states of the file on disk one after the other, the last one being the final one, and the result. -/
abbrev Trace := List Bytes × Res Unit

/-- Writing the header byte by byte and opening again (`__init__.py:1749-1754`). -/
def putHeader (e : OpenEnv) (b : Bytes) : Trace :=
  match header e.version e.now with
  | .error err => ([], .error err)
  | .ok hdr => ((List.range hdr.length).map fun k => overwrite b (hdr.take (k + 1)), (h5Open e (overwrite b hdr)).map fun _ => ())

/-- From where the file is open for writing with a userblock of `n` bytes (`__init__.py:1693-1754`). -/
def openRest (e : OpenEnv) (a : OpenArgs) (b : Bytes) (n : Nat) : Trace := if a.matlab ∧ 128 ≤ n then putHeader e b else ([], .ok ())

/-- `h5py.File(filename, mode="w", userblock_size=512)` and what follows (`__init__.py:1683`, `1691`). -/
def openNew (e : OpenEnv) (a : OpenArgs) : Trace :=
  match h5Open e e.fresh with
  | .error err => ([[], e.fresh], .error err)
  | .ok n =>
    let t := openRest e a e.fresh n
    ([] :: e.fresh :: t.1, t.2)

/-- `File.__init__` (`__init__.py:1665-1754`) on the file's bytes, `none` if there is no such file.  The states do not include the one at the start. -/
def openFile (e : OpenEnv) (a : OpenArgs) (d : Option Bytes) : Trace :=
  if !a.writable then
    match d with
    | none => ([], .error .osError)
    | some b => ([], (h5Open e b).map fun _ => ())
  else match d with
    | none => openNew e a
    | some b =>
      if a.truncExisting then openNew e a
      else match h5Open e b with
        | .error err => ([], .error err)
        | .ok n =>
          if a.matlab ∧ a.truncInvalid ∧ n < 128 then openNew e a
          else openRest e a b n

end HS
