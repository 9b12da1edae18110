import Verif.Model.File
/-
The functions of the module (`/repo/src/hdf5storage/__init__.py:2240-2722`): `writes`, `write`, `reads`, `read`, `savemat` and `loadmat`, on a disk with files.

Simplifications: a file is an HDF5 file with a size of the userblock and its content, or something that HDF5 does not open; the bytes of the userblock are left out
(see `Open.lean`); directories, permissions and other errors of the file system do not occur; the marshallers are the default ones; the flag arguments are bools; the
argument `format` of `savemat` is a number or text of one.
-/
namespace HS

/-- The argument `filename` or `file_name`. -/
inductive FName
  | str (s : Str) | bytes (b : Bytes) | other
  deriving DecidableEq, Repr

/-- A file on disk: HDF5 with a userblock of this size and this content, or something else. -/
inductive DFile
  | h5 (userblock : Nat) (h : Heap)
  | junk
  deriving DecidableEq, Repr

/-- The files by name. -/
abbrev Disk := Str → Option DFile

/-- A file is made or replaced. -/
def Disk.put (d : Disk) (f : Str) (c : DFile) : Disk := fun g => if g = f then some c else d g

/-- The content of an HDF5 file just made: the root Group. -/
def emptyHeap : Heap := [⟨[], .group []⟩]

/-- Keyword arguments of `File` (`__init__.py:1629-1638`) but for `writable`; `kw` are the ones passed on to `Options`. -/
structure FileArgs where
  filename : FName
  truncExisting : Bool
  truncInvalid : Bool
  options : Option Options
  kw : List (Opt × PyVal)

/-- Value of a keyword argument, if it was given. -/
def kwGet (kw : List (Opt × PyVal)) (n : Opt) : Option PyVal :=
  match kw with
  | [] => none
  | (m, v) :: r => if m = n then some v else kwGet r n

/-- `Options(**keywords)` (`__init__.py:1655`). -/
def kwOptions (kw : List (Opt × PyVal)) : Res Options := newOptions fun n => (kwGet kw n).getD (Options.default n)

/-- The options of a `File` (`__init__.py:1645-1663`). -/
def fileOptions (a : FileArgs) : Res Options :=
  match a.options with
  | none => kwOptions a.kw
  | some o => if a.kw.length ≠ 0 then .error .valueError else .ok o

/-- Opening the file (`__init__.py:1666-1692`): the size of the userblock and the content. -/
def openDisk (c : Option DFile) (writable truncExisting truncInvalid matlab : Bool) : Res (Nat × Heap) :=
  if !writable then
    match c with
    | some (.h5 ub h) => .ok (ub, h)
    | _ => .error .osError
  else match c with
    | none => .ok (512, emptyHeap)
    | some c =>
      if truncExisting then .ok (512, emptyHeap)
      else match c with
        | .junk => .error .osError
        | .h5 ub h => if matlab ∧ truncInvalid ∧ ub < 128 then .ok (512, emptyHeap) else .ok (ub, h)

/-- The same context with other options. -/
def Ctx.with (x : Ctx) (o : Options) : Ctx := ⟨COpts.of o, x.rng, x.hang⟩

/-- The function `writes` (`__init__.py:2240-2283`); `n` is the recursion limit, the options of `x` are not used. -/
def modWrites (x : Ctx) (n : Nat) (mdict : List (PathArg × Val)) (a : FileArgs) (d : Disk) : Res Unit × Disk :=
  match a.filename with
  | .str f =>
    match fileOptions a with
    | .error e => (.error e, d)
    | .ok o =>
      match openDisk (d f) true a.truncExisting a.truncInvalid (COpts.of o).matlab with
      | .error e => (.error e, d)
      | .ok c =>
        let r := fileWrites (x.with o) n mdict (FileS.new c.2 true)
        (r.1, d.put f (.h5 c.1 r.2.st.heap))
  | _ => (.error .typeError, d)

/-- The function `write` (`__init__.py:2286-2335`). -/
def modWrite (x : Ctx) (n : Nat) (v : Val) (p : PathArg) (a : FileArgs) (d : Disk) : Res Unit × Disk := modWrites x n [(p, v)] a d

/-- The keyword arguments of `reads` and `read` with the extra one (`__init__.py:2388-2393`, `2442-2448`). -/
def readArgs (a : FileArgs) : FileArgs :=
  if (kwGet a.kw .matlabCompatible).isSome ∨ a.options.isSome then a
  else { a with kw := (.matlabCompatible, .bool false) :: a.kw }

/-- The file opened for reading and the options (`__init__.py:1645-1669`). -/
def openRead (a : FileArgs) (d : Disk) : Res (Options × FileS) :=
  match a.filename with
  | .str f =>
    match fileOptions a with
    | .error e => .error e
    | .ok o =>
      match openDisk (d f) false a.truncExisting a.truncInvalid (COpts.of o).matlab with
      | .error e => .error e
      | .ok c => .ok (o, FileS.new c.2 false)
  | _ => .error .typeError

/-- The function `reads` (`__init__.py:2338-2395`). -/
def modReads (x : Ctx) (n : Nat) (paths : List PathArg) (a : FileArgs) (d : Disk) : Res (List Val) :=
  match openRead (readArgs a) d with
  | .error e => .error e
  | .ok c => fileReads (x.with c.1) n paths c.2

/-- The function `read` (`__init__.py:2398-2450`). -/
def modRead (x : Ctx) (n : Nat) (p : PathArg) (a : FileArgs) (d : Disk) : Res Val :=
  match openRead (readArgs a) d with
  | .error e => .error e
  | .ok c => fileRead (x.with c.1) n p c.2

/-- `s.endswith(t)`. -/
def endsWith (s t : Str) : Bool := t.isSuffixOf s

/-- The name of the file (`__init__.py:2560-2566`). -/
def savematName (appendmat : Bool) (f : FName) : FName :=
  if appendmat then
    match f with
    | .str s => if !endsWith s p!".mat" then .str (s ++ p!".mat") else f
    | .bytes b => if !endsWith b p!".mat" then .bytes (b ++ p!".mat") else f
    | .other => f
  else f

/-- The name of the file (`__init__.py:2687-2697`). -/
def loadmatName (appendmat : Bool) (f : FName) : FName :=
  if appendmat then
    match f with
    | .str s => if !endsWith s p!".mat" then .str (s ++ p!".mat") else .str s
    | .bytes b => if !endsWith b p!".mat" then .bytes (b ++ p!".mat") else .bytes b
    | .other => .other
  else f

/-- What `savemat` and `loadmat` do: something themselves or a call of the function of SciPy with this name and this argument `appendmat` (its other arguments
are the given ones, too). -/
inductive MatOut (α : Type)
  | done (r : Res α)
  | scipy (f : FName) (appendmat : Bool)

/-- Arguments of `savemat` (`__init__.py:2453-2465`) but for the name and the data; `old` is whether `float(format) < 7.3`. -/
structure SaveArgs where
  appendmat : Bool
  old : Bool
  onedAs : PyVal
  pyMeta : PyVal
  action : PyVal
  truncExisting : Bool
  truncInvalid : Bool

/-- The options of `savemat` (`__init__.py:2569-2575`). -/
def savematOptions (a : SaveArgs) : Res Options :=
  kwOptions [(.storePythonMetadata, a.pyMeta), (.matlabCompatible, .bool true), (.onedAs, a.onedAs), (.actionForMatlabIncompatible, a.action)]

/-- The function `savemat` (`__init__.py:2453-2584`). -/
def savemat (x : Ctx) (n : Nat) (f : FName) (mdict : List (PathArg × Val)) (a : SaveArgs) (d : Disk) : MatOut Unit × Disk :=
  if a.old then (.scipy f a.appendmat, d)
  else
    let f := savematName a.appendmat f
    match savematOptions a with
    | .error e => (.done (.error e), d)
    | .ok o =>
      let r := modWrites x n mdict { filename := f, truncExisting := a.truncExisting, truncInvalid := a.truncInvalid, options := some o, kw := [] } d
      (.done r.1, r.2)

/-- `d[k] = v` for a dict with paths as keys: a key that is there keeps its place. -/
def pset (l : List (PathArg × Val)) (k : PathArg) (v : Val) : List (PathArg × Val) :=
  match l with
  | [] => [(k, v)]
  | (k', v') :: r => if k' = k then (k', v) :: r else (k', v') :: pset r k v

/-- Value of a key in such a dict. -/
def pget (l : List (PathArg × Val)) (k : PathArg) : Option Val :=
  match l with
  | [] => none
  | (k', v) :: r => if k' = k then some v else pget r k

/-- `{unescape_path(k): v for k, v in f.items()}` (`__init__.py:2703`); `f.items()` gives `(k, f[k])` for `k` in `f`. -/
def loadAll (y : Ctx) (n : Nat) (F : FileS) : List Str → List (PathArg × Val) → Res (List (PathArg × Val))
  | [], data => .ok data
  | k :: r, data => do
    let v ← fileRead y n (.str k) F
    let uk ← unescapePath k
    loadAll y n F r (pset data (.str uk) v)

/-- The loop over `variable_names` (`__init__.py:2705-2708`): whatever raises is left out.  Names that are not hashable are not modelled (they are left out). -/
def loadSome (y : Ctx) (n : Nat) (F : FileS) : List PathArg → List (PathArg × Val) → List (PathArg × Val)
  | [], data => data
  | k :: r, data =>
    match fileRead y n k F with
    | .ok v => loadSome y n F r (pset data k v)
    | .error _ => loadSome y n F r data

/-- `for k, v in data.items(): mdict[k] = v` (`__init__.py:2710-2713`). -/
def updateDict (m : List (PathArg × Val)) : List (PathArg × Val) → List (PathArg × Val)
  | [] => m
  | (k, v) :: r => updateDict (pset m k v) r

/-- Arguments of `loadmat` (`__init__.py:2587-2595`) but for the name. -/
structure LoadArgs where
  mdict : Option (List (PathArg × Val))
  appendmat : Bool
  names : Option (List PathArg)
  options : Option Options

/-- The options of `loadmat` (`__init__.py:2683-2686`). -/
def loadOptions (a : LoadArgs) : Res Options :=
  match a.options with
  | some o => .ok o
  | none => kwOptions []

/-- What is read (`__init__.py:2700-2708`). -/
def loadData (y : Ctx) (n : Nat) (F : FileS) (names : Option (List PathArg)) : Res (List (PathArg × Val)) :=
  match names with
  | none => do
    let ks ← fileIter y F
    loadAll y n F ks []
  | some ns => .ok (loadSome y n F ns [])

/-- The body of the `try` statement of `loadmat` (`__init__.py:2682-2714`). -/
def loadmatTry (x : Ctx) (n : Nat) (f : FName) (a : LoadArgs) (d : Disk) : Res (List (PathArg × Val)) := do
  let o ← loadOptions a
  let c ← openRead { filename := loadmatName a.appendmat f, truncExisting := false, truncInvalid := false, options := some o, kw := [] } d
  let data ← loadData (x.with c.1) n c.2 a.names
  .ok (updateDict (a.mdict.getD data) data)

/-- The function `loadmat` (`__init__.py:2587-2722`): the call of SciPy's function on every `OSError`.  An exception of unspecified class (`.other`) is taken not to be one. -/
def loadmat (x : Ctx) (n : Nat) (f : FName) (a : LoadArgs) (d : Disk) : MatOut (List (PathArg × Val)) :=
  match loadmatTry x n f a d with
  | .error e => if e.isOSError then .scipy f a.appendmat else .done (.error e)
  | .ok r => .done (.ok r)

end HS
