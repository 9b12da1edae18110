import Verif.Model.Read
import Verif.Model.PosixPath
/-
The class `File` (`/repo/src/hdf5storage/__init__.py:1519-2237`): everything but opening (see `Open.lean`).

Simplifications: the HDF5 library itself does not fail; on a file opened read-only every call that would change the file raises (class of the exception
unspecified, `.other`) and changes nothing.  The method arguments are checked by `isinstance` in Python; here they have the right types.
-/
namespace HS

/-- A `File` object and its file: `self._file is not None`, whether h5py opened it with mode "r", `self._writable`, and the state of the file and of the
`LowLevelFile`. -/
structure FileS where
  isOpen : Bool
  ro : Bool
  writable : Bool
  st : St
  deriving DecidableEq, Repr

/-- A newly opened `File` (`__init__.py:1664-1667, 1756-1761`): `self._writable` is set to `True` whatever the argument `writable` was. -/
def FileS.new (h : Heap) (writable : Bool) : FileS := ⟨true, !writable, true, St.init h⟩

/-- `grp.name` of the Group with these names. -/
def absName (comps : List Str) : Str := if comps = [] then [slash] else comps.flatMap fun c => slash :: c

/-- `self._file.require_group(groupname)` (`__init__.py:1923`, h5py): the Group, made together with missing Groups on the way if it is not there;
`TypeError` if it is a Dataset. -/
def requireGroup (comps : List Str) : M Nat := fun s =>
  if comps.all nameOk then
    match resolve s.heap 0 comps with
    | some g => if isGroup s.heap g then (.ok g, s) else (.error .typeError, s)
    | none => createPath 0 comps s
  else (.error .unicodeError, s)

/-- One turn of the loop of `writes` (`__init__.py:1921-1927`); `n` is the recursion limit. -/
def writeOne (x : Ctx) (n : Nat) (gt : Str × Str) (v : Val) : M (Option Nat) := do
  let g ← requireGroup (commonComps gt.1)
  writeData x n g (absName (commonComps gt.1)) gt.2 v

/-- The loop of `writes` (`__init__.py:1921-1927`). -/
def writeMany (x : Ctx) (n : Nat) : List ((Str × Str) × Val) → M Unit
  | [] => pure ()
  | (gt, v) :: r => do
    let _ ← writeOne x n gt v
    writeMany x n r

/-- Run something that may change the file.  If the file was opened read-only and it would change it, it raises. -/
def runFile {α : Type} (F : FileS) (m : M α) : Res α × FileS :=
  let r := m F.st
  if F.ro then ((if r.2.heap = F.st.heap then r.1 else .error .other), F) else (r.1, { F with st := r.2 })

/-- `{path: data}` with the paths processed and checked, or the first error (`__init__.py:1892-1913`). -/
def checkItems (refs : Str) : List (PathArg × Val) → Res (List ((Str × Str) × Val))
  | [] => .ok []
  | (p, v) :: r => do
    let gt ← checkPath refs p
    let l ← checkItems refs r
    .ok ((gt, v) :: l)

/-- `File.writes(mdict)` (`__init__.py:1844-1927`). -/
def fileWrites (x : Ctx) (n : Nat) (mdict : List (PathArg × Val)) (F : FileS) : Res Unit × FileS :=
  if !F.writable then (.error .osError, F)
  else match checkItems x.o.refsPath mdict with
    | .error e => (.error e, F)
    | .ok tw => if !F.isOpen then (.error .osError, F) else runFile F (writeMany x n tw)

/-- `File.write(data, path)` (`__init__.py:1808-1842`) and `File.__setitem__` (`2168-2202`).  Paths that are not hashable, such as lists, are not modelled (they
raise `TypeError`). -/
def fileWrite (x : Ctx) (n : Nat) (p : PathArg) (v : Val) (F : FileS) : Res Unit × FileS := fileWrites x n [(p, v)] F

/-- The references Group, which is left out when Groups are read (`Marshallers.py:1220`, `2047`). -/
def exclOf (o : COpts) (h : Heap) : Option Nat := resolve h 0 (commonComps o.refsPath)

/-- One turn of the loop of `reads` (`__init__.py:2027-2035`, `utilities.py:322-330`). -/
def readOne (x : Ctx) (n : Nat) (h : Heap) (gt : Str × Str) : Res Val :=
  if (commonComps gt.1).all nameOk then
    match resolve h 0 (commonComps gt.1) with
    | none => .error .keyError
    | some g =>
      if isGroup h g then
        if nameOk gt.2 then
          match hlook h g gt.2 with
          | none => .error .keyError
          | some q => readData x.o (viewOf h) (exclOf x.o h) n q
        else .error .unicodeError
      else .error .keyError
  else .error .unicodeError

/-- The loop of `reads` (`__init__.py:2026-2035`). -/
def readMany (x : Ctx) (n : Nat) (h : Heap) : List (Str × Str) → Res (List Val)
  | [] => .ok []
  | gt :: r => do
    let v ← readOne x n h gt
    let l ← readMany x n h r
    .ok (v :: l)

/-- The paths processed and checked, or the first error (`__init__.py:1998-2019`). -/
def checkPaths (refs : Str) : List PathArg → Res (List (Str × Str))
  | [] => .ok []
  | p :: r => do
    let gt ← checkPath refs p
    let l ← checkPaths refs r
    .ok (gt :: l)

/-- `File.reads(paths)` (`__init__.py:1964-2037`). -/
def fileReads (x : Ctx) (n : Nat) (paths : List PathArg) (F : FileS) : Res (List Val) :=
  match checkPaths x.o.refsPath paths with
  | .error e => .error e
  | .ok tr => if !F.isOpen then .error .osError else readMany x n F.st.heap tr

/-- `l[0]`. -/
def pyHead (l : List Val) : Res Val :=
  match l with
  | [] => .error .indexError
  | v :: _ => .ok v

/-- `File.read(path)` (`__init__.py:1929-1962`) and `File.__getitem__` (`2135-2166`). -/
def fileRead (x : Ctx) (n : Nat) (p : PathArg) (F : FileS) : Res Val := do
  let l ← fileReads x n [p] F
  pyHead l

/-- `path in self._file`. -/
def h5Contains (h : Heap) (p : Str) : Res Bool :=
  if (commonComps p).all nameOk then .ok (resolve h 0 (commonComps p)).isSome else .error .unicodeError

/-- `len(self._file)`. -/
def h5Len (h : Heap) : Nat := (linksOf h 0).length

/-- `File.__len__` (`__init__.py:2039-2068`). -/
def fileLen (x : Ctx) (F : FileS) : Res Nat :=
  if !F.isOpen then .error .osError
  else if h5Len F.st.heap ≠ 0 ∧ pDirname x.o.refsPath = [slash] then do
    if ← h5Contains F.st.heap x.o.refsPath then .ok (h5Len F.st.heap - 1) else .ok (h5Len F.st.heap)
  else .ok (h5Len F.st.heap)

/-- `File.__contains__(path)` (`__init__.py:2070-2095`). -/
def fileContains (p : PathArg) (F : FileS) : Res Bool :=
  match processPath p with
  | .error .typeError => .ok false
  | .error e => .error e
  | .ok gt => if !F.isOpen then .error .osError else do h5Contains F.st.heap (← pJoin [gt.1, gt.2])

/-- The names `File.__iter__` yields (`__init__.py:2097-2133`), the file not being changed while iterating.  h5py iterates in the order of the names. -/
def fileIter (x : Ctx) (F : FileS) : Res (List Str) :=
  if !F.isOpen then .error .osError
  else
    let it := sortStr (akeys (linksOf F.st.heap 0))
    if pDirname x.o.refsPath = [slash] then .ok (it.dropWhile fun k => k == x.o.refsPath.drop 1) else .ok it

/-- `File.__delitem__(path)` (`__init__.py:2204-2237`). -/
def fileDel (p : PathArg) (F : FileS) : Res Unit × FileS :=
  if !F.writable then (.error .osError, F)
  else match processPath p with
    | .error e => (.error e, F)
    | .ok gt =>
      if !F.isOpen then (.error .osError, F)
      else match pJoin [gt.1, gt.2] with
        | .error e => (.error e, F)
        | .ok j => runFile F (unlinkPath 0 (commonComps j))

/-- `File.close()` (`__init__.py:1786-1791`). -/
def fileClose (F : FileS) : Res Unit × FileS := (.ok (), { F with isOpen := false })

/-- `File.flush()` (`__init__.py:1793-1806`). -/
def fileFlush (F : FileS) : Res Unit × FileS := if !F.isOpen then (.error .osError, F) else (.ok (), F)

/-- `File.closed` (`__init__.py:1781-1784`). -/
def fileClosed (F : FileS) : Bool := !F.isOpen

end HS

namespace HS

/-- The methods of `File` and their arguments (`__init__.py:1781-2237`). -/
inductive Op
  | writes (mdict : List (PathArg × Val))
  | write (p : PathArg) (v : Val)
  | reads (paths : List PathArg)
  | read (p : PathArg)
  | len
  | contains (p : PathArg)
  | iter
  | del (p : PathArg)
  | close
  | flush
  | closed

/-- What a method returned. -/
inductive Out
  | unit
  | vals (l : List Val)
  | val (v : Val)
  | num (n : Nat)
  | bool (b : Bool)
  | names (l : List Str)

/-- Wrap a result. -/
def outOf {α : Type} (f : α → Out) (r : Res α) : Res Out := r.map f

/-- Call a method; `n` is the recursion limit. -/
def fileOp (x : Ctx) (n : Nat) (op : Op) (F : FileS) : Res Out × FileS :=
  match op with
  | .writes m => (outOf (fun _ => .unit) (fileWrites x n m F).1, (fileWrites x n m F).2)
  | .write p v => (outOf (fun _ => .unit) (fileWrite x n p v F).1, (fileWrite x n p v F).2)
  | .reads ps => (outOf .vals (fileReads x n ps F), F)
  | .read p => (outOf .val (fileRead x n p F), F)
  | .len => (outOf .num (fileLen x F), F)
  | .contains p => (outOf .bool (fileContains p F), F)
  | .iter => (outOf .names (fileIter x F), F)
  | .del p => (outOf (fun _ => .unit) (fileDel p F).1, (fileDel p F).2)
  | .close => (outOf (fun _ => .unit) (fileClose F).1, (fileClose F).2)
  | .flush => (outOf (fun _ => .unit) (fileFlush F).1, (fileFlush F).2)
  | .closed => (.ok (.bool (fileClosed F)), F)

/-- Call several methods one after the other, going on after exceptions. -/
def fileOps (x : Ctx) (n : Nat) : List Op → FileS → List (Res Out) × FileS
  | [], F => ([], F)
  | op :: r, F =>
    let a := fileOp x n op F
    let b := fileOps x n r a.2
    (a.1 :: b.1, b.2)

end HS
