import Verif.Model.Mat
/-
The statement `with File(...) as f:` (`/repo/src/hdf5storage/__init__.py:1629-1791`), which the functions of the module use (`2281`, `2333`, `2394`, `2449`, `2577`, `2699`), on a disk
with files.

Simplifications: those of `Mat.lean`; what the block does besides calling methods of `f` is left out, except that it decides by the results which method is called next, and
that it ends with a value or with an exception; a block that does not end is not modelled.
-/
namespace HS

/-- The block of a `with` statement: it is done, with a value or with an exception, or it calls a method of `f` and goes on, depending on what came back (which may be an
exception: the block may catch it or not). -/
inductive Block (α : Type)
  | done (r : Res α)
  | call (op : Op) (k : Res Out → Block α)

/-- The block is executed; `n` is the recursion limit. -/
def Block.run {α : Type} (x : Ctx) (n : Nat) : Block α → FileS → Res α × FileS
  | .done r, F => (r, F)
  | .call op k, F => (k (fileOp x n op F).1).run x n (fileOp x n op F).2

/-- `File(filename, writable, ...)` (`__init__.py:1629-1761`): the name, the options, the size of the userblock and the `File`. -/
def openWith (w : Bool) (a : FileArgs) (d : Disk) : Res (Str × Options × Nat × FileS) :=
  match a.filename with
  | .str f =>
    match fileOptions a with
    | .error e => .error e
    | .ok o =>
      match openDisk (d f) w a.truncExisting a.truncInvalid (COpts.of o).matlab with
      | .error e => .error e
      | .ok c => .ok (f, o, c.1, FileS.new c.2 w)
  | _ => .error .typeError

/-- `with File(...) as f: block` (`__init__.py:1763-1774`): how it ends, the `File` if there is one, and the disk.  `__exit__` closes the file and returns `None`: an exception of
the block goes on.  A file opened with mode "r" is not changed. -/
def withFile {α : Type} (x : Ctx) (n : Nat) (w : Bool) (b : Block α) (a : FileArgs) (d : Disk) : Res α × Option FileS × Disk :=
  match openWith w a d with
  | .error e => (.error e, none, d)
  | .ok (f, o, ub, F) =>
    let r := b.run (x.with o) n F
    let G := (fileClose r.2).2
    (r.1, some G, if w then d.put f (.h5 ub G.st.heap) else d)

/-- `f.writes(mdict)` as the only statement of the block (`__init__.py:2282`). -/
def writesBlock (mdict : List (PathArg × Val)) : Block Unit := .call (.writes mdict) fun r => .done (r.map fun _ => ())

/-- `f.write(data, path)` (`__init__.py:2334`). -/
def writeBlock (v : Val) (p : PathArg) : Block Unit := .call (.write p v) fun r => .done (r.map fun _ => ())

/-- `return f.reads(paths)` (`__init__.py:2395`). -/
def readsBlock (paths : List PathArg) : Block (List Val) :=
  .call (.reads paths) fun r => .done (r.bind fun o => match o with | .vals l => .ok l | _ => .error .other)

/-- `return f.read(path)` (`__init__.py:2450`). -/
def readBlock (p : PathArg) : Block Val :=
  .call (.read p) fun r => .done (r.bind fun o => match o with | .val v => .ok v | _ => .error .other)

/-- `{unescape_path(k): v for k, v in f.items()}` (`__init__.py:2703`) after the names are known. -/
def loadAllBlock : List Str → List (PathArg × Val) → Block (List (PathArg × Val))
  | [], data => .done (.ok data)
  | k :: r, data => .call (.read (.str k)) fun o =>
    match o with
    | .ok (.val v) =>
      match unescapePath k with
      | .ok uk => loadAllBlock r (pset data (.str uk) v)
      | .error e => .done (.error e)
    | .ok _ => .done (.error .other)
    | .error e => .done (.error e)

/-- The loop over `variable_names` (`__init__.py:2705-2708`). -/
def loadSomeBlock : List PathArg → List (PathArg × Val) → Block (List (PathArg × Val))
  | [], data => .done (.ok data)
  | k :: r, data => .call (.read k) fun o =>
    match o with
    | .ok (.val v) => loadSomeBlock r (pset data k v)
    | _ => loadSomeBlock r data

/-- The block of `loadmat` (`__init__.py:2699-2708`). -/
def loadBlock : Option (List PathArg) → Block (List (PathArg × Val))
  | none => .call .iter fun o =>
    match o with
    | .ok (.names ks) => loadAllBlock ks []
    | .ok _ => .done (.error .other)
    | .error e => .done (.error e)
  | some ns => loadSomeBlock ns []

end HS
