import Verif.Model.File
import Verif.Model.Builtin
/-
Marshallers of users and plugins for their own types (`/repo/src/hdf5storage/Marshallers.py:66-566`, `__init__.py:1081-1516`, `utilities.py:212-375`,
`/repo/examples/example_hdf5storage_marshaller_plugin`).

Such a marshaller inherits from one of the marshallers of the package: its `write` makes a value of the package's types of the object and calls the `write` of the parent
with it and its own type string, and its `read` calls the `read` of the parent and makes an object of what that returns.

Simplifications: the parent is `NumpyScalarArrayMarshaller`, `PythonListMarshaller` or `PythonDictMarshaller`; the parts of the value handed to the parent have builtin types,
and so do those of the value the parent returns; the marshaller declares no MATLAB classes; the classes of the objects are not those of builtin values; the object is written by
itself to a path, not as a part of something else.
-/
namespace HS

/-- The marshaller a user's marshaller inherits from; of dicts, whether what is handed over is exactly a `dict` or an `OrderedDict` (`Marshallers.py:1942-1944`). -/
inductive Parent
  | numpy | list | dict (plain : Bool)
  deriving DecidableEq, Repr

/-- `write` of the parent (`Marshallers.py:700-1011`, `1780-1876`, `2328-2351`) with a type string. -/
def parentWrite (x : Ctx) (wr : Wr) (P : Parent) (ts : Str) (g : Nat) (gname name : Str) (v : Val) : M (Option Nat) :=
  match P, v with
  | .numpy, .np c a => writeNp x g name c a ts
  | .numpy, .npObj c sh e => writeNpObj x wr g name c sh e ts
  | .numpy, .npStruct c sh names types e => writeStruct x wr g gname name c sh names types e ts
  | .list, .seq _ e => writeNpObj x wr g name .ndarray [e.length] e ts
  | .dict plain, .dict _ k w => writeDict x wr g gname name k w plain ts
  | _, _ => raise .other

/-- `read` of the parent (`Marshallers.py:1150-1512`, `1957-2069`, `2353-2365`). -/
def parentRead (P : Parent) (mu : Nat → Bool) (rd : Rd) (o : COpts) (excl : Option Nat) (ob : Obj) : Res Val :=
  match P with
  | .numpy => readNp mu rd o excl ob
  | .list => do toSeq .list (← readNp mu rd o excl ob)
  | .dict _ => do
    let it ← readDictItems rd o excl ob
    .ok (.dict .dict (it.map (·.1)) (it.map (·.2)))

/-- A user's marshaller for objects of type `α` (as in `examples/example_hdf5storage_marshaller_plugin/src/example_hdf5storage_marshaller_plugin/__init__.py:48-69`): its
tables, its parent, what `write` hands over, what `read` makes of what the parent's `read` returned, and what `read_approximate` makes of it (`none` if it is not overridden:
it raises `NotImplementedError`, `Marshallers.py:513-564`). -/
structure Plugin (α : Type) where
  tables : Marshaller
  parent : Parent
  down : α → Val
  up : Str → Val → Res α
  approximate : Option (Val → Res Val)

/-- What the marshallers of a collection that are not builtin are (the one with the highest priority first), which of them have their modules, the class of an object, and whether
they have priority over the builtin ones (`__init__.py:1166-1280`; see `C13`, `C49` and `C53` for how a collection finds a marshaller). -/
structure Setup (α : Type) where
  plugins : List (Plugin α)
  ready : Plugin α → Bool
  cls : α → TypeRef
  first : Bool

/-- The marshaller for an object (`utilities.py:260-265`). -/
def Setup.writer {α : Type} (S : Setup α) (a : α) : Option (Plugin α) :=
  S.plugins.find? fun p => p.tables.types.any fun t => t.key == (S.cls a).key

/-- The marshaller for a type string (`utilities.py:354-355`), if it is not a builtin one. -/
def Setup.reader {α : Type} (S : Setup α) (ts : Str) : Option (Plugin α) :=
  if S.first = false ∧ (builtins.any fun b => b.typeStrings.contains ts) = true then none
  else S.plugins.find? fun p => p.tables.typeStrings.contains ts

/-- `write_data(grp, name, data, None)` for such an object (`utilities.py:212-276`). -/
def userWriteData {α : Type} (S : Setup α) (x : Ctx) (n : Nat) (g : Nat) (gname name : Str) (a : α) : M (Option Nat) :=
  match n with
  | 0 => raise .other
  | n + 1 =>
    match S.writer a with
    | none => raise .notImplemented
    | some p =>
      if S.ready p then do
        let ts ← liftRes (getTypeString p.tables (S.cls a) none)
        parentWrite x (writeData x n) p.parent ts g gname name (p.down a)
      else raise .notImplemented

/-- What is read: an object or a builtin value. -/
inductive UVal (α : Type)
  | user (a : α)
  | builtin (v : Val)

/-- `read_data(None, None, dsetgrp)` (`utilities.py:278-375`) when there are such marshallers. -/
def userReadData {α : Type} (S : Setup α) (o : COpts) (V : View) (excl : Option Nat) (n p : Nat) : Res (UVal α) :=
  match n with
  | 0 => .error .other
  | n + 1 =>
    match V p with
    | none => .error .keyError
    | some ob => do
      let tsO ← attrToString (aget ob.attrs p!"Python.Type")
      match tsO.bind S.reader, tsO with
      | some pl, some ts => do
        let _ ← attrToString (aget ob.attrs p!"MATLAB_class")
        if S.ready pl then do
          let v ← parentRead pl.parent (looksMulti V) (readData o V excl n) o excl ob
          .ok (.user (← pl.up ts v))
        else match pl.approximate with
          | none => .error .notImplemented
          | some f => do
            let v ← parentRead pl.parent (looksMulti V) (readData o V excl n) o excl ob
            .ok (.builtin (← f v))
      | _, _ => do .ok (.builtin (← readData o V excl (n + 1) p))

/-- One turn of the loop of `writes` (`__init__.py:1921-1927`). -/
def userWriteOne {α : Type} (S : Setup α) (x : Ctx) (n : Nat) (gt : Str × Str) (a : α) : M (Option Nat) := do
  let g ← requireGroup (commonComps gt.1)
  userWriteData S x n g (absName (commonComps gt.1)) gt.2 a

/-- `File.write(data, path)` for such an object (`__init__.py:1808-1927`). -/
def userWrite {α : Type} (S : Setup α) (x : Ctx) (n : Nat) (p : PathArg) (a : α) (F : FileS) : Res Unit × FileS :=
  if !F.writable then (.error .osError, F)
  else match checkPath x.o.refsPath p with
    | .error e => (.error e, F)
    | .ok gt => if !F.isOpen then (.error .osError, F) else runFile F (do let _ ← userWriteOne S x n gt a; pure ())

/-- One turn of the loop of `reads` (`__init__.py:2027-2035`, `utilities.py:322-330`). -/
def userReadOne {α : Type} (S : Setup α) (x : Ctx) (n : Nat) (h : Heap) (gt : Str × Str) : Res (UVal α) :=
  if (commonComps gt.1).all nameOk then
    match resolve h 0 (commonComps gt.1) with
    | none => .error .keyError
    | some g =>
      if isGroup h g then
        if nameOk gt.2 then
          match hlook h g gt.2 with
          | none => .error .keyError
          | some q => userReadData S x.o (viewOf h) (exclOf x.o h) n q
        else .error .unicodeError
      else .error .keyError
  else .error .unicodeError

/-- `File.read(path)` when there are such marshallers (`__init__.py:1929-2037`). -/
def userRead {α : Type} (S : Setup α) (x : Ctx) (n : Nat) (p : PathArg) (F : FileS) : Res (UVal α) :=
  match checkPath x.o.refsPath p with
  | .error e => .error e
  | .ok gt => if !F.isOpen then .error .osError else userReadOne S x n F.st.heap gt

/-- Using a `File` with such marshallers: the methods with builtin values, and writing objects (`__init__.py:1781-2237`). -/
inductive UserOp (α : Type)
  | builtin (op : Op)
  | write (p : PathArg) (a : α)

/-- Call one of them. -/
def userOp {α : Type} (S : Setup α) (x : Ctx) (n : Nat) (op : UserOp α) (F : FileS) : FileS :=
  match op with
  | .builtin op => (fileOp x n op F).2
  | .write p a => (userWrite S x n p a F).2

/-- Call several of them one after the other, going on after exceptions. -/
def userOps {α : Type} (S : Setup α) (x : Ctx) (n : Nat) : List (UserOp α) → FileS → FileS
  | [], F => F
  | op :: r, F => userOps S x n r (userOp S x n op F)

end HS
