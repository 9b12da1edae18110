import Verif.Model.Attrs
import Verif.Model.Complex
import Verif.Model.CoreOpts
import Verif.Model.Collection
/-
The HDF5 file as a heap of objects, and the part of `LowLevelFile` that manages the references Group
(`/repo/src/hdf5storage/utilities.py:133-201, 377-501, 546-644`).

Simplifications: an object is never freed (unlinking only removes the name); a link name is one path component taken as it is, except that `.` is the
Group itself, an empty name does not exist and cannot be created, and names with surrogates raise `UnicodeEncodeError`; HDF5 limits on sizes and numbers
are not modelled.
-/
namespace HS

/-- Filters of a Dataset: `compression`, `compression_opts`, `shuffle`, `fletcher32` and whether it is chunked.  As keyword dict the key
`compression_opts` may be missing (`none`, `Marshallers.py:957-959`). -/
structure Filters where
  compression : Option Str
  opts : Option (Option Nat)
  shuffle : Bool
  fletcher32 : Bool
  chunks : Bool
  deriving DecidableEq, Repr

/-- A Dataset's data and filters, or a Group's links. -/
inductive Body
  | dset (a : Arr) (f : Filters)
  | group (links : List (Str × Nat))
  deriving DecidableEq, Repr

/-- An HDF5 object. -/
structure Obj where
  attrs : List (Str × AVal)
  body : Body
  deriving DecidableEq, Repr

/-- All objects; an object is identified by its position.  Position 0 is the root Group. -/
abbrev Heap := List Obj

/-- State of the file and of the `LowLevelFile` (`utilities.py:187-200`): `refs` is `_refs_group`, `created` is `_created_refs_group`, `canon` is
`_canonical_empty`, `counter` is `_refs_group_counter`, `rpos` is the number of random numbers drawn so far. -/
structure St where
  heap : Heap
  refs : Option Nat
  created : Bool
  canon : Option Nat
  counter : Nat
  rpos : Nat
  deriving DecidableEq, Repr

/-- State of a newly made `LowLevelFile` on a file (`utilities.py:187-200`). -/
def St.init (h : Heap) : St := ⟨h, none, false, none, 0xB, 0⟩

/-- What does not change during an operation: the options, the stream `random.getrandbits` draws from, and how many random names are tried before
the search for an unused one is regarded as hanging. -/
structure Ctx where
  o : COpts
  rng : Nat → Nat
  hang : Nat

/-- Computations that change the file and may raise; changes made before an exception stay. -/
def M (α : Type) := St → Res α × St

/-- Run two computations after each other. -/
def M.bind {α β : Type} (m : M α) (f : α → M β) : M β := fun s =>
  match m s with
  | (.ok a, s') => f a s'
  | (.error e, s') => (.error e, s')

instance : Monad M where
  pure a := fun s => (.ok a, s)
  bind := M.bind

/-- Raise an exception. -/
def raise {α : Type} (e : Exc) : M α := fun s => (.error e, s)
/-- The current state. -/
def getSt : M St := fun s => (.ok s, s)
/-- Change the state. -/
def modSt (f : St → St) : M Unit := fun s => (.ok (), f s)
/-- A computation that does not touch the file. -/
def liftRes {α : Type} (r : Res α) : M α := fun s => (r, s)

/-- Links of a Group; a Dataset has none. -/
def linksOf (h : Heap) (g : Nat) : List (Str × Nat) :=
  match h[g]? with
  | some ⟨_, .group l⟩ => l
  | _ => []

/-- `isinstance(obj, h5py.Group)`. -/
def isGroup (h : Heap) (g : Nat) : Bool :=
  match h[g]? with
  | some ⟨_, .group _⟩ => true
  | _ => false

/-- `grp.get(name)`. -/
def hlook (h : Heap) (g : Nat) (name : Str) : Option Nat :=
  if name = [dot] then some g else aget (linksOf h g) name

/-- h5py encodes names as UTF-8. -/
def nameOk (name : Str) : Bool := name.all isScalar

/-- `grp.get(name)` including the encoding of the name. -/
def getLink (g : Nat) (name : Str) : M (Option Nat) := fun s =>
  if nameOk name then (.ok (hlook s.heap g name), s) else (.error .unicodeError, s)

/-- Change one object. -/
def Heap.update (h : Heap) (p : Nat) (f : Obj → Obj) : Heap :=
  match h[p]? with
  | some o => h.set p (f o)
  | none => h

/-- Change the links of a Group. -/
def Obj.mapLinks (f : List (Str × Nat) → List (Str × Nat)) (o : Obj) : Obj :=
  match o.body with
  | .group l => { o with body := .group (f l) }
  | _ => o

/-- Create a new object linked in a Group under an unused name (`create_group`, `create_dataset`); `ValueError` if the name is in use or not
possible. -/
def createObj (g : Nat) (name : Str) (o : Obj) : M Nat := fun s =>
  if !nameOk name then (.error .unicodeError, s)
  else if name = [] ∨ !isGroup s.heap g ∨ (hlook s.heap g name).isSome then (.error .valueError, s)
  else (.ok s.heap.length, { s with heap := (s.heap.update g (Obj.mapLinks fun l => l ++ [(name, s.heap.length)])) ++ [o] })

/-- `grp.create_group(name)`. -/
def createGroup (g : Nat) (name : Str) : M Nat := createObj g name ⟨[], .group []⟩

/-- `del grp[name]`; `KeyError` if there is no such link. -/
def unlink (g : Nat) (name : Str) : M Unit := fun s =>
  if !nameOk name then (.error .unicodeError, s)
  else if name = [dot] ∨ (hlook s.heap g name).isNone then (.error .keyError, s)
  else (.ok (), { s with heap := s.heap.update g (Obj.mapLinks fun l => adel l name) })

/-- `set_attributes_all(obj, attributes, discard_others)` on an object of the file. -/
def setAttrsM (p : Nat) (new : List (Str × AIn)) (discard : Bool) : M Unit := fun s =>
  match s.heap[p]? with
  | some o =>
    let r := setAttributesAll o.attrs new discard
    (r.1, { s with heap := s.heap.set p { o with attrs := r.2 } })
  | none => (.error .valueError, s)

/-- `obj.attrs.modify(name, value)` for an attribute that does not exist or has the same type and shape (the attribute H5PATH has always been
discarded just before, `Marshallers.py:458`). -/
def modifyAttr (p : Nat) (k : Str) (v : AVal) : M Unit :=
  modSt fun s => { s with heap := s.heap.update p fun o => { o with attrs := aput o.attrs k v } }

/-- `with suppress(KeyError): del obj.attrs[name]`. -/
def deleteAttr (p : Nat) (k : Str) : M Unit :=
  modSt fun s => { s with heap := s.heap.update p fun o => { o with attrs := adel o.attrs k } }

/-- `convert_attribute_to_string(value)` (`utilities.py:1324-1354`). -/
def attrToString : Option AVal → Res (Option Str)
  | some (.pyStr s) => .ok (some s)
  | some (.bytes b) => do .ok (some (← utf8Dec b))
  | _ => .ok none

/-- `attribute == 1` as the code uses it (arrays of more than one element, where numpy refuses the truth value, count as different). -/
def attrIsOne : Option AVal → Bool
  | some (.int _ v) => v == 1
  | some (.u64s [v]) => v == 1
  | _ => false

/-- The names along `group_for_references`. -/
def refsComps (o : COpts) : List Str := (splitSlash o.refsPath).filter fun c => c ≠ [] ∧ c ≠ [dot]

/-- Object at a path below a Group, if any. -/
def resolve (h : Heap) (g : Nat) : List Str → Option Nat
  | [] => some g
  | c :: r =>
    match hlook h g c with
    | some g' => resolve h g' r
    | none => none

/-- `create_group(path)`, which creates intermediate Groups; fails if something on the way is not a Group. -/
def createPath (g : Nat) : List Str → M Nat
  | [] => raise .valueError
  | [c] => createGroup g c
  | c :: r => do
    match ← getLink g c with
    | some g' => createPath g' r
    | none => createPath (← createGroup g c) r

/-- `del f[path]`. -/
def unlinkPath (g : Nat) : List Str → M Unit
  | [] => raise .keyError
  | [c] => unlink g c
  | c :: r => do
    match ← getLink g c with
    | some g' => unlinkPath g' r
    | none => raise .keyError

/-- The part of `write_object_array` and `next_unused_ref_group_name` that finds or makes the references Group (`utilities.py:417-436`,
`576-595`). -/
def ensureRefs (x : Ctx) : M Nat := do
  let s ← getSt
  match s.refs with
  | some r => pure r
  | none =>
    match resolve s.heap 0 (refsComps x.o) with
    | some r =>
      if isGroup s.heap r then do
        modSt fun s => { s with refs := some r, created := false }
        pure r
      else do
        unlinkPath 0 (refsComps x.o)
        let r ← createPath 0 (refsComps x.o)
        modSt fun s => { s with refs := some r, created := true }
        pure r
    | none =>
      let r ← createPath 0 (refsComps x.o)
      modSt fun s => { s with refs := some r, created := true }
      pure r

/-- The attributes and data of the canonical empty (`utilities.py:461-467`). -/
def canonObj : Obj :=
  ⟨[(p!"MATLAB_class", .bytes p!"canonical empty"), (p!"MATLAB_empty", .int .u8 1)],
   .dset ⟨.u64, [2], [.num 0, .num 0]⟩ ⟨none, some none, false, false, false⟩⟩

/-- Is the object a well formed canonical empty (`utilities.py:445-457`)?  Only unsigned types have a name starting with 'uint'. -/
def isCanon (o : Obj) : Res Bool :=
  match o.body with
  | .group _ => .ok false
  | .dset a _ =>
    if a.shape ≠ [2] ∨ ¬ (a.dt = .u8 ∨ a.dt = .u16 ∨ a.dt = .u32 ∨ a.dt = .u64) ∨ a.data ≠ [.num 0, .num 0] then .ok false
    else do
      let c ← attrToString (aget o.attrs p!"MATLAB_class")
      .ok (c = some p!"canonical empty" && attrIsOne (aget o.attrs p!"MATLAB_empty"))

/-- The part that finds or makes the canonical empty 'a' (`utilities.py:443-467`, `602-631`). -/
def ensureCanon (r : Nat) : M Nat := do
  let s ← getSt
  match s.canon with
  | some c => pure c
  | none =>
    let make : M Nat := do
      let c ← createObj r p!"a" canonObj
      modSt fun s => { s with canon := some c }
      pure c
    match hlook s.heap r p!"a" with
    | none => make
    | some c =>
      match s.heap[c]? with
      | none => make
      | some ob => do
        if ← liftRes (isCanon ob) then do
          modSt fun s => { s with canon := some c }
          pure c
        else do
          unlink r p!"a"
          make

/-- Worker of `hexStr`; the first argument only bounds the recursion. -/
def hexGo : Nat → Nat → Str
  | 0, n => [hexDigit (n % 16)]
  | f + 1, n => if n < 16 then [hexDigit n] else hexGo f (n / 16) ++ [hexDigit (n % 16)]

/-- `f"{n:x}"`. -/
def hexStr (n : Nat) : Str := hexGo n n

/-- `'%016x' % random.getrandbits(64)` for the `i`-th number drawn (`utilities.py:633-644`). -/
def randName (x : Ctx) (i : Nat) : Str := hexFixed 16 (x.rng i % 2 ^ 64)

/-- The loop drawing random names until one is not in use (`utilities.py:633-644`). -/
def drawName (x : Ctx) (r : Nat) : Nat → M Str
  | 0 => raise .other
  | n + 1 => do
    let s ← getSt
    let nm := randName x s.rpos
    modSt fun s => { s with rpos := s.rpos + 1 }
    if (hlook s.heap r nm).isSome then drawName x r n else pure nm

/-- `next_unused_ref_group_name()` (`utilities.py:546-644`). -/
def nextName (x : Ctx) : M Str := do
  let s ← getSt
  if s.created then do
    modSt fun s => { s with counter := s.counter + 1 }
    pure (hexStr s.counter)
  else do
    let r ← ensureRefs x
    let _ ← ensureCanon r
    drawName x r x.hang

end HS
