import Verif.Model.Heap
import Verif.Model.Val
/-
`NumpyScalarArrayMarshaller.write` and `write_metadata` for arrays that are neither of dtype object nor structured
(`/repo/src/hdf5storage/Marshallers.py:700-1148`).

Simplifications: input arrays are C contiguous (a view with another item size raises otherwise); byte orders other than the native one are not
distinguished (both: see `Memory.lean` and C70).
-/
namespace HS

/-- The class MATLAB gets told (`Marshallers.py:654-671`); `none` if MATLAB has no such type. -/
def DT.matlabClass : DT → Option Str
  | .bool => some p!"logical"
  | .u8 => some p!"uint8" | .u16 => some p!"uint16" | .u32 => some p!"uint32" | .u64 => some p!"uint64"
  | .i8 => some p!"int8" | .i16 => some p!"int16" | .i32 => some p!"int32" | .i64 => some p!"int64"
  | .f32 | .c64 => some p!"single"
  | .f64 | .c128 => some p!"double"
  | .bytes _ | .str _ => some p!"char"
  | .object | .ref => some p!"cell"
  | .f16 | .crec _ _ _ | .comp _ _ _ _ => none

/-- `dtype.type in (np.bytes_, np.str_)`. -/
def DT.isString : DT → Bool
  | .bytes _ | .str _ => true
  | _ => false

/-- The emptiness test (`Marshallers.py:813-816`, `1103-1105`). -/
def Arr.isEmpty (a : Arr) : Bool := a.size == 0 || (a.dt.isString && a.nbytes == 0)

/-- Conversion of bytes to UTF-16 (`Marshallers.py:745-756`): the raw bytes viewed as uint8 and widened, if all are ASCII. -/
def bytesStep (o : COpts) (a : Arr) : Arr :=
  match a.dt with
  | .bytes n =>
    if o.bytes16 then
      if a.nbytes = 0 then npZeros .u16 [0]
      else
        let u := a.data.flatMap El.toUnits
        if u.all (· < 128) then ⟨.u16, mulLast n (atleast1dShape a.shape), u.map fun (x : Nat) => El.num x⟩ else a
    else a
  | _ => a

/-- Conversion of str to UTF-16 or UTF-32 units (`Marshallers.py:769-788`).  `sc` says that the data is a `np.str_` scalar.  For a
zero-dimensional array `data_to_store.shape[-1]` raises `IndexError` (F15). -/
def strStep (o : COpts) (sc : Bool) (a : Arr) : Res Arr :=
  match a.dt with
  | .str n =>
    match (if o.str16 then (convertNumpyStrToUint16 a).toOption else none) with
    | none => .ok (convertNumpyStrToUint32 a)
    | some b =>
      if sc then .ok (if n ≠ b.shape.headD 0 then convertNumpyStrToUint32 a else b)
      else if a.shape.isEmpty then .error .indexError
      else .ok (if b.shape.getLastD 0 ≠ a.shape.getLastD 0 * n then convertNumpyStrToUint32 a else b)
  | _ => .ok a

/-- `make_atleast_2d` (`Marshallers.py:794-798`).  The transposed array made for `oned_as == 'column'` is bound to another variable and never
used (F2), so the option has no effect. -/
def atleast2dStep (o : COpts) (a : Arr) : Arr := if o.atleast2d then a.atleast2d else a

/-- `reverse_dimension_order` (`Marshallers.py:802-803`). -/
def reverseStep (o : COpts) (a : Arr) : Arr := if o.reverse then a.T else a

/-- `convert_bools_to_uint8` (`Marshallers.py:806-807`). -/
def boolStep (o : COpts) (a : Arr) : Arr := if o.boolsU8 ∧ a.dt = .bool then { a with dt := .u8 } else a

/-- `np.uint64(shape)` as an array. -/
def shapeArr (s : List Nat) : Arr := ⟨.u64, [s.length], s.map fun (x : Nat) => El.num x⟩

/-- `encode_complex` if complex (`Marshallers.py:824-825`). -/
def complexStep (o : COpts) (a : Arr) : Res Arr :=
  match a.dt with
  | .c64 | .c128 => encodeComplex a o.complexNames
  | _ => .ok a

/-- The data that is stored for `data` (`Marshallers.py:732-825`).  `data_to_store.shape[::-1]` undoes the reversal of the shape only. -/
def prepare (o : COpts) (c : Cont) (a : Arr) : Res Arr := do
  let d ← strStep o (c == .scalar) (bytesStep o a)
  let d := atleast2dStep o d
  let r := boolStep o (reverseStep o d)
  let r := if o.storeShape && a.isEmpty then shapeArr (if o.reverse then r.shape.reverse else r.shape) else r
  complexStep o r

/-- The storage options (`Marshallers.py:950-976`). -/
def filtersFor (o : COpts) (a : Arr) : Filters :=
  if a.shape ≠ [] ∧ o.compress = true ∧ o.threshold ≤ a.nbytes then
    ⟨some o.algorithm, if o.algorithm = p!"gzip" then some (some o.gzipLevel) else none, o.shuffle, o.fletcherC, true⟩
  else
    let fl := if a.shape ≠ [] then o.fletcherU else false
    ⟨none, some none, false, fl, fl⟩

/-- What a Dataset created from the array holds: the compound with fields ('r', 'i') is h5py's own complex type, the width of bytes is at
least 1; of a compound with such fields h5py shows another dtype than that of the data. -/
def h5Store (a : Arr) : Arr :=
  match a.dt with
  | .crec _ _ _ => h5Read a
  | .bytes 0 => { a with dt := .bytes 1, data := a.data.map fun _ => .units [0] }
  | .comp _ sz n t => { a with dt := .comp (complexPair n t || FT.hasPairL t) sz n t }
  | _ => a

/-- The filters a created Dataset reports: `compression_opts` is `None` unless given. -/
def Filters.stored (f : Filters) : Filters := { f with opts := some (f.opts.getD none) }

/-- `grp.create_dataset(name, data=a, **filters)`. -/
def createDset (g : Nat) (name : Str) (a : Arr) (f : Filters) : M Nat := createObj g name ⟨[], .dset (h5Store a) f.stored⟩

/-- Writing the data (`Marshallers.py:984-1000`): a Dataset with the same dtype, shape and filters is overwritten in place, anything else is replaced.
If `compression_opts` is missing from the keywords and everything else agrees the lookup of it raises `KeyError`, the bare `except` then
tries to create a Dataset under a name in use (F27). -/
def putDataset (g : Nat) (name : Str) (a : Arr) (f : Filters) : M Nat := do
  let s ← getSt
  match (if nameOk name then hlook s.heap g name else none) with
  | none => createDset g name a f
  | some q =>
    match s.heap[q]? with
    | some ⟨_, .dset b fb⟩ =>
      if b.dt ≠ a.dt ∨ b.shape ≠ a.shape ∨ fb.compression ≠ f.compression ∨ fb.shuffle ≠ f.shuffle ∨ fb.fletcher32 ≠ f.fletcher32 then do
        unlink g name
        createDset g name a f
      else match f.opts with
        | none => createDset g name a f
        | some op =>
          if fb.opts ≠ some op then do
            unlink g name
            createDset g name a f
          else do
            modSt fun s => { s with heap := s.heap.update q fun ob => { ob with body := .dset (h5Store a) fb } }
            pure q
    | _ =>
      if name = [dot] then createDset g name a f
      else do
        unlink g name
        createDset g name a f

/-- Attributes of numpy data (`Marshallers.py:1034-1148`, `449-458`): `dt`, `shape` and `empty` are those of the original data, `stored` the dtype of
the Dataset, `ts` the type string. -/
def npAttrs (o : COpts) (c : Cont) (dt : DT) (shape : List Nat) (empty : Bool) (stored : DT) (ts : Str) : List (Str × AIn) :=
  (if o.pyMeta then
    [(p!"Python.Shape", .value (.u64s shape)), (p!"Python.numpy.UnderlyingType", .string dt.name),
     (p!"Python.numpy.Container", .string c.name)] else []) ++
  (if empty && o.pyMeta then [(p!"Python.Empty", .value (.int .u8 1))] else []) ++
  (if empty && o.matlab then [(p!"MATLAB_empty", .value (.int .u8 1))] else []) ++
  (if o.matlab then
    match dt.matlabClass with
    | some cl => (p!"MATLAB_class", .string cl) ::
      (if dt.isString || dt == .bool then
        [(p!"MATLAB_int_decode", match stored with | .bytes _ => .pyInt 1 | _ => .value (.int .i64 stored.itemsize))] else [])
    | none => [] else []) ++
  (if o.pyMeta then [(p!"Python.Type", .string ts)] else [])

/-- `NumpyScalarArrayMarshaller.write(f, grp, name, data, type_string)` (`Marshallers.py:700-1011`); `none` is the returned `None`. -/
def writeNp (x : Ctx) (g : Nat) (name : Str) (c : Cont) (a : Arr) (ts : Str) : M (Option Nat) := do
  if x.o.matlab ∧ a.dt.matlabClass = none ∧ x.o.action = .error then raise .typeNotMatlabCompatible
  else if x.o.matlab ∧ a.dt.matlabClass = none ∧ x.o.action = .discard then pure none
  else do
    let d ← liftRes (prepare x.o c a)
    let p ← putDataset g name d (filtersFor x.o d)
    setAttrsM p (npAttrs x.o c a.dt a.shape a.isEmpty (h5Store d).dt ts) true
    pure (some p)

end HS
