import Verif.Model.NpWrite
import Verif.Model.PathEsc
/-
The recursive writers: object arrays, list-likes and dict-likes (`/repo/src/hdf5storage/utilities.py:212-276, 377-501`,
`Marshallers.py:1515-2465`).
-/
namespace HS

/-- A recursive writer: Group, its name, the name to write to and the value; returns the object written, if any. -/
abbrev Wr := Nat → Str → Str → Val → M (Option Nat)

/-- `_refs_group.name` (`utilities.py:435-436`): the references Group's path in normal form. -/
def refsName (o : COpts) : Str := (refsComps o).flatMap fun c => slash :: c

/-- Setting or deleting the H5PATH attribute after writing a child (`utilities.py:490-497`, `Marshallers.py:1868-1874`); `pathBytes` is
`np.bytes_(group name)`. -/
def setH5Path (x : Ctx) (p : Nat) (pathBytes : Res Bytes) : M Unit := do
  if x.o.matlab then do
    let b ← liftRes pathBytes
    modifyAttr p p!"H5PATH" (.bytes b)
  else deleteAttr p p!"H5PATH"

/-- The loop of `write_object_array` (`utilities.py:486-497`). -/
def writeElems (x : Ctx) (wr : Wr) (r canon : Nat) : List Val → M (List Nat)
  | [] => pure []
  | v :: vs => do
    let nm ← nextName x
    let ob ← wr r (refsName x.o) nm v
    match ob with
    | none => do
      let rest ← writeElems x wr r canon vs
      pure (canon :: rest)
    | some p => do
      setH5Path x p (asciiEnc (refsName x.o))
      let rest ← writeElems x wr r canon vs
      pure (p :: rest)

/-- `write_object_array(data)` (`utilities.py:377-501`) on the elements in C order; the objects referred to, in the same order. -/
def writeObjectArray (x : Ctx) (wr : Wr) (elems : List Val) : M (List Nat) := do
  let r ← ensureRefs x
  let c ← ensureCanon r
  writeElems x wr r c elems

/-- `NumpyScalarArrayMarshaller.write` on an array of dtype object (`Marshallers.py:700-1011`). -/
def writeNpObj (x : Ctx) (wr : Wr) (g : Nat) (name : Str) (c : Cont) (shape : List Nat) (elems : List Val) (ts : Str) : M (Option Nat) := do
  let sh := if x.o.atleast2d then atleast2dShape shape else shape
  let sh' := if x.o.reverse then sh.reverse else sh
  let el := if x.o.reverse then transposeData sh elems else elems
  let d ← (if x.o.storeShape && prodN shape == 0 then pure (shapeArr (if x.o.reverse then sh'.reverse else sh'))
    else (do
      let refs ← writeObjectArray x wr el
      pure ⟨.ref, sh', refs.map El.ref⟩) : M Arr)
  let p ← putDataset g name d (filtersFor x.o d)
  setAttrsM p (npAttrs x.o c .object shape (prodN shape == 0) d.dt ts) true
  pure (some p)

/-- `type(field) in tps` and `escape_path(convert_to_str(field))` (`Marshallers.py:1792-1813`): the name a key is stored under and its type
character, `none` if it has to be stored as keys and values. -/
def keyInfo : Val → Option (Str × Nat)
  | .str s => ((escapePath s).toOption).map fun e => (e, 116)
  | .bytes b => ((do escapePath (← utf8Dec b)).toOption).map fun e => (e, 98)
  | .np .scalar a =>
    match a.dt with
    | .str _ => ((do escapePath (← convertToStr (.np true a))).toOption).map fun e => (e, 85)
    | .bytes _ => ((do escapePath (← convertToStr (.np true a))).toOption).map fun e => (e, 83)
    | _ => none
  | _ => none

/-- The loop over the keys (`Marshallers.py:1800-1813`). -/
def keyInfos : List Val → Option (List (Str × Nat))
  | [] => some []
  | k :: r =>
    match keyInfo k, keyInfos r with
    | some i, some l => some (i :: l)
    | _, _ => none

/-- `grp2.name`. -/
def joinName (gname name : Str) : Str :=
  if name = [dot] then gname else if gname = [slash] then slash :: name else gname ++ slash :: name

/-- Getting or making the Group (`Marshallers.py:1819-1824`). -/
def getGroup (g : Nat) (name : Str) : M Nat := do
  match ← getLink g name with
  | none => createGroup g name
  | some q => do
    let s ← getSt
    if isGroup s.heap q then pure q
    else do
      unlink g name
      createGroup g name

/-- Attributes of a dict-like (`Marshallers.py:1878-1955`, `449-458`); `struct` says that `type(data)` is `dict` or `OrderedDict`. -/
def dictAttrs (o : COpts) (info : Option (List (Str × Nat))) (struct : Bool) (ts : Str) : List (Str × AIn) :=
  (if o.pyMeta then
    match info with
    | none => [(p!"Python.dict.StoredAs", .string p!"keys_values"),
        (p!"Python.dict.keys_values_names", .stringArray [o.keysName, o.valuesName])]
    | some l => [(p!"Python.dict.StoredAs", .string p!"individually"), (p!"Python.Fields", .stringArray (l.map (·.1))),
        (p!"Python.dict.key_str_types", .string (l.map (·.2)))] else []) ++
  (match info with
    | some l => if o.matlab && l.all (fun i => i.1.all (· < 128)) then [(p!"MATLAB_fields", .value (.fields (l.map (·.1))))] else []
    | none => []) ++
  (if o.matlab && struct then [(p!"MATLAB_class", .string p!"struct")] else []) ++
  (if o.pyMeta then [(p!"Python.Type", .string ts)] else [])

/-- Deleting everything in the Group that is not in `names` (`Marshallers.py:1856-1858`). -/
def deleteOthers (g : Nat) (names : List Str) : M Unit :=
  modSt fun s => { s with heap := s.heap.update g (Obj.mapLinks fun l => l.filter fun p => names.contains p.1) }

/-- The loop writing the children (`Marshallers.py:1866-1874`). -/
def writeItems (x : Ctx) (wr : Wr) (g : Nat) (gname : Str) : List (Str × Val) → M Unit
  | [] => pure ()
  | (k, v) :: r => do
    match ← wr g gname k v with
    | none => writeItems x wr g gname r
    | some p => do
      setH5Path x p (asciiEnc gname)
      writeItems x wr g gname r

/-- `PythonDictMarshaller.write` (`Marshallers.py:1780-1876`) for a dict with the given keys and values. -/
def writeDict (x : Ctx) (wr : Wr) (g : Nat) (gname name : Str) (keys vals : List Val) (struct : Bool) (ts : Str) : M (Option Nat) := do
  let info := keyInfos keys
  let g2 ← getGroup g name
  setAttrsM g2 (dictAttrs x.o info struct ts) true
  let items : List (Str × Val) := match info with
    | none => [(x.o.keysName, .seq .tuple keys), (x.o.valuesName, .seq .tuple vals)]
    | some l => (l.map (·.1)).zip vals
  let _ ← (if info.isNone || x.o.deleteUnused then deleteOthers g2 (items.map (·.1)) else pure () : M Unit)
  let gn := joinName gname name
  let _ ← (if x.o.matlab then liftRes (asciiEnc gn) else pure [] : M Bytes)
  let _ ← writeItems x wr g2 gn items
  pure (some g2)

/-- `dtype.name` of a structured dtype. -/
def structName (c : Cont) (types : List FT) : Str :=
  (if c = .recarray then p!"record" else p!"void") ++ (if FT.sizeL types = 0 then [] else decDigits (8 * FT.sizeL types))

/-- Whether a structured array is written as a Group (`Marshallers.py:863-872`). -/
def structAsGroup (o : COpts) (names : List Str) (types : List FT) : Bool :=
  o.structAsStruct || FT.hasObjectL types || (names.any nameHasNull || FT.hasNullL types) ||
    doesDtypeHaveAZeroShape (.struct (FT.npdtL names types))

/-- Attributes of a structured array written as a Group or as the shape of an empty one (`Marshallers.py:889-890`, `1034-1148`, `449-458`); `esc` are the escaped
names of its fields. -/
def structAttrs (o : COpts) (c : Cont) (types : List FT) (shape : List Nat) (group : Bool) (esc : List Str) (ts : Str) : List (Str × AIn) :=
  (if o.pyMeta then
    [(p!"Python.Shape", .value (.u64s shape)), (p!"Python.numpy.UnderlyingType", .string (structName c types)),
     (p!"Python.numpy.Container", .string c.name), (p!"Python.Fields", .stringArray esc)] else []) ++
  (if o.matlab && esc.all (fun i => i.all (· < 128)) then [(p!"MATLAB_fields", .value (.fields esc))] else []) ++
  (if prodN shape == 0 && o.pyMeta then [(p!"Python.Empty", .value (.int .u8 1))] else []) ++
  (if prodN shape == 0 && o.matlab then [(p!"MATLAB_empty", .value (.int .u8 1))] else []) ++
  (if o.matlab then
    if o.structAsStruct then [(p!"MATLAB_class", .string p!"struct")]
    else if group then [(p!"MATLAB_class", .value (.pyStr p!"struct"))] else []
    else []) ++
  (if o.pyMeta then [(p!"Python.Type", .string ts)] else [])

/-- The loop writing the fields (`Marshallers.py:910-948`); `others` says that the other attributes of what was written have to go. -/
def writeFields (x : Ctx) (wr : Wr) (g : Nat) (gname : Str) (others : Bool) : List (Str × Val) → M Unit
  | [] => pure ()
  | (k, v) :: r => do
    match ← wr g gname k v with
    | none => writeFields x wr g gname others r
    | some p => do
      setAttrsM p (if x.o.matlab then [(p!"H5PATH", .string gname)] else []) others
      writeFields x wr g gname others r

/-- What is written for a field (`Marshallers.py:912-933`): the only element itself, or all of them as an object array. -/
def fieldValue (sh : List Nat) (col : List Val) : Val := if prodN sh = 1 then col.headD .none else .npObj .ndarray sh col

/-- Writing the Group of a structured array (`Marshallers.py:881-948`, `1003-1011`): `esc` are the names of the fields, `items` the names and what to write, `at'` the
attributes. -/
def writeGroup (x : Ctx) (wr : Wr) (g : Nat) (gname name : Str) (esc : List Str) (others : Bool) (items : List (Str × Val)) (at' : List (Str × AIn)) :
    M (Option Nat) := do
  let g2 ← getGroup g name
  let _ ← (if x.o.deleteUnused then deleteOthers g2 esc else pure () : M Unit)
  let _ ← writeFields x wr g2 (joinName gname name) others items
  setAttrsM g2 at' true
  pure (some g2)

/-- `data_to_store.shape` before the reversal (`Marshallers.py:794-798`). -/
def shape2d (o : COpts) (shape : List Nat) : List Nat := if o.atleast2d then atleast2dShape shape else shape

/-- The fields and what is written for them. -/
def structItems (o : COpts) (shape : List Nat) (esc : List Str) (elems : List Val) : List (Str × Val) :=
  esc.zip ((splitCols (prodN (shape2d o shape)) esc.length elems).map (fieldValue (shape2d o shape)))

/-- The elements of a string are padded to the width of the dtype. -/
def padEl (dt : DT) (e : El) : El :=
  match dt, e with
  | .bytes n, .units u => .units (u ++ List.replicate (n - u.length) 0)
  | _, e => e

mutual
/-- The elements of a value in a field of the type, one after another. -/
def flatVal : FT → Val → List El
  | .base dt _, .np _ a => a.data.map (padEl dt)
  | .struct _ t sp, .npStruct _ _ _ _ e => flatVals (prodN sp) t e
  | _, _ => []
/-- The elements of structured data with fields of these types, `n` values of each field, field by field as the values are. -/
def flatVals (n : Nat) : List FT → List Val → List El
  | [], _ => []
  | t :: r, e => (e.take n).flatMap (flatVal t) ++ flatVals n r (e.drop n)
end

mutual
/-- What h5py raises when it makes an HDF5 type of the dtype (h5py's `py_create`): there is none for str; bytes of width 0, empty structured dtypes and references are
not modelled. -/
def FT.err : FT → Option Exc
  | .base dt _ =>
    match dt with
    | .str _ => some .typeError
    | .bytes 0 | .object | .ref | .crec _ _ _ | .comp _ _ _ _ => some .other
    | _ => none
  | .struct n t _ => if n = [] then some .other else FT.errL n t
/-- The first of the fields. -/
def FT.errL : List Str → List FT → Option Exc
  | n :: ns, t :: r => if nameOk n then match FT.err t with | some e => some e | none => FT.errL ns r else some .unicodeError
  | _, _ => none
end

/-- What making an HDF5 type of a structured dtype raises. -/
def tableErr (names : List Str) (types : List FT) : Option Exc := if names = [] then some .other else FT.errL names types

/-- The structured data as stored in a compound Dataset (`Marshallers.py:794-803`). -/
def tableArr (o : COpts) (shape : List Nat) (names : List Str) (types : List FT) (elems : List Val) : Arr :=
  let sh := shape2d o shape
  ⟨.comp false (FT.sizeL types) names types, if o.reverse then sh.reverse else sh,
   flatVals (prodN sh) types
    (if o.reverse then ((splitCols (prodN sh) types.length elems).map (transposeData sh)).flatten else elems)⟩

/-- Attributes of a compound Dataset (`Marshallers.py:1034-1148`, `449-458`): the names of the fields are only stored if there are no elements. -/
def tableAttrs (o : COpts) (c : Cont) (types : List FT) (shape : List Nat) (esc : List Str) (ts : Str) : List (Str × AIn) :=
  if prodN shape = 0 then structAttrs o c types shape false esc ts
  else if o.pyMeta then
    [(p!"Python.Shape", .value (.u64s shape)), (p!"Python.numpy.UnderlyingType", .string (structName c types)),
     (p!"Python.numpy.Container", .string c.name), (p!"Python.Type", .string ts)]
  else []

/-- Trying to write data of a dtype HDF5 has no type for (`Marshallers.py:984-1000`): what has the name is deleted, as it is not a Dataset of that dtype, before
`create_dataset` raises. -/
def dropFailed (g : Nat) (name : Str) (e : Exc) : M (Option Nat) := fun s => (.error e, (unlink g name s).2)

/-- `NumpyScalarArrayMarshaller.write` on structured data (`Marshallers.py:700-1148`).  (`escape_path` raises
nothing on text, so that it does not matter when the names are escaped.) -/
def writeStruct (x : Ctx) (wr : Wr) (g : Nat) (gname name : Str) (c : Cont) (shape : List Nat) (names : List Str) (types : List FT) (elems : List Val)
    (ts : Str) : M (Option Nat) := do
  if x.o.matlab ∧ x.o.structAsStruct = false ∧ x.o.action = .error then raise .typeNotMatlabCompatible
  else if x.o.matlab ∧ x.o.structAsStruct = false ∧ x.o.action = .discard then pure none
  else do
    let esc ← liftRes (names.mapM escapePath)
    if x.o.storeShape && prodN shape == 0 then do
      let d := shapeArr (shape2d x.o shape)
      let p ← putDataset g name d (filtersFor x.o d)
      setAttrsM p (structAttrs x.o c types shape false esc ts) true
      pure (some p)
    else if structAsGroup x.o names types then
      writeGroup x wr g gname name esc (prodN (shape2d x.o shape) != 1) (structItems x.o shape esc elems) (structAttrs x.o c types shape true esc ts)
    else match tableErr names types with
      | some e => dropFailed g name e
      | none => do
        let d := tableArr x.o shape names types elems
        let p ← putDataset g name d (filtersFor x.o d)
        setAttrsM p (tableAttrs x.o c types shape esc ts) true
        pure (some p)

/-- Type strings of the containers of structured data (`Marshallers.py:598-647`). -/
def structTypeString : Cont → Str
  | .ndarray => p!"numpy.ndarray" | .matrix => p!"numpy.matrix" | .chararray => p!"numpy.chararray" | .recarray => p!"numpy.recarray"
  | .scalar => p!"numpy.void"

/-- Decimal text of an int, as `np.bytes_(data)` makes it. -/
def intDec (v : Int) : Str := if v < 0 then 45 :: decDigits v.natAbs else decDigits v.natAbs

/-- Type strings of the scalars (`Marshallers.py:1570-1577`; of the two entries for `int` the last one wins, `290`), strings (`1650`) and
singletons (`1714-1718`). -/
def tsOf : Val → Str
  | .none => p!"builtins.NoneType" | .ellipsis => p!"builtins.ellipsis" | .notImplemented => p!"builtins.NotImplementedType"
  | .bool _ => p!"bool" | .int _ => p!"long" | .float _ => p!"float" | .complex _ _ => p!"complex"
  | .str _ => p!"str" | .bytes _ => p!"bytes" | .bytearray _ => p!"bytearray"
  | .np c a => npTypeString c a.dt
  | .npObj c _ _ => npTypeString c .object
  | .seq k _ => k.typeString
  | .dict k _ _ => k.typeString
  | .record k _ => k.typeString
  | .npStruct c _ _ _ _ => structTypeString c
  | .dtypeObj _ => p!"numpy.dtype"
  | .other => []

/-- The numpy data the values without parts are written as: scalars (`Marshallers.py:1608-1615`; ints beyond int64 as decimal text), strings
(`1669-1672`), singletons (`1741`), numpy dtypes (`1527-1549`). -/
def leafOf : Val → Option (Cont × Arr)
  | .none | .ellipsis | .notImplemented => some (.ndarray, npZeros .f64 [0])
  | .bool b => some (.scalar, ⟨.bool, [], [.num (if b then 1 else 0)]⟩)
  | .int v =>
    if -9223372036854775808 ≤ v ∧ v ≤ 9223372036854775807 then some (.scalar, ⟨.i64, [], [.num v]⟩)
    else some (.scalar, npBytes (intDec v))
  | .float b => some (.scalar, ⟨.f64, [], [.num b]⟩)
  | .complex a b => some (.scalar, ⟨.c128, [], [.cplx a b]⟩)
  | .str s => some (.scalar, npStr s)
  | .bytes b | .bytearray b => some (.scalar, npBytes b)
  | .np c a => some (c, a)
  | .dtypeObj s => match utf8Enc s with | .ok b => some (.scalar, npBytes b) | .error _ => none
  | _ => none

/-- `write_data(grp, name, data, None)` with the builtin marshallers (`utilities.py:212-276`).  The first argument is the recursion limit. -/
def writeData (x : Ctx) : Nat → Wr
  | 0 => fun _ _ _ _ => raise .other
  | n + 1 => fun g gname name v =>
    match v with
    | .npObj c shape elems => writeNpObj x (writeData x n) g name c shape elems (tsOf v)
    | .seq _ elems => writeNpObj x (writeData x n) g name .ndarray [elems.length] elems (tsOf v)
    | .dict k keys vals => writeDict x (writeData x n) g gname name keys vals (k != .counter) (tsOf v)
    | .record k vals => writeDict x (writeData x n) g gname name (k.fieldNames.map Val.str) vals true (tsOf v)
    | .npStruct c shape names types elems => writeStruct x (writeData x n) g gname name c shape names types elems (tsOf v)
    | v =>
      match leafOf v with
      | some (c, a) => writeNp x g name c a (tsOf v)
      | none => raise .notImplemented

end HS
