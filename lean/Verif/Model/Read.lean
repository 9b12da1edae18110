import Verif.Model.Write
/-
The readers: `read_data`, `read_object_array` (`/repo/src/hdf5storage/utilities.py:278-375, 503-544`) and the `read` methods of the builtin
marshallers (`Marshallers.py`).

Simplifications: only the builtin marshallers are in the collection and the module `fractions` is available; places marked `.other` are not
modelled (they raise here).
-/
namespace HS

/-- An object as the readers see it: the attribute H5PATH is never looked at. -/
def Obj.view (o : Obj) : Obj := { o with attrs := adel o.attrs p!"H5PATH" }

/-- The file as the readers see it. -/
abbrev View := Nat → Option Obj
/-- View of a heap. -/
def viewOf (h : Heap) : View := fun p => (h[p]?).map Obj.view

/-- A recursive reader. -/
abbrev Rd := Nat → Res Val

/-- `convert_attribute_to_string_array(value)` (`utilities.py:1357-1379`). -/
def attrToStrings : Option AVal → Res (Option (List Str))
  | none => .ok none
  | some (.strs l) => .ok (some l)
  | some (.fields l) => do .ok (some (← l.mapM utf8Dec))
  | some (.pyStr s) => .ok (some (s.map fun c => [c]))
  | some (.u64s []) => .ok (some [])
  | some (.bytes []) => .ok (some [])
  | some _ => .error .typeError

/-- `[k.tobytes().decode() for k in matlab_fields]` (`Marshallers.py:1335`, `2016`). -/
def matlabFields : Option AVal → Res (Option (List Str))
  | none => .ok none
  | some (.fields l) => do .ok (some (← l.mapM utf8Dec))
  | some _ => .error .other

/-- `s.startswith(t)`. -/
def startsWith (s t : Str) : Bool := t.isPrefixOf s

/-- The dtype made from the underlying type's name (`Marshallers.py:1352-1367`); widths in bits, rounded down; an unknown name is a
`TypeError`. -/
def parseDT (u : Str) : Res DT :=
  if startsWith u p!"bytes" then
    if u = p!"bytes" then .ok (.bytes 1) else do .ok (.bytes ((← natOfDec (u.drop 5)) / 8))
  else if startsWith u p!"str" then
    if u = p!"str" then .ok (.str 1) else do .ok (.str ((← natOfDec (u.drop 3)) / 32))
  else match [DT.bool, .u8, .u16, .u32, .u64, .i8, .i16, .i32, .i64, .f16, .f32, .f64, .c64, .c128, .object].find? (fun d => d.name == u) with
    | some d => .ok d
    | none => .error .typeError

/-- Data during reading: an array not of dtype object (`sc` if it is a numpy scalar), an object array, or a structured array (the values field by field). -/
inductive NData
  | arr (sc : Bool) (a : Arr)
  | obj (shape : List Nat) (elems : List Val)
  | tab (shape : List Nat) (names : List Str) (types : List FT) (cols : List (List Val))

/-- `data.shape`. -/
def NData.shape : NData → List Nat
  | .arr _ a => a.shape
  | .obj s _ => s
  | .tab s _ _ _ => s

/-- `data.T`. -/
def NData.T : NData → NData
  | .arr sc a => .arr sc a.T
  | .obj s e => .obj s.reverse (transposeData s e)
  | .tab s n t c => .tab s.reverse n t (c.map (transposeData s))

/-- `data.dtype.name == "bool"`. -/
def NData.isBool : NData → Bool
  | .arr _ a => a.dt == .bool
  | .obj _ _ => false
  | .tab _ _ _ _ => false

/-- `np.zeros(shape, dtype)`; object arrays are filled with the int 0. -/
def zerosOf (dt : DT) (shape : List Nat) : NData :=
  if dt = .object then .obj shape (List.replicate (prodN shape) (.int 0)) else .arr false (npZeros dt shape)

/-- `np.bool_` of a number (`Marshallers.py:1379-1380`). -/
def boolEl : El → Res El
  | .num v => .ok (.num (if v = 0 then 0 else 1))
  | _ => .error .other

/-- `np.bool_(data)` on numbers; other data is not modelled (`Marshallers.py:1379-1380`, `1502-1503`). -/
def toBool : NData → Res NData
  | .arr sc a => do
    let d ← a.data.mapM boolEl
    .ok (.arr sc { a with dt := .bool, data := d })
  | .obj _ _ => .error .other
  | .tab _ _ _ _ => .error .other

/-- `data.flat[0]`: strings lose their trailing NULs, an element of an object array is the object itself. -/
def flat0 : NData → Res Val
  | .arr _ a =>
    match a.data with
    | [] => .error .indexError
    | e :: _ =>
      match a.dt with
      | .bytes _ => .ok (.np .scalar (npBytes (stripNul e.toUnits)))
      | .str _ => .ok (.np .scalar (npStr (stripNul e.toUnits)))
      | dt => .ok (.np .scalar ⟨dt, [], [e]⟩)
  | .obj _ [] => .error .indexError
  | .obj _ (v :: _) => .ok v
  | .tab s n t c => if prodN s = 0 then .error .indexError else .ok (.npStruct .scalar [] n t (c.map fun l => l.headD .none))

mutual
/-- Number of elements of a value in a field of the type, counting those of the fields of structured types. -/
def FT.count : FT → Nat
  | .base _ sp => prodN sp
  | .struct _ t sp => prodN sp * FT.countL t
/-- Those of all fields. -/
def FT.countL : List FT → Nat
  | [] => 0
  | t :: r => FT.count t + FT.countL r
end

mutual
/-- The value `data[index][name]` of a field of the type with these elements. -/
def unflatVal : FT → List El → Val
  | .base dt sp, l => if sp = [] then match flat0 (.arr false ⟨dt, [], l⟩) with | .ok v => v | .error _ => .other else .np .ndarray ⟨dt, sp, l⟩
  | .struct n t sp, l => .npStruct (if sp = [] then .scalar else .ndarray) sp n t (unflatCols (prodN sp) t l).flatten
/-- The values of the fields, `n` of each. -/
def unflatCols (n : Nat) : List FT → List El → List (List Val)
  | [], _ => []
  | t :: r, l => (chunksN (FT.count t) n l).map (unflatVal t) :: unflatCols n r (l.drop (n * FT.count t))
end

/-- `complex(a, b)`. -/
def partsEl : El → El → El
  | .num a, .num b => .cplx a b
  | a, _ => a

/-- `dset[...]` of a compound Dataset: two fields 'r' and 'i' of the same floating point type are the parts of complex numbers to h5py (there is no complex type of
float16 parts), in nested dtypes this is not modelled. -/
def readTable (shape : List Nat) (names : List Str) (types : List FT) (data : List El) : Res NData :=
  if complexPair names types then
    match types with
    | .base .f32 _ :: _ => .ok (.arr false ⟨.c64, shape, List.zipWith partsEl (data.take (prodN shape)) (data.drop (prodN shape))⟩)
    | .base .f64 _ :: _ => .ok (.arr false ⟨.c128, shape, List.zipWith partsEl (data.take (prodN shape)) (data.drop (prodN shape))⟩)
    | _ => .error .typeError
  else if FT.hasPairL types then .error .other
  else .ok (.tab shape names types (unflatCols (prodN shape) types data))

/-- `dset[...]`, with references followed (`Marshallers.py:1181-1190`, `utilities.py:539-544`). -/
def readDset (rd : Rd) (a : Arr) : Res NData :=
  if a.dt = .ref then do
    let e ← a.data.mapM fun e => match e with | .ref p => rd p | _ => .error .valueError
    .ok (.obj a.shape e)
  else match a.dt with
    | .comp _ _ names types => readTable a.shape names types a.data
    | _ => .ok (.arr false a)

/-- The data as a Python value in a numpy container. -/
def NData.toVal (c : Cont) : NData → Val
  | .arr _ a => .np c a
  | .obj s e => .npObj c s e
  | .tab s n t l => .npStruct c s n t l.flatten

/-- The container conversions (`Marshallers.py:1422-1461`); `u` is the underlying type, `rec` that the data was turned into a recarray. -/
def toContainer (cont : Option Str) (u : Str) (empty rec : Bool) (d : NData) : Res Val :=
  let asIs : Cont := if rec then .recarray else .ndarray
  if cont = some p!"scalar" then
    if startsWith u p!"bytes" then
      if empty then .ok (.np .scalar (npBytes []))
      else match d with
        | .arr true a => .ok (.np .scalar a)
        | d => flat0 d
    else if startsWith u p!"str" then
      if empty then .ok (.np .scalar (npStr []))
      else match d with
        | .arr true a => .ok (.np .scalar a)
        | d => flat0 d
    else flat0 d
  else if cont = some p!"ndarray" then .ok (d.toVal .ndarray)
  else if cont = some p!"chararray" then
    match d with
    | .arr _ a => if a.dt.isString then .ok (.np .chararray a) else .error .valueError
    | .obj _ _ => .error .valueError
    | .tab _ _ _ _ => .error .valueError
  else if cont = some p!"matrix" then
    if 2 < d.shape.length then .error .valueError
    else match d with
      | .arr _ a => .ok (.np .matrix a.atleast2d)
      | .obj s e => .ok (.npObj .matrix (atleast2dShape s) e)
      | .tab s n t l => .ok (.npStruct .matrix (atleast2dShape s) n t l.flatten)
  else match d with
    | .arr true a => .ok (.np .scalar a)
    | d => .ok (d.toVal asIs)

/-- String conversion (`Marshallers.py:1395-1412`). -/
def stringStep (u : Str) (mc : Option Str) (d : NData) : Res NData :=
  let conv (f : StrLike → Option Nat → Res (Bool × Arr)) (len : Option Nat) : Res NData :=
    match d with
    | .arr sc a => do
      let r ← f (.np sc a) len
      .ok (.arr r.1 r.2)
    | .obj _ _ => .error .typeError
    | .tab _ _ _ _ => .error .other
  if startsWith u p!"bytes" then
    if u = p!"bytes" then .ok (.arr true (npBytes []))
    else do conv convertToNumpyBytes (some ((← natOfDec (u.drop 5)) / 8))
  else if startsWith u p!"str" then
    if u = p!"str" then .ok (.arr true (npStr []))
    else do conv convertToNumpyStr (some ((← natOfDec (u.drop 3)) / 32))
  else if mc = some p!"char" then conv convertToNumpyStr none
  else .ok d

/-- Reshaping (`Marshallers.py:1417-1418`); a numpy scalar cannot be reshaped. -/
def reshapeStep (shape : List Nat) (d : NData) : Res NData :=
  if shape ≠ d.shape ∧ prodN shape = prodN d.shape then
    match d with
    | .arr true _ => .error .valueError
    | .arr false a => .ok (.arr false { a with shape := shape })
    | .obj _ e => .ok (.obj shape e)
    | .tab _ n t l => .ok (.tab shape n t l)
  else .ok d

/-- `decode_complex` on data (`Marshallers.py:1373-1374`); structured data made of a Group never gets here (see `decodes`), and Datasets of complex numbers that
h5py shows as compounds have dtype `crec`. -/
def complexData : NData → NData
  | .arr sc a => .arr sc (decodeComplex a)
  | d => d

/-- The conversions when Python metadata is present (`Marshallers.py:1322-1461`) without field names. -/
def npFinish (o : COpts) (ts u : Str) (shape : List Nat) (cont : Option Str) (empty : Bool) (mc : Option Str) (d : NData) : Res Val := do
  let rev := mc.isSome || o.reverse
  let d ← (if empty then do
      let z := zerosOf (← parseDT u) shape
      .ok (if rev then z.T else z)
    else .ok d : Res NData)
  let d := if startsWith u p!"complex" then complexData d else d
  let d ← (if u = p!"bool" ∧ d.isBool = false then toBool d else .ok d : Res NData)
  let d := if rev then d.T else d
  let d ← stringStep u mc d
  let d ← reshapeStep shape d
  toContainer cont u empty (ts == p!"numpy.recarray") d

/-- dtype for a MATLAB class (`Marshallers.py:676-692`). -/
def matlabDT (mc : Str) : Option DT :=
  aget [(p!"logical", DT.bool), (p!"uint8", .u8), (p!"uint16", .u16), (p!"uint32", .u32), (p!"uint64", .u64), (p!"int8", .i8), (p!"int16", .i16),
    (p!"int32", .i32), (p!"int64", .i64), (p!"single", .f32), (p!"double", .f64), (p!"char", .str 1), (p!"cell", .object),
    (p!"canonical empty", .f64), (p!"struct", .object)] mc

/-- The conversions when only MATLAB metadata is present (`Marshallers.py:1463-1509`).  An array of strings made from `char` data of no columns divides by
zero; a stored shape that is not a vector of integers raises (`tuple` or `np.zeros`). -/
def matlabFinish (mc : Str) (dt : DT) (empty : Bool) (d : NData) : Res Val := do
  let d ← (if empty then
      match d with
      | .arr _ a =>
        if a.dt ∈ [DT.u8, .u16, .u32, .u64, .i8, .i16, .i32, .i64, .bool] ∧ a.shape.length = 1 then .ok (zerosOf dt (a.data.map El.toNat))
        else .error .other
      | .obj _ _ => .error .other
      | .tab _ _ _ _ => .error .other
    else .ok d.T : Res NData)
  let d := if mc = p!"single" ∨ mc = p!"double" then complexData d else d
  let d ← (if mc = p!"logical" then toBool d else .ok d : Res NData)
  let d ← (if mc = p!"char" then
      match d with
      | .arr sc a =>
        match a.dt with
        | .bytes _ => .ok (.arr sc a)
        | _ => do
          let r ← convertToNumpyStr (.np sc a) none
          .ok (.arr r.1 r.2)
      | .obj _ _ => .error .typeError
      | .tab _ _ _ _ => .error .other
    else .ok d : Res NData)
  match d with
  | .arr true a => .ok (.np .scalar a)
  | d => .ok (d.toVal .ndarray)

/-- Set an entry of a dict being built: an existing key keeps its place. -/
def fieldSet (l : List (Str × Val)) (k : Str) (v : Val) : List (Str × Val) :=
  if (akeys l).contains k then l.map fun p => if p.1 = k then (k, v) else p else l ++ [(k, v)]

/-- Reading the members of a Group (`Marshallers.py:1208-1231`) in the order of their names; a name that cannot be unescaped raises, a member that
cannot be read is left out, so is the references Group (`excl`). -/
def readFields (rd : Rd) (excl : Option Nat) : List (Str × Nat) → List (Str × Val) → Res (List (Str × Val))
  | [], acc => .ok acc
  | (k, q) :: r, acc => do
    let uk ← unescapePath k
    if excl = some q then readFields rd excl r acc
    else match rd q with
      | .ok v => readFields rd excl r (fieldSet acc uk v)
      | .error _ => readFields rd excl r acc

/-- Links in the order h5py iterates over them. -/
def sortedLinks (l : List (Str × Nat)) : List (Str × Nat) := (sortStr (akeys l)).filterMap fun k => (aget l k).map fun q => (k, q)

/-- Attributes that show that a field's Dataset holds the value itself (`Marshallers.py:1216-1226`). -/
def fieldMarks : List Str :=
  [p!"Python.Type", p!"Python.Shape", p!"Python.numpy.UnderlyingType", p!"Python.numpy.Container", p!"Python.Fields", p!"MATLAB_class",
    p!"MATLAB_int_decode", p!"MATLAB_fields"]

/-- Whether an object looks like the references to the values of a field (`Marshallers.py:1216-1226`). -/
def looksMulti (V : View) (q : Nat) : Bool :=
  match V q with
  | some ⟨attrs, .dset a _⟩ => a.dt == .ref && fieldMarks.all fun k => (aget attrs k).isNone
  | _ => false

/-- `is_multi_element` (`Marshallers.py:1207-1227`); `mu` says of a member whether it looks like references to the values. -/
def isMulti (mu : Nat → Bool) (excl : Option Nat) (l : List (Str × Nat)) : Bool := l.all fun p => excl == some p.2 || mu p.2

/-- `x.dtype` and `x.shape`, if `type(x) in self._numpy_types` (`Marshallers.py:1262-1276`).  The marshaller's types are the containers and the numpy scalars. -/
def ftOf : Val → Option FT
  | .np _ a => some (.base a.dt a.shape)
  | .npObj _ s _ => some (.base .object s)
  | .npStruct _ s n t _ => some (.struct n t s)
  | _ => none

/-- The type of a field with these values (`Marshallers.py:1255-1287`): the common one of the values, or object. -/
def fieldType (vs : List Val) : FT :=
  match vs with
  | [] => .base .object []
  | v :: r =>
    match ftOf v with
    | none => .base .object []
    | some t => if r.all (fun w => ftOf w == some t) then t else .base .object []

/-- `data[k][index] = x`, and what `data[index][k]` is then (`Marshallers.py:1313-1314`): an object field keeps the object, other fields lose its container and,
if they are strings, the trailing NULs. -/
def packEl (t : FT) (v : Val) : Val :=
  if t = .base .object [] then v
  else match v with
    | .np _ a => if a.shape = [] then match flat0 (.arr false a) with | .ok w => w | .error _ => v else .np .ndarray a
    | .npObj _ s e => .npObj .ndarray s e
    | .npStruct _ s n u e => .npStruct (if s = [] then .scalar else .ndarray) s n u e
    | v => v

/-- A field's object array: shape and elements (`Marshallers.py:1238-1242`): the value itself if it looks like many, else an array of this one. -/
def fieldArray (multi : Bool) (v : Val) : Res (List Nat × List Val) :=
  if multi then match v with | .npObj _ s e => .ok (s, e) | _ => .error .other
  else .ok ([1], [v])

/-- Names numpy takes for the fields of a dtype (an empty name is replaced by another, no names at all make no structured dtype: not modelled). -/
def checkNames (names : List Str) : Res Unit :=
  if names = [] ∨ [] ∈ names then .error .other
  else if names.Nodup then .ok () else .error .valueError

/-- `struct_data[k]`. -/
def fieldAt (multi : Bool) (sd : List (Str × Val)) (k : Str) : Res (List Nat × List Val) :=
  match aget sd k with
  | none => .error .keyError
  | some v => fieldArray multi v

mutual
/-- What numpy hands out for an element of a field of `np.zeros(shape, dtype)` (`Marshallers.py:1303-1306`). -/
def zeroVal : FT → Val
  | .base dt sp =>
    if dt = .object then (if sp = [] then .int 0 else .npObj .ndarray sp (List.replicate (prodN sp) (.int 0)))
    else packEl (.base dt sp) (.np .ndarray (npZeros dt sp))
  | .struct names types sp => .npStruct (if sp = [] then .scalar else .ndarray) sp names types (zeroCols (prodN sp) types)
/-- The columns of `n` elements of a structured array of zeros (`Marshallers.py:1303-1306`). -/
def zeroCols (n : Nat) : List FT → List Val
  | [] => []
  | t :: r => List.replicate n (zeroVal t) ++ zeroCols n r
end

/-- Whether an index tuple (of the right length) is within the shape. -/
def within (s i : List Nat) : Bool := i.length == s.length && (i.zip s).all fun p => decide (p.1 < p.2)

/-- The shape of the subarrays of a field. -/
def FT.sub : FT → List Nat
  | .base _ sp | .struct _ _ sp => sp

/-- Whether the elements of an object array of shape `s` are assigned to parts of a field of the shape `S` that are not elements (`Marshallers.py:1308-1314`): fewer
indices than dimensions, or further indices into subarrays.  These assignments (numpy broadcasts) are not modelled. -/
def broadcasts (S : List Nat) (t : FT) (s : List Nat) : Bool :=
  s != S && !S.contains 0 && !s.contains 0 && s.length != S.length && !(decide (S.length < s.length) && t.sub == [])

/-- Whether an index of an object array of shape `s` is out of range in an array of shape `S`, or there are too many indices (`Marshallers.py:1308-1314`). -/
def beyond (S s : List Nat) : Bool :=
  s != S && !S.contains 0 && !s.contains 0 && (decide (S.length < s.length) || (s.zip S).any fun p => decide (p.2 < p.1))

/-- The elements of a field of the type in an array of shape `S`, made of an object array of shape `s` (`Marshallers.py:1303-1314`): those beyond `s` are zeros; if one of
the shapes has no elements, nothing is assigned. -/
def spread (S : List Nat) (t : FT) (s : List Nat) (es : List Val) : List Val :=
  if s = S then es.map (packEl t)
  else if S.contains 0 then []
  else if s.contains 0 then List.replicate (prodN S) (zeroVal t)
  else (indicesN S).map fun i => if within s i then match es[ravelN s i]? with | some v => packEl t v | none => zeroVal t else zeroVal t

/-- The structured array made of the members of a Group (`Marshallers.py:1249-1314`); `attr` are the names in the attribute, if there is one.  Its shape is that of the last
field. -/
def buildStruct (multi : Bool) (sd : List (Str × Val)) (attr : Option (List Str)) : Res NData := do
  let names := match attr with
    | some f => f ++ sortStr ((akeys sd).filter fun k => !f.contains k)
    | none => sortStr (akeys sd)
  let arrs ← names.mapM (fieldAt multi sd)
  checkNames names
  let shape := (arrs.getLast?.map (·.1)).getD []
  if arrs.any (fun a => broadcasts shape (fieldType a.2) a.1) then .error .other
  else if arrs.any (fun a => beyond shape a.1) then .error .indexError
  else .ok (.tab shape names (arrs.map fun a => fieldType a.2) (arrs.map fun a => spread shape (fieldType a.2) a.1 a.2))

/-- The names of the fields in the attributes when a Group is read (`Marshallers.py:1249-1256`). -/
def groupNames (pf : Option (List Str)) (mf : Option AVal) : Res (Option (List Str)) :=
  match pf with
  | some f => do .ok (some (← f.mapM unescapePath))
  | none => do
    match ← matlabFields mf with
    | some f => do .ok (some (← f.mapM unescapePath))
    | none => .ok none

/-- The names of the fields in the attributes when Python metadata is used (`Marshallers.py:1333-1343`): those MATLAB has are not unescaped. -/
def metaNames (pf : Option (List Str)) (mf : Option AVal) : Res (Option (List Str)) :=
  match pf with
  | some f => do .ok (some (← f.mapM unescapePath))
  | none => matlabFields mf

/-- `np.zeros(shape, dtype=[(name, 'object') for name in names])`. -/
def structZeros (names : List Str) (shape : List Nat) : Res NData := do
  checkNames names
  .ok (.tab shape names (names.map fun _ => .base .object []) (names.map fun _ => List.replicate (prodN shape) (.int 0)))

/-- The conversions when Python metadata is present (`Marshallers.py:1322-1461`): if there are names of fields, empty data that is not of strings gets them. -/
def pyFinish (o : COpts) (ts u : Str) (shape : List Nat) (cont : Option Str) (empty : Bool) (mc : Option Str) (names : Option (List Str)) (d : NData) : Res Val :=
  match names with
  | none => npFinish o ts u shape cont empty mc d
  | some f =>
    if empty && !(startsWith u p!"bytes") && !(startsWith u p!"str") then do
      let z ← structZeros f shape
      npFinish o ts u shape cont false mc (if mc.isSome || o.reverse then z.T else z)
    else npFinish o ts u shape cont empty mc d

/-- The conversions of an empty struct of MATLAB (`Marshallers.py:1480-1490`); classes whose conversions do not fit structured data are not modelled. -/
def matlabEmptyStruct (mc : Str) (f : List Str) (d : NData) : Res Val :=
  if mc ∈ [p!"single", p!"double", p!"logical", p!"char"] then .error .other
  else match d with
    | .arr _ a =>
      if a.dt ∈ [DT.u8, .u16, .u32, .u64, .i8, .i16, .i32, .i64, .bool] ∧ a.shape.length = 1 then do
        let names ← f.mapM unescapePath
        let z ← structZeros names (a.data.map El.toNat)
        .ok (z.toVal .ndarray)
      else .error .other
    | _ => .error .other

/-- All the conversions (`Marshallers.py:1316-1512`) of the data read; the arguments are the decoded attributes. -/
def finish (o : COpts) (ob : Obj) (ts u cont : Option Str) (pf : Option (List Str)) (mc : Option Str) (d : NData) : Res Val :=
  match ts, u, aget ob.attrs p!"Python.Shape" with
  | some ts, some u, some sh => do
    let names ← metaNames pf (aget ob.attrs p!"MATLAB_fields")
    match sh with
    | .u64s shape => pyFinish o ts u shape cont (attrIsOne (aget ob.attrs p!"Python.Empty")) mc names d
    | _ => .error .typeError
  | _, _, _ =>
    match mc with
    | some mc =>
      match matlabDT mc with
      | some dt =>
        match (if attrIsOne (aget ob.attrs p!"MATLAB_empty") then aget ob.attrs p!"MATLAB_fields" else none) with
        | none => matlabFinish mc dt (attrIsOne (aget ob.attrs p!"MATLAB_empty")) d
        | some mf => do
          match ← matlabFields (some mf) with
          | some f => matlabEmptyStruct mc f d
          | none => .error .other
      | none => .ok (d.toVal .ndarray)
    | none => .ok (d.toVal .ndarray)

/-- Whether the conversions go through `decode_complex` (`Marshallers.py:1373`, `1495`), which is not modelled on structured data. -/
def decodes (u mc : Option Str) : Bool := startsWith (u.getD []) p!"complex" || mc == some p!"single" || mc == some p!"double"

/-- `NumpyScalarArrayMarshaller.read` (`Marshallers.py:1150-1512`); `mu` says which objects look like the references to the values of a field. -/
def readNp (mu : Nat → Bool) (rd : Rd) (o : COpts) (excl : Option Nat) (ob : Obj) : Res Val := do
  let ts ← attrToString (aget ob.attrs p!"Python.Type")
  let u ← attrToString (aget ob.attrs p!"Python.numpy.UnderlyingType")
  let cont ← attrToString (aget ob.attrs p!"Python.numpy.Container")
  let pf ← attrToStrings (aget ob.attrs p!"Python.Fields")
  let mc ← attrToString (aget ob.attrs p!"MATLAB_class")
  match ob.body with
  | .group l => do
    let sd ← readFields rd excl (sortedLinks l) []
    if mc = some p!"struct" ∧ o.structsAsDicts = true then .ok (.dict .dict (sd.map fun p => .str p.1) (sd.map (·.2)))
    else do
      let attr ← groupNames pf (aget ob.attrs p!"MATLAB_fields")
      let d ← buildStruct (isMulti mu excl (sortedLinks l)) sd attr
      if decodes u mc then .error .other else finish o ob ts u cont pf mc d
  | .dset a _ => do
    let d ← readDset rd a
    finish o ob ts u cont pf mc d

/-- `int(b)` on decimal text. -/
def intOfDec (b : Str) : Res Int :=
  match b with
  | 45 :: r => do .ok (-((← natOfDec r : Nat) : Int))
  | b => do .ok ((← natOfDec b : Nat) : Int)

/-- `tp(data.item())` for the Python scalars (`Marshallers.py:1638-1643`); conversions between floats of different widths and between kinds other than
those that occur for written data are not modelled. -/
def toScalar (ts : Str) (v : Val) : Res Val :=
  match v with
  | .np _ a =>
    match a.data with
    | [e] =>
      match a.dt, e with
      | .bytes _, .units b => if ts = p!"int" ∨ ts = p!"long" then do .ok (.int (← intOfDec (stripNul b))) else .error .other
      | .bool, .num i =>
        if ts = p!"bool" then .ok (.bool (i ≠ 0)) else if ts = p!"int" ∨ ts = p!"long" then .ok (.int i) else .error .other
      | .f64, .num i => if ts = p!"float" then .ok (.float i) else .error .other
      | .c128, .cplx r i => if ts = p!"complex" then .ok (.complex r i) else .error .other
      | .i64, .num i =>
        if ts = p!"bool" then .ok (.bool (i ≠ 0)) else if ts = p!"int" ∨ ts = p!"long" then .ok (.int i) else .error .other
      | _, _ => .error .other
    | _ => .error .valueError
  | _ => .error .other

/-- `convert_to_str(data)`, `bytes(data)`, `bytearray(data)` (`Marshallers.py:1700-1707`); `bytes` of other things than numpy bytes scalars is not
modelled. -/
def toPyString (ts : Str) (v : Val) : Res Val :=
  match v with
  | .np c a =>
    if ts = p!"str" then do .ok (.str (← convertToStr (.np (c == .scalar) a)))
    else match c, a.dt with
      | .scalar, .bytes _ =>
        if ts = p!"bytes" then .ok (.bytes (a.data.flatMap El.toUnits)) else .ok (.bytearray (a.data.flatMap El.toUnits))
      | _, _ => .error .other
  | _ => .error .other

/-- Conversion of a key back to its type (`Marshallers.py:2030-2038`). -/
def keyConvert (t : Nat) (uk : Str) : Res Val :=
  if t = 116 then .ok (.str uk)
  else if t = 98 then do .ok (.bytes (← utf8Enc uk))
  else if t = 83 then do .ok (.np .scalar (npBytes (← utf8Enc uk)))
  else if t = 85 then .ok (.np .scalar (npStr uk))
  else .error .keyError

/-- Items of an iterable read from the file (`zip(d[0], d[1])`); iterating over other things is not modelled. -/
def iterVal : Val → Res (List Val)
  | .seq _ e => .ok e
  | .npObj _ [_] e => .ok e
  | _ => .error .other

/-- One turn of the loop over the fields (`Marshallers.py:2040-2060`): `none` if it is the references Group. -/
def readItem (rd : Rd) (excl : Option Nat) (links : List (Str × Nat)) (conv : Nat → Str → Res Val) (i : Nat) (k : Str) : Res (Option (Val × Val)) := do
  let uk ← unescapePath k
  match aget links k with
  | none => .error .keyError
  | some q =>
    if excl = some q then .ok none
    else do
      let v ← rd q
      .ok (some (← conv i uk, v))

/-- The loop over the fields (`Marshallers.py:2039-2062`): whatever raises is left out. -/
def readItems (rd : Rd) (excl : Option Nat) (links : List (Str × Nat)) (conv : Nat → Str → Res Val) : Nat → List Str → List (Val × Val)
  | _, [] => []
  | i, k :: r =>
    match readItem rd excl links conv i k with
    | .ok (some p) => p :: readItems rd excl links conv (i + 1) r
    | _ => readItems rd excl links conv (i + 1) r

/-- What makes a key made of a field's name (`keyConvert`) equal to another: `str` and `numpy.str_` are compared by their text, `bytes` and `numpy.bytes_` by their
bytes, and neither of the former equals one of the latter (dict keys in `Marshallers.py:2066-2068`). -/
def keyId : Val → Option (Bool × Str)
  | .str s => some (false, s)
  | .bytes b => some (true, b)
  | .np .scalar ⟨.str _, _, [.units s]⟩ => some (false, s)
  | .np .scalar ⟨.bytes _, _, [.units b]⟩ => some (true, b)
  | _ => none

/-- Whether two keys are equal. -/
def sameKey (a b : Val) : Bool := (keyId a).isSome && keyId a == keyId b

/-- Set an item of a dict: an equal key stays, and its value is replaced. -/
def dictPut (l : List (Val × Val)) (p : Val × Val) : List (Val × Val) :=
  if l.any (fun q => sameKey q.1 p.1) then l.map fun q => if sameKey q.1 p.1 then (q.1, p.2) else q else l ++ [p]

/-- `dict(items)` (`Marshallers.py:2066-2068`) for keys made of the names of fields. -/
def mergeItems (l : List (Val × Val)) : List (Val × Val) := l.foldl dictPut []

/-- Fields in the order they are read (`Marshallers.py:2012-2021`). -/
def dictFields (pf mf : Option (List Str)) (links : List (Str × Nat)) : List Str :=
  let f := pf.getD []
  let f := (mf.getD []).foldl (fun f s => if f.contains s then f else f ++ [s]) f
  (sortStr (akeys links)).foldl (fun f s => if f.contains s then f else f ++ [s]) f

/-- `PythonDictMarshaller.read` (`Marshallers.py:1957-2069`).  Items stored as a sequence of keys and one of values are taken as they are: equal keys among them are not
merged, and keys that cannot be hashed raise nothing (both only happens for files not written by the package). -/
def readDictItems (rd : Rd) (o : COpts) (excl : Option Nat) (ob : Obj) : Res (List (Val × Val)) :=
  match ob.body with
  | .dset _ _ => .error .notImplemented
  | .group links => do
    let pf ← attrToStrings (aget ob.attrs p!"Python.Fields")
    let stored ← attrToString (aget ob.attrs p!"Python.dict.StoredAs")
    let kvn ← attrToStrings (aget ob.attrs p!"Python.dict.keys_values_names")
    let kst ← attrToString (aget ob.attrs p!"Python.dict.key_str_types")
    let kv := match kvn with
      | some (a :: b :: _) => (a, b)
      | _ => (o.keysName, o.valuesName)
    let ek ← escapePath kv.1
    let ev ← escapePath kv.2
    match (if stored = some p!"keys_values" then (aget links ek, aget links ev) else (none, none)) with
    | (some qk, some qv) => do
      let ks ← iterVal (← rd qk)
      let vs ← iterVal (← rd qv)
      .ok (ks.zip vs)
    | _ => do
      let mf ← matlabFields (aget ob.attrs p!"MATLAB_fields")
      let conv (i : Nat) (uk : Str) : Res Val :=
        match pf, kst with
        | some pf, some t => if i < t.length ∧ pf.length = t.length then keyConvert (t.getD i 0) uk else .ok (.str uk)
        | _, _ => .ok (.str uk)
      .ok (mergeItems (readItems rd excl links conv 0 (dictFields pf mf links)))

/-- Value of a str key among items. -/
def itemAt (l : List (Val × Val)) (k : Str) : Option Val :=
  match l with
  | [] => none
  | (.str k', v) :: r => if k' = k then some v else itemAt r k
  | _ :: r => itemAt r k

/-- Rebuilding an object from the parts stored under their names (`Marshallers.py:2146-2156`, `2243-2251`, `2302-2303`); exactly these parts must be there
(optional arguments of the datetime constructors and range checks of the constructors are not modelled). -/
def buildRecord (k : RecKind) (items : List (Val × Val)) : Res Val :=
  match k.fieldNames.mapM (itemAt items) with
  | some vs => if items.length = k.fieldNames.length then .ok (.record k vs) else .error .typeError
  | none => .error .keyError

/-- Kind of sequence for a type string. -/
def seqKindOf (ts : Str) : Option SeqKind :=
  aget [(p!"list", SeqKind.list), (p!"tuple", .tuple), (p!"set", .set), (p!"frozenset", .frozenset), (p!"collections.deque", .deque),
    (p!"collections.ChainMap", .chainMap)] ts
/-- Kind of mapping for a type string. -/
def dictKindOf (ts : Str) : Option DictKind :=
  aget [(p!"dict", DictKind.dict), (p!"collections.OrderedDict", .orderedDict), (p!"collections.Counter", .counter)] ts
/-- Kind of record for a type string; a timezone with or without name is told apart by its parts. -/
def recKindOf (ts : Str) : Option RecKind :=
  aget [(p!"slice", RecKind.slice), (p!"range", .range), (p!"datetime.timedelta", .timedelta), (p!"datetime.timezone", .timezone1),
    (p!"datetime.date", .date), (p!"datetime.time", .time), (p!"datetime.datetime", .datetime), (p!"fractions.Fraction", .fraction)] ts

/-- `list(data)` and the constructor called with it (`Marshallers.py:2361-2365`, `2409-2418`, `2461-2465`). -/
def toSeq (k : SeqKind) (v : Val) : Res Val :=
  match v with
  | .npObj _ [_] e => if k = .chainMap ∧ e.isEmpty then .ok (.seq k [.dict .dict [] []]) else .ok (.seq k e)
  | _ => .error .other

/-- What `read_data` does with an object whose `Python.Type` is `ts` (`utilities.py:343-375`): the builtin marshaller for the type string reads it, or
`NumpyScalarArrayMarshaller` if there is none. -/
def readTyped (mu : Nat → Bool) (rd : Rd) (o : COpts) (excl : Option Nat) (ob : Obj) (ts : Str) : Res Val :=
  if ts = p!"builtins.NoneType" then .ok .none
  else if ts = p!"builtins.ellipsis" then .ok .ellipsis
  else if ts = p!"builtins.NotImplementedType" then .ok .notImplemented
  else if ts ∈ [p!"bool", p!"int", p!"long", p!"float", p!"complex"] then do toScalar ts (← readNp mu rd o excl ob)
  else if ts ∈ [p!"str", p!"bytes", p!"bytearray"] then do toPyString ts (← readNp mu rd o excl ob)
  else if ts = p!"numpy.dtype" then
    do match ← readNp mu rd o excl ob with
      | .np c a => do .ok (.dtypeObj (← convertToStr (.np (c == .scalar) a)))
      | _ => .error .typeError
  else match seqKindOf ts, dictKindOf ts, recKindOf ts with
    | some k, _, _ => do toSeq k (← readNp mu rd o excl ob)
    | _, some k, _ => do
      let it ← readDictItems rd o excl ob
      .ok (.dict k (it.map (·.1)) (it.map (·.2)))
    | _, _, some k => do
      let it ← readDictItems rd o excl ob
      buildRecord (if k = .timezone1 ∧ it.length = 2 then .timezone2 else k) it
    | _, _, _ => readNp mu rd o excl ob

/-- `read_data(None, None, dsetgrp)` (`utilities.py:278-375`) with the builtin marshallers.  The first argument is the recursion limit. -/
def readData (o : COpts) (V : View) (excl : Option Nat) : Nat → Rd
  | 0 => fun _ => .error .other
  | n + 1 => fun p =>
    match V p with
    | none => .error .keyError
    | some ob => do
      let rd := readData o V excl n
      let tsO ← attrToString (aget ob.attrs p!"Python.Type")
      let _ ← attrToString (aget ob.attrs p!"MATLAB_class")
      match tsO with
      | none => readNp (looksMulti V) rd o excl ob
      | some ts => readTyped (looksMulti V) rd o excl ob ts

end HS
