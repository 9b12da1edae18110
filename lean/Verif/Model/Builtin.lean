import Verif.Model.Collection
import Verif.Model.Read
/-
The tables of the builtin marshallers (`/repo/src/hdf5storage/Marshallers.py`), `update_type_lookups` and `get_type_string`, and how `write_data` and
`read_data` (`utilities.py:212-375`) choose the marshaller and its method.

Simplifications: a class is known by its `__module__` and `__name__`; only what the choice depends on is modelled of user and plugin marshallers; the
type `np.matrix` exists.
-/
namespace HS

/-- `dict(zip(keys, values))`: the last entry of a key counts. -/
def dictZip {α β : Type} [DecidableEq α] (k : List α) (v : List β) : List (α × β) :=
  (k.zip v).foldl (fun d p => dictSet p.1 p.2 d) []

/-- `d.get(k)`. -/
def dictAt {α β : Type} [DecidableEq α] (d : List (α × β)) (k : α) : Option β := (d.find? fun p => decide (p.1 = k)).map (·.2)

/-- `self.type_to_typestring` after `update_type_lookups` (`Marshallers.py:290`). -/
def Marshaller.typeToString (m : Marshaller) : List (TypeRef × Str) := dictZip m.types m.typeStrings
/-- `self.typestring_to_type` after `update_type_lookups` (`Marshallers.py:291`). -/
def Marshaller.stringToType (m : Marshaller) : List (Str × TypeRef) := dictZip m.typeStrings m.types

/-- `get_type_string(data, type_string)` for data of class `t` (`Marshallers.py:293-336`). -/
def getTypeString (m : Marshaller) (t : TypeRef) (given : Option Str) : Res Str :=
  match given with
  | some s => .ok s
  | none =>
    match dictAt m.typeToString t with
    | some s => .ok s
    | none =>
      match dictAt m.typeToString (.str t.key) with
      | some s => .ok s
      | none => .error .keyError

/-- The marshaller classes in `Marshallers.py`, in the order of their names (`inspect.getmembers`, `__init__.py:1113-1122`). -/
inductive Builtin
  | numpyDtype | numpyScalarArray | chainMap | counter | datetimeObjs | dict | fraction | list | noneEllipsis | scalar | sliceRange | string | tupleSetDeque
  | base
  deriving DecidableEq, Repr

/-- All of them. -/
def Builtin.all : List Builtin :=
  [.numpyDtype, .numpyScalarArray, .chainMap, .counter, .datetimeObjs, .dict, .fraction, .list, .noneEllipsis, .scalar, .sliceRange, .string, .tupleSetDeque,
    .base]

/-- A class of the module `builtins`. -/
def pyCls (n : Str) : TypeRef := .cls p!"builtins" n
/-- A class of the module `collections`. -/
def collCls (n : Str) : TypeRef := .cls p!"collections" n
/-- A class of the module `datetime`. -/
def dateCls (n : Str) : TypeRef := .cls p!"datetime" n
/-- A class of the module `numpy`. -/
def npCls (n : Str) : TypeRef := .cls p!"numpy" n

/-- The names of the classes in `NumpyScalarArrayMarshaller.types` (`Marshallers.py:598-621`); `np.unicode_` is `np.str_`. -/
def npNames : List Str :=
  [p!"ndarray", p!"matrix", p!"chararray", p!"recarray", p!"bool_", p!"void", p!"uint8", p!"uint16", p!"uint32", p!"uint64", p!"int8", p!"int16",
    p!"int32", p!"int64", p!"float16", p!"float32", p!"float64", p!"complex64", p!"complex128", p!"bytes_", p!"str_", p!"object_"]

/-- `python_type_strings` of `NumpyScalarArrayMarshaller` (`Marshallers.py:624-647`). -/
def npStrings : List Str :=
  [p!"numpy.ndarray", p!"numpy.matrix", p!"numpy.chararray", p!"numpy.recarray", p!"numpy.bool_", p!"numpy.void", p!"numpy.uint8", p!"numpy.uint16",
    p!"numpy.uint32", p!"numpy.uint64", p!"numpy.int8", p!"numpy.int16", p!"numpy.int32", p!"numpy.int64", p!"numpy.float16", p!"numpy.float32",
    p!"numpy.float64", p!"numpy.complex64", p!"numpy.complex128", p!"numpy.bytes_", p!"numpy.str_", p!"numpy.object_"]

/-- `matlab_classes` of `NumpyScalarArrayMarshaller` (`Marshallers.py:654-671`, `695`). -/
def npMatlab : List Str :=
  [p!"logical", p!"uint8", p!"uint16", p!"uint32", p!"uint64", p!"int8", p!"int16", p!"int32", p!"int64", p!"single", p!"double", p!"single", p!"double",
    p!"char", p!"char", p!"cell"]

/-- `types` (`Marshallers.py:235, 598, 1518, 1577, 1649, 1713, 1767, 2075, 2105, 2165, 2263, 2320, 2371, 2424`). -/
def Builtin.types : Builtin → List TypeRef
  | .numpyDtype => [npCls p!"dtype"]
  | .numpyScalarArray => npNames.map npCls
  | .chainMap => [collCls p!"ChainMap"]
  | .counter => [collCls p!"Counter"]
  | .datetimeObjs => [dateCls p!"timedelta", dateCls p!"timezone", dateCls p!"date", dateCls p!"time", dateCls p!"datetime"]
  | .dict => [pyCls p!"dict", collCls p!"OrderedDict"]
  | .fraction => [.str p!"fractions.Fraction"]
  | .list => [pyCls p!"list"]
  | .noneEllipsis => [pyCls p!"NoneType", pyCls p!"ellipsis", pyCls p!"NotImplementedType"]
  | .scalar => [pyCls p!"bool", pyCls p!"int", pyCls p!"int", pyCls p!"float", pyCls p!"complex"]
  | .sliceRange => [pyCls p!"slice", pyCls p!"range"]
  | .string => [pyCls p!"str", pyCls p!"bytes", pyCls p!"bytearray"]
  | .tupleSetDeque => [pyCls p!"tuple", pyCls p!"set", pyCls p!"frozenset", collCls p!"deque"]
  | .base => []

/-- `python_type_strings` (`Marshallers.py:244, 624, 1519, 1578, 1650, 1714, 1769, 2076, 2106, 2172, 2264, 2321, 2372, 2425`). -/
def Builtin.strings : Builtin → List Str
  | .numpyDtype => [p!"numpy.dtype"]
  | .numpyScalarArray => npStrings
  | .chainMap => [p!"collections.ChainMap"]
  | .counter => [p!"collections.Counter"]
  | .datetimeObjs => [p!"datetime.timedelta", p!"datetime.timezone", p!"datetime.date", p!"datetime.time", p!"datetime.datetime"]
  | .dict => [p!"dict", p!"collections.OrderedDict"]
  | .fraction => [p!"fractions.Fraction"]
  | .list => [p!"list"]
  | .noneEllipsis => [p!"builtins.NoneType", p!"builtins.ellipsis", p!"builtins.NotImplementedType"]
  | .scalar => [p!"bool", p!"int", p!"long", p!"float", p!"complex"]
  | .sliceRange => [p!"slice", p!"range"]
  | .string => [p!"str", p!"bytes", p!"bytearray"]
  | .tupleSetDeque => [p!"tuple", p!"set", p!"frozenset", p!"collections.deque"]
  | .base => []

/-- The marshaller object (`m()`, `__init__.py:1113`). The required modules: `Marshallers.py:193, 208, 2261-2262`. -/
def Builtin.marshaller (b : Builtin) : Marshaller where
  id := Builtin.all.idxOf b
  types := b.types
  typeStrings := b.strings
  matlabClasses := if b = .numpyScalarArray then npMatlab else []
  requiredParents := if b = .fraction then [p!"fractions"] else []
  requiredModules := if b = .fraction then [p!"fractions"] else []

/-- `self._builtin_marshallers` (`__init__.py:1111-1122`). -/
def builtins : List Marshaller := Builtin.all.map Builtin.marshaller

/-- The object `read_data` is given: with a `dtype` (whose `type` is given), or a Group. -/
inductive DKind
  | dset (tp : TypeRef) | group
  deriving DecidableEq, Repr

/-- What `read_data` or `write_data` does in the end. -/
inductive MCall
  | read (m : Marshaller) | readApproximate (m : Marshaller) | write (m : Marshaller) | raises (e : Exc)
  deriving DecidableEq, Repr

/-- `np.uint8`. -/
def npUint8 : TypeRef := .cls p!"numpy" p!"uint8"

/-- The last lines of `read_data` (`utilities.py:369-375`). -/
def readCall : Option Marshaller × Bool → MCall
  | (some m, true) => .read m
  | (some m, false) => .readApproximate m
  | (none, _) => .raises .cantRead

/-- What `read_data` looks up (`utilities.py:352-365`). -/
def readKey (ts mc : Option Str) (kind : DKind) : Key :=
  match ts, mc, kind with
  | some t, _, _ => .typeString t
  | none, some c, _ => .matlabClass c
  | none, none, .dset tp => .type tp
  | none, none, .group => .matlabClass p!"struct"

/-- The choice made by `read_data` (`utilities.py:340-375`) given the decoded attributes `Python.Type` and `MATLAB_class`. -/
def dispatchRead (env : Env) (ts mc : Option Str) (kind : DKind) (s : CState) : CState × MCall :=
  match lookup env (readKey ts mc kind) s with
  | (s1, .error e) => (s1, .raises e)
  | (s1, .ok (some m, b)) => (s1, readCall (some m, b))
  | (s1, .ok (none, _)) =>
    match lookup env (.type npUint8) s1 with
    | (s2, .error e) => (s2, .raises e)
    | (s2, .ok r) => (s2, readCall r)

/-- The choice made by `write_data` (`utilities.py:256-276`) for data of class `tp`. -/
def dispatchWrite (env : Env) (tp : TypeRef) (s : CState) : CState × MCall :=
  match lookup env (.type tp) s with
  | (s1, .error e) => (s1, .raises e)
  | (s1, .ok (some m, true)) => (s1, .write m)
  | (s1, .ok _) => (s1, .raises .notImplemented)

/-- `type(data)`, or `np.dtype` for dtypes (`utilities.py:260-264`); `none` for values of other classes. -/
def classOf : Val → Option TypeRef
  | .none => some (pyCls p!"NoneType") | .ellipsis => some (pyCls p!"ellipsis") | .notImplemented => some (pyCls p!"NotImplementedType")
  | .bool _ => some (pyCls p!"bool") | .int _ => some (pyCls p!"int") | .float _ => some (pyCls p!"float") | .complex _ _ => some (pyCls p!"complex")
  | .str _ => some (pyCls p!"str") | .bytes _ => some (pyCls p!"bytes") | .bytearray _ => some (pyCls p!"bytearray")
  | .np .ndarray _ | .npObj .ndarray _ _ => some (npCls p!"ndarray")
  | .np .matrix _ | .npObj .matrix _ _ => some (npCls p!"matrix")
  | .np .chararray _ | .npObj .chararray _ _ => some (npCls p!"chararray")
  | .np .recarray _ | .npObj .recarray _ _ => some (npCls p!"recarray")
  | .np .scalar a =>
    match a.dt with
    | .bool => some (npCls p!"bool_")
    | .u8 => some (npCls p!"uint8") | .u16 => some (npCls p!"uint16") | .u32 => some (npCls p!"uint32") | .u64 => some (npCls p!"uint64")
    | .i8 => some (npCls p!"int8") | .i16 => some (npCls p!"int16") | .i32 => some (npCls p!"int32") | .i64 => some (npCls p!"int64")
    | .f16 => some (npCls p!"float16") | .f32 => some (npCls p!"float32") | .f64 => some (npCls p!"float64")
    | .c64 => some (npCls p!"complex64") | .c128 => some (npCls p!"complex128")
    | .bytes _ => some (npCls p!"bytes_") | .str _ => some (npCls p!"str_")
    | .object => some (npCls p!"object_")
    | .ref | .crec _ _ _ | .comp _ _ _ _ => some (npCls p!"void")
  | .npObj .scalar _ _ => some (npCls p!"object_")
  | .npStruct .ndarray _ _ _ _ => some (npCls p!"ndarray") | .npStruct .matrix _ _ _ _ => some (npCls p!"matrix")
  | .npStruct .chararray _ _ _ _ => some (npCls p!"chararray") | .npStruct .recarray _ _ _ _ => some (npCls p!"recarray")
  | .npStruct .scalar _ _ _ _ => some (npCls p!"void")
  | .seq .list _ => some (pyCls p!"list") | .seq .tuple _ => some (pyCls p!"tuple") | .seq .set _ => some (pyCls p!"set")
  | .seq .frozenset _ => some (pyCls p!"frozenset") | .seq .deque _ => some (collCls p!"deque") | .seq .chainMap _ => some (collCls p!"ChainMap")
  | .dict .dict _ _ => some (pyCls p!"dict") | .dict .orderedDict _ _ => some (collCls p!"OrderedDict") | .dict .counter _ _ => some (collCls p!"Counter")
  | .record .slice _ => some (pyCls p!"slice") | .record .range _ => some (pyCls p!"range")
  | .record .timedelta _ => some (dateCls p!"timedelta") | .record .timezone1 _ | .record .timezone2 _ => some (dateCls p!"timezone")
  | .record .date _ => some (dateCls p!"date") | .record .time _ => some (dateCls p!"time") | .record .datetime _ => some (dateCls p!"datetime")
  | .record .fraction _ => some (.cls p!"fractions" p!"Fraction")
  | .dtypeObj _ => some (npCls p!"dtype")
  | .other => none

/-- The `read` methods of the builtin marshallers, given the decoded `Python.Type` (`Marshallers.py:1150-1512, 1547-1564, 1626-1643, 1687-1707, 1744-1754,
1957-2069, 2083-2099, 2136-2155, 2234-2251, 2292-2303, 2352-2365, 2400-2418, 2452-2465` and `493-510` for the base class).  A type string the marshaller
does not know is not modelled where the method would look it up (it cannot be chosen then). -/
def Builtin.read (b : Builtin) (mu : Nat → Bool) (rd : Rd) (o : COpts) (excl : Option Nat) (ob : Obj) (ts : Option Str) : Res Val :=
  match b with
  | .base => .error .notImplemented
  | .numpyScalarArray => readNp mu rd o excl ob
  | .numpyDtype => do
    match ← readNp mu rd o excl ob with
    | .np c a => do .ok (.dtypeObj (← convertToStr (.np (c == .scalar) a)))
    | _ => .error .typeError
  | .scalar =>
    match ts with
    | some t => do toScalar t (← readNp mu rd o excl ob)
    | none => readNp mu rd o excl ob
  | .string =>
    match ts with
    | some t => do toPyString t (← readNp mu rd o excl ob)
    | none => readNp mu rd o excl ob
  | .noneEllipsis =>
    match ts.bind fun t => dictAt Builtin.noneEllipsis.marshaller.stringToType t with
    | some t =>
      if t = pyCls p!"NoneType" then .ok .none else if t = pyCls p!"ellipsis" then .ok .ellipsis
      else if t = pyCls p!"NotImplementedType" then .ok .notImplemented else .error .other
    | none => .error .keyError
  | .list | .tupleSetDeque | .chainMap =>
    match ts.bind seqKindOf with
    | some k => do toSeq k (← readNp mu rd o excl ob)
    | none => .error .other
  | .dict | .counter =>
    match ts.bind dictKindOf with
    | some k => do
      let it ← readDictItems rd o excl ob
      .ok (.dict k (it.map (·.1)) (it.map (·.2)))
    | none => .error .other
  | .sliceRange | .datetimeObjs | .fraction =>
    match ts.bind recKindOf with
    | some k => do
      let it ← readDictItems rd o excl ob
      buildRecord (if k = .timezone1 ∧ it.length = 2 then .timezone2 else k) it
    | none => .error .other

end HS
