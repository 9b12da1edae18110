import Verif.Model.FieldType
/-
The Python values the builtin marshallers know (`/repo/src/hdf5storage/Marshallers.py`, the `types` tuples).
-/
namespace HS

/-- numpy container kinds (`Marshallers.py:1047-1057`). -/
inductive Cont | scalar | ndarray | matrix | chararray | recarray
  deriving DecidableEq, Repr

/-- Sequences written through `PythonListMarshaller` (`Marshallers.py:2317-2465`). -/
inductive SeqKind | list | tuple | set | frozenset | deque | chainMap
  deriving DecidableEq, Repr

/-- Mappings written through `PythonDictMarshaller` as themselves (`Marshallers.py:1757-2100`). -/
inductive DictKind | dict | orderedDict | counter
  deriving DecidableEq, Repr

/-- Objects written as a dict of their parts (`Marshallers.py:2102-2315`).  `timezone1`/`timezone2` are the `datetime.timezone` objects
constructed without and with a name. -/
inductive RecKind | slice | range | timedelta | timezone1 | timezone2 | date | time | datetime | fraction
  deriving DecidableEq, Repr

/-- Python values.  Floats are bit patterns.  Sets are the list of their elements in iteration order; a dict is the lists of its keys and values in
iteration order; a ChainMap is the list of its maps.  `dtypeObj s` is the `np.dtype` whose `convert_dtype_to_str` text is `s`.  `np` with dtype
`object`, `ref` or `crec` is not modelled (`npObj` is an object array).  `npStruct` is a structured array, matrix, recarray or scalar (`np.void`): the names and types
of its fields and the values `x[name]`, as Python sees them, field by field: first those of the first field for all elements in C order, then those of the second
field, and so on.  (In a recarray these are `np.record` objects for fields that are themselves structured, which no marshaller handles.)  `other` is any object no builtin marshaller
handles. -/
inductive Val
  | none | ellipsis | notImplemented
  | bool (b : Bool)
  | int (v : Int)
  | float (bits : Int)
  | complex (re im : Int)
  | str (s : Str)
  | bytes (b : Bytes)
  | bytearray (b : Bytes)
  | np (c : Cont) (a : Arr)
  | npObj (c : Cont) (shape : List Nat) (elems : List Val)
  | seq (k : SeqKind) (elems : List Val)
  | dict (k : DictKind) (keys : List Val) (vals : List Val)
  | record (k : RecKind) (vals : List Val)
  | npStruct (c : Cont) (shape : List Nat) (names : List Str) (types : List FT) (elems : List Val)
  | dtypeObj (s : Str)
  | other
  deriving Inhabited, Repr

mutual
/-- Structural equality as a Boolean, used to make `example`s computable. -/
def Val.beq : Val → Val → Bool
  | .none, .none => true
  | .ellipsis, .ellipsis => true
  | .notImplemented, .notImplemented => true
  | .bool a, .bool b => a == b
  | .int a, .int b => a == b
  | .float a, .float b => a == b
  | .complex a b, .complex c d => a == c && b == d
  | .str a, .str b => a == b
  | .bytes a, .bytes b => a == b
  | .bytearray a, .bytearray b => a == b
  | .np c a, .np d b => c == d && a == b
  | .npObj c s e, .npObj d t f => c == d && s == t && Val.beqL e f
  | .seq k e, .seq l f => k == l && Val.beqL e f
  | .dict k a b, .dict l c d => k == l && Val.beqL a c && Val.beqL b d
  | .record k a, .record l b => k == l && Val.beqL a b
  | .npStruct c s n t e, .npStruct d u m v f => c == d && s == u && n == m && FT.beqL t v && Val.beqL e f
  | .dtypeObj a, .dtypeObj b => a == b
  | .other, .other => true
  | _, _ => false
/-- Elementwise. -/
def Val.beqL : List Val → List Val → Bool
  | [], [] => true
  | a :: r, b :: s => Val.beq a b && Val.beqL r s
  | _, _ => false
end

/-- Type string of a numpy scalar type (`Marshallers.py:598-647`); `none` for dtypes without scalar objects of their own. -/
def DT.scalarTypeString : DT → Option Str
  | .bool => some p!"numpy.bool_"
  | .u8 => some p!"numpy.uint8" | .u16 => some p!"numpy.uint16" | .u32 => some p!"numpy.uint32" | .u64 => some p!"numpy.uint64"
  | .i8 => some p!"numpy.int8" | .i16 => some p!"numpy.int16" | .i32 => some p!"numpy.int32" | .i64 => some p!"numpy.int64"
  | .f16 => some p!"numpy.float16" | .f32 => some p!"numpy.float32" | .f64 => some p!"numpy.float64"
  | .c64 => some p!"numpy.complex64" | .c128 => some p!"numpy.complex128"
  | .bytes _ => some p!"numpy.bytes_" | .str _ => some p!"numpy.str_"
  | .object => some p!"numpy.object_"
  | .ref | .crec _ _ _ | .comp _ _ _ _ => none

/-- `self.get_type_string(data, None)` for numpy data (`Marshallers.py:293-336`, tables `598-647`). -/
def npTypeString (c : Cont) (dt : DT) : Str :=
  match c with
  | .ndarray => p!"numpy.ndarray"
  | .matrix => p!"numpy.matrix"
  | .chararray => p!"numpy.chararray"
  | .recarray => p!"numpy.recarray"
  | .scalar => (dt.scalarTypeString).getD p!"numpy.void"

/-- The values of a structured array, split into those of the fields: `size` for each of `n` fields. -/
def splitCols (size : Nat) : Nat → List Val → List (List Val)
  | 0, _ => []
  | n + 1, l => l.take size :: splitCols size n (l.drop size)

/-- Container names (`Marshallers.py:1047-1057`). -/
def Cont.name : Cont → Str
  | .scalar => p!"scalar" | .ndarray => p!"ndarray" | .matrix => p!"matrix" | .chararray => p!"chararray" | .recarray => p!"recarray"

/-- Type strings (`Marshallers.py:2320-2321`, `2371-2372`, `2424-2425`). -/
def SeqKind.typeString : SeqKind → Str
  | .list => p!"list" | .tuple => p!"tuple" | .set => p!"set" | .frozenset => p!"frozenset"
  | .deque => p!"collections.deque" | .chainMap => p!"collections.ChainMap"

/-- Type strings (`Marshallers.py:1767-1769`, `2076-2077`). -/
def DictKind.typeString : DictKind → Str
  | .dict => p!"dict" | .orderedDict => p!"collections.OrderedDict" | .counter => p!"collections.Counter"

/-- Type strings (`Marshallers.py:2105-2107`, `2165-2178`, `2263-2264`). -/
def RecKind.typeString : RecKind → Str
  | .slice => p!"slice" | .range => p!"range"
  | .timedelta => p!"datetime.timedelta" | .timezone1 | .timezone2 => p!"datetime.timezone"
  | .date => p!"datetime.date" | .time => p!"datetime.time" | .datetime => p!"datetime.datetime"
  | .fraction => p!"fractions.Fraction"

/-- The names the parts are stored under (`Marshallers.py:2132`, `2204-2224`, `2289`). -/
def RecKind.fieldNames : RecKind → List Str
  | .slice | .range => [p!"start", p!"stop", p!"step"]
  | .timedelta => [p!"days", p!"seconds", p!"microseconds"]
  | .timezone1 => [p!"offset"]
  | .timezone2 => [p!"offset", p!"name"]
  | .date => [p!"year", p!"month", p!"day"]
  | .time => [p!"hour", p!"minute", p!"second", p!"microsecond", p!"tzinfo"]
  | .datetime => [p!"year", p!"month", p!"day", p!"hour", p!"minute", p!"second", p!"microsecond", p!"tzinfo"]
  | .fraction => [p!"numerator", p!"denominator"]

end HS
