import Verif.Spec.Dict
import Verif.Spec.MatFile
/-
The attributes documented for the objects in a file (`/repo/doc/source/storage_format.rst:163-430`).  Corrections where the code differs (finding F47): Python.Type of
an int is 'long', of `np.bool_` 'numpy.bool_', Python.dict.StoredAs is 'individually', a Counter has no MATLAB_class.
-/
namespace HS.Spec

/-- `s` is the number in decimal notation: digits, the first one not a zero (but for the number zero). -/
structure IsDecimal (s : Str) (n : Nat) : Prop where
  digits : ∀ c ∈ s, 48 ≤ c ∧ c ≤ 57
  first : s ≠ [] ∧ (s.head? = some 48 → s = [48])
  value : s.foldl (fun a c => 10 * a + (c - 48)) 0 = n

/-- Python.Type of the containers of numpy. -/
def contType : Cont → Option Str
  | .ndarray => some p!"numpy.ndarray" | .matrix => some p!"numpy.matrix" | .chararray => some p!"numpy.chararray" | .recarray => some p!"numpy.recarray"
  | .scalar => none

/-- Python.Type of the scalars of numpy. -/
inductive ScalarType : DT → Str → Prop
  | bool : ScalarType .bool p!"numpy.bool_"
  | u8 : ScalarType .u8 p!"numpy.uint8"
  | u16 : ScalarType .u16 p!"numpy.uint16"
  | u32 : ScalarType .u32 p!"numpy.uint32"
  | u64 : ScalarType .u64 p!"numpy.uint64"
  | i8 : ScalarType .i8 p!"numpy.int8"
  | i16 : ScalarType .i16 p!"numpy.int16"
  | i32 : ScalarType .i32 p!"numpy.int32"
  | i64 : ScalarType .i64 p!"numpy.int64"
  | f16 : ScalarType .f16 p!"numpy.float16"
  | f32 : ScalarType .f32 p!"numpy.float32"
  | f64 : ScalarType .f64 p!"numpy.float64"
  | c64 : ScalarType .c64 p!"numpy.complex64"
  | c128 : ScalarType .c128 p!"numpy.complex128"
  | str (n : Nat) : ScalarType (.str n) p!"numpy.str_"
  | bytes (n : Nat) : ScalarType (.bytes n) p!"numpy.bytes_"

/-- Python.Type of everything. -/
inductive PyType : Val → Str → Prop
  | none : PyType .none p!"builtins.NoneType"
  | ellipsis : PyType .ellipsis p!"builtins.ellipsis"
  | notImplemented : PyType .notImplemented p!"builtins.NotImplementedType"
  | bool (b : Bool) : PyType (.bool b) p!"bool"
  | int (i : Int) : PyType (.int i) p!"long"
  | float (f : Int) : PyType (.float f) p!"float"
  | complex (a b : Int) : PyType (.complex a b) p!"complex"
  | str (s : Str) : PyType (.str s) p!"str"
  | bytes (b : Bytes) : PyType (.bytes b) p!"bytes"
  | bytearray (b : Bytes) : PyType (.bytearray b) p!"bytearray"
  | list (e : List Val) : PyType (.seq .list e) p!"list"
  | tuple (e : List Val) : PyType (.seq .tuple e) p!"tuple"
  | set (e : List Val) : PyType (.seq .set e) p!"set"
  | frozenset (e : List Val) : PyType (.seq .frozenset e) p!"frozenset"
  | deque (e : List Val) : PyType (.seq .deque e) p!"collections.deque"
  | chainMap (e : List Val) : PyType (.seq .chainMap e) p!"collections.ChainMap"
  | dict (a b : List Val) : PyType (.dict .dict a b) p!"dict"
  | orderedDict (a b : List Val) : PyType (.dict .orderedDict a b) p!"collections.OrderedDict"
  | counter (a b : List Val) : PyType (.dict .counter a b) p!"collections.Counter"
  | slice (l : List Val) : PyType (.record .slice l) p!"slice"
  | range (l : List Val) : PyType (.record .range l) p!"range"
  | timedelta (l : List Val) : PyType (.record .timedelta l) p!"datetime.timedelta"
  | timezone1 (l : List Val) : PyType (.record .timezone1 l) p!"datetime.timezone"
  | timezone2 (l : List Val) : PyType (.record .timezone2 l) p!"datetime.timezone"
  | date (l : List Val) : PyType (.record .date l) p!"datetime.date"
  | time (l : List Val) : PyType (.record .time l) p!"datetime.time"
  | datetime (l : List Val) : PyType (.record .datetime l) p!"datetime.datetime"
  | fraction (l : List Val) : PyType (.record .fraction l) p!"fractions.Fraction"
  | dtypeObj (s : Str) : PyType (.dtypeObj s) p!"numpy.dtype"
  | scalar (a : Arr) (t : Str) : ScalarType a.dt t → PyType (.np .scalar a) t
  | array (c : Cont) (a : Arr) (t : Str) : contType c = some t → PyType (.np c a) t
  | objects (c : Cont) (sh : List Nat) (e : List Val) (t : Str) : contType c = some t → PyType (.npObj c sh e) t
  | structured (c : Cont) (sh : List Nat) (n : List Str) (ty : List FT) (e : List Val) (t : Str) : contType c = some t → PyType (.npStruct c sh n ty e) t
  | void (sh : List Nat) (n : List Str) (ty : List FT) (e : List Val) : PyType (.npStruct .scalar sh n ty e) p!"numpy.void"

/-- Names of the dtypes of numpy; text has the number of bits in it, if it is not zero. -/
inductive DtName : DT → Str → Prop
  | bool : DtName .bool p!"bool"
  | u8 : DtName .u8 p!"uint8"
  | u16 : DtName .u16 p!"uint16"
  | u32 : DtName .u32 p!"uint32"
  | u64 : DtName .u64 p!"uint64"
  | i8 : DtName .i8 p!"int8"
  | i16 : DtName .i16 p!"int16"
  | i32 : DtName .i32 p!"int32"
  | i64 : DtName .i64 p!"int64"
  | f16 : DtName .f16 p!"float16"
  | f32 : DtName .f32 p!"float32"
  | f64 : DtName .f64 p!"float64"
  | c64 : DtName .c64 p!"complex64"
  | c128 : DtName .c128 p!"complex128"
  | bytes0 : DtName (.bytes 0) p!"bytes"
  | bytes (n : Nat) (d : Str) : n ≠ 0 → IsDecimal d (8 * n) → DtName (.bytes n) (p!"bytes" ++ d)
  | str0 : DtName (.str 0) p!"str"
  | str (n : Nat) (d : Str) : n ≠ 0 → IsDecimal d (32 * n) → DtName (.str n) (p!"str" ++ d)

/-- What values without parts are as numpy data: container, dtype, shape. -/
inductive AsNumpy : Val → Cont → DT → List Nat → Prop
  | none : AsNumpy .none .ndarray .f64 [0]
  | ellipsis : AsNumpy .ellipsis .ndarray .f64 [0]
  | notImplemented : AsNumpy .notImplemented .ndarray .f64 [0]
  | bool (b : Bool) : AsNumpy (.bool b) .scalar .bool []
  | int (i : Int) : -9223372036854775808 ≤ i → i < 9223372036854775808 → AsNumpy (.int i) .scalar .i64 []
  | bigInt (i : Int) (d : Str) : i ≥ 9223372036854775808 → IsDecimal d i.natAbs → AsNumpy (.int i) .scalar (.bytes d.length) []
  | bigNegInt (i : Int) (d : Str) : i < -9223372036854775808 → IsDecimal d i.natAbs → AsNumpy (.int i) .scalar (.bytes (d.length + 1)) []
  | float (f : Int) : AsNumpy (.float f) .scalar .f64 []
  | complex (a b : Int) : AsNumpy (.complex a b) .scalar .c128 []
  | str (s : Str) : AsNumpy (.str s) .scalar (.str s.length) []
  | bytes (b : Bytes) : AsNumpy (.bytes b) .scalar (.bytes b.length) []
  | bytearray (b : Bytes) : AsNumpy (.bytearray b) .scalar (.bytes b.length) []
  | dtypeObj (s : Str) (b : Bytes) : utf8Enc s = .ok b → AsNumpy (.dtypeObj s) .scalar (.bytes b.length) []
  | np (c : Cont) (a : Arr) : AsNumpy (.np c a) c a.dt a.shape

mutual
/-- Number of bytes of a field of a structured dtype: a dtype with a subarray shape, or structured again. -/
inductive FieldBytes : FT → Nat → Prop
  | base (dt : DT) (sp : List Nat) : FieldBytes (.base dt sp) (prodN sp * dt.itemsize)
  | struct (names : List Str) (types : List FT) (sp : List Nat) (n : Nat) : RowBytes types n → FieldBytes (.struct names types sp) (prodN sp * n)
/-- Number of bytes of the fields together. -/
inductive RowBytes : List FT → Nat → Prop
  | nil : RowBytes [] 0
  | cons (t : FT) (r : List FT) (a b : Nat) : FieldBytes t a → RowBytes r b → RowBytes (t :: r) (a + b)
end

/-- Python.numpy.UnderlyingType: of structured data it is 'void' (of a recarray 'record') with the number of bits. -/
inductive Underlying : Val → Str → Prop
  | plain {v : Val} {c : Cont} {dt : DT} {sh : List Nat} {t : Str} : AsNumpy v c dt sh → DtName dt t → Underlying v t
  | npObj (c : Cont) (sh : List Nat) (e : List Val) : Underlying (.npObj c sh e) p!"object"
  | seq (k : SeqKind) (e : List Val) : Underlying (.seq k e) p!"object"
  | void (c : Cont) (sh : List Nat) (n : List Str) (ty : List FT) (e : List Val) (k : Nat) (d : Str) : c ≠ .recarray → RowBytes ty k → k ≠ 0 → IsDecimal d (8 * k) →
      Underlying (.npStruct c sh n ty e) (p!"void" ++ d)
  | record (sh : List Nat) (n : List Str) (ty : List FT) (e : List Val) (k : Nat) (d : Str) : RowBytes ty k → k ≠ 0 → IsDecimal d (8 * k) →
      Underlying (.npStruct .recarray sh n ty e) (p!"record" ++ d)
  | void0 (c : Cont) (sh : List Nat) (n : List Str) (ty : List FT) (e : List Val) : c ≠ .recarray → RowBytes ty 0 → Underlying (.npStruct c sh n ty e) p!"void"
  | record0 (sh : List Nat) (n : List Str) (ty : List FT) (e : List Val) : RowBytes ty 0 → Underlying (.npStruct .recarray sh n ty e) p!"record"

/-- Container and shape of what is stored as numpy data, also object arrays and structured data. -/
inductive ShapeOf : Val → Cont → List Nat → Prop
  | plain {v : Val} {c : Cont} {dt : DT} {sh : List Nat} : AsNumpy v c dt sh → ShapeOf v c sh
  | npObj (c : Cont) (sh : List Nat) (e : List Val) : ShapeOf (.npObj c sh e) c sh
  | seq (k : SeqKind) (e : List Val) : ShapeOf (.seq k e) .ndarray [e.length]
  | npStruct (c : Cont) (sh : List Nat) (n : List Str) (ty : List FT) (e : List Val) : ShapeOf (.npStruct c sh n ty e) c sh

def contName : Cont → Str
  | .scalar => p!"scalar" | .ndarray => p!"ndarray" | .matrix => p!"matrix" | .chararray => p!"chararray" | .recarray => p!"recarray"

/-- There are no elements, or it is text without characters. -/
inductive NoElements : Val → Prop
  | shape {v : Val} {c : Cont} {sh : List Nat} : ShapeOf v c sh → 0 ∈ sh → NoElements v
  | text {v : Val} {c : Cont} {dt : DT} {sh : List Nat} : AsNumpy v c dt sh → dt = .bytes 0 ∨ dt = .str 0 → NoElements v

/-- MATLAB_class; `np.dtype` objects are stored as text. -/
inductive ClassOf : Val → Str → Prop
  | table {v : Val} {cl : Str} : DocClass v cl → ClassOf v cl
  | dtypeObj (s : Str) : ClassOf (.dtypeObj s) p!"char"

/-- Truth values and text have MATLAB_int_decode. -/
inductive Decodes : Val → Prop
  | mk {v : Val} {c : Cont} {dt : DT} {sh : List Nat} : AsNumpy v c dt sh → (dt = .bool ∨ (∃ n, dt = .bytes n) ∨ ∃ n, dt = .str n) → Decodes v

/-- The names of the fields, escaped: of dicts with string keys and records, and of structured data (which is stored as Group, or has no elements). -/
inductive StoredNames (b : Body) : Val → List Str → Prop
  | fields {v : Val} {texts names : List Str} {vals : List Val} : HasFields v texts vals → All2 (fun t k => escapePath t = .ok k) texts names → StoredNames b v names
  | group (c : Cont) (sh : List Nat) (n : List Str) (ty : List FT) (e : List Val) (l : List (Str × Nat)) (names : List Str) : b = .group l →
      All2 (fun t k => escapePath t = .ok k) n names → StoredNames b (.npStruct c sh n ty e) names
  | empty (c : Cont) (sh : List Nat) (n : List Str) (ty : List FT) (e : List Val) (names : List Str) : 0 ∈ sh →
      All2 (fun t k => escapePath t = .ok k) n names → StoredNames b (.npStruct c sh n ty e) names

/-- One letter for the type of a key. -/
inductive KeyLetter : Val → Nat → Prop
  | str (s : Str) : KeyLetter (.str s) 116
  | bytes (b : Bytes) : KeyLetter (.bytes b) 98
  | npStr (a : Arr) (n : Nat) : a.dt = .str n → KeyLetter (.np .scalar a) 85
  | npBytes (a : Arr) (n : Nat) : a.dt = .bytes n → KeyLetter (.np .scalar a) 83

/-- Letters for the types of the keys; those of the records are all str. -/
inductive KeyLetters : Val → List Nat → Prop
  | dict (k : DictKind) (keys vals : List Val) (l : List Nat) : All2 KeyLetter keys l → KeyLetters (.dict k keys vals) l
  | record (k : RecKind) (vals : List Val) : KeyLetters (.record k vals) ((recordFields k).map fun _ => 116)

/-- The attributes documented for an object, `v` having been stored as `b`: their names and values. -/
inductive DocAttr (o : COpts) (b : Body) (v : Val) : Str → AVal → Prop
  | type {t : Str} : o.pyMeta = true → PyType v t → DocAttr o b v p!"Python.Type" (.bytes t)
  | underlying {t : Str} : o.pyMeta = true → Underlying v t → DocAttr o b v p!"Python.numpy.UnderlyingType" (.bytes t)
  | shape {c : Cont} {sh : List Nat} : o.pyMeta = true → ShapeOf v c sh → DocAttr o b v p!"Python.Shape" (.u64s sh)
  | container {c : Cont} {sh : List Nat} : o.pyMeta = true → ShapeOf v c sh → DocAttr o b v p!"Python.numpy.Container" (.bytes (contName c))
  | empty : o.pyMeta = true → NoElements v → DocAttr o b v p!"Python.Empty" (.int .u8 1)
  | fields {names : List Str} : o.pyMeta = true → StoredNames b v names → DocAttr o b v p!"Python.Fields" (.strs names)
  | individually {texts : List Str} {vals : List Val} : o.pyMeta = true → HasFields v texts vals → DocAttr o b v p!"Python.dict.StoredAs" (.bytes p!"individually")
  | keyTypes {texts : List Str} {vals : List Val} {l : List Nat} : o.pyMeta = true → HasFields v texts vals → KeyLetters v l →
      DocAttr o b v p!"Python.dict.key_str_types" (.bytes l)
  | keysValues {k : DictKind} {keys vals : List Val} : o.pyMeta = true → v = .dict k keys vals → (∃ k ∈ keys, NotTextKey k) →
      DocAttr o b v p!"Python.dict.StoredAs" (.bytes p!"keys_values")
  | keysValuesNames {k : DictKind} {keys vals : List Val} : o.pyMeta = true → v = .dict k keys vals → (∃ k ∈ keys, NotTextKey k) →
      DocAttr o b v p!"Python.dict.keys_values_names" (.strs [o.keysName, o.valuesName])
  | cls {cl : Str} : o.matlab = true → ClassOf v cl → DocAttr o b v p!"MATLAB_class" (.bytes cl)
  | matEmpty : o.matlab = true → NoElements v → DocAttr o b v p!"MATLAB_empty" (.int .u8 1)
  | decode {a : Arr} {f : Filters} : o.matlab = true → Decodes v → b = .dset a f → DocAttr o b v p!"MATLAB_int_decode" (.int .i64 (unitSize a.dt))
  | matFields {names : List Str} : o.matlab = true → StoredNames b v names → (∀ k ∈ names, ∀ c ∈ k, c < 128) → DocAttr o b v p!"MATLAB_fields" (.fields names)

/-- Values the documentation is about: numpy data are of the dtypes in the table, dicts and records have as many values as keys, and a dict's keys are all text or
not all are.  Object arrays are not scalars. -/
inductive Documented : Val → Prop
  | plain {v : Val} {c : Cont} {dt : DT} {sh : List Nat} {t : Str} : AsNumpy v c dt sh → DtName dt t → Documented v
  | npObj (c : Cont) (sh : List Nat) (e : List Val) : c ≠ .scalar → Documented (.npObj c sh e)
  | seq (k : SeqKind) (e : List Val) : Documented (.seq k e)
  | fields {v : Val} {texts : List Str} {vals : List Val} : HasFields v texts vals → Documented v
  | dict (k : DictKind) (keys vals : List Val) : (∃ k ∈ keys, NotTextKey k) → Documented (.dict k keys vals)
  | npStruct (c : Cont) (sh : List Nat) (n : List Str) (ty : List FT) (e : List Val) : Documented (.npStruct c sh n ty e)

end HS.Spec
