import Verif.Model.Val
import Verif.Spec.Strings
import Verif.Model.Conv
import Verif.Model.CoreOpts
import Verif.Spec.Opts
/-
Independent notions for the round trip properties: which values are meant.
-/
namespace HS.Spec

/-- The parts a record is stored in, by the names Python gives them. -/
def recordFields : RecKind → List Str
  | .slice => [p!"start", p!"stop", p!"step"]
  | .range => [p!"start", p!"stop", p!"step"]
  | .timedelta => [p!"days", p!"seconds", p!"microseconds"]
  | .timezone1 => [p!"offset"]
  | .timezone2 => [p!"offset", p!"name"]
  | .date => [p!"year", p!"month", p!"day"]
  | .time => [p!"hour", p!"minute", p!"second", p!"microsecond", p!"tzinfo"]
  | .datetime => [p!"year", p!"month", p!"day", p!"hour", p!"minute", p!"second", p!"microsecond", p!"tzinfo"]
  | .fraction => [p!"numerator", p!"denominator"]

/-- An element fits a dtype: a number for the numeric types (0 or 1 for bool), two parts for the complex ones, `n` units for strings of width `n`. -/
def FitsDT : DT → El → Prop
  | .bool, .num v => v = 0 ∨ v = 1
  | .u8, .num _ | .u16, .num _ | .u32, .num _ | .u64, .num _ | .i8, .num _ | .i16, .num _ | .i32, .num _ | .i64, .num _ => True
  | .f16, .num _ | .f32, .num _ | .f64, .num _ => True
  | .c64, .cplx _ _ | .c128, .cplx _ _ => True
  | .bytes n, .units u => u.length = n
  | .str n, .units u => u.length = n
  | _, _ => False

/-- A numpy array of a numeric, bytes or str dtype: as many elements as the shape says, all of the dtype. -/
structure PlainArr (a : Arr) : Prop where
  size : a.data.length = prodN a.shape
  fits : ∀ e ∈ a.data, FitsDT a.dt e
  plain : a.dt ≠ .object ∧ a.dt ≠ .ref ∧ (∀ r i d, a.dt ≠ .crec r i d) ∧ ∀ o s n t, a.dt ≠ .comp o s n t

/-- Strings in a `U n` array that survive storage: the values are storable (see `Storable`) and one of them has the full width of the dtype, or this is 1
(numpy shrinks the width otherwise, finding F22). -/
def StrsOk (a : Arr) : Prop :=
  ∀ n, a.dt = .str n → 0 < prodN a.shape → ∃ ss, IsStrArray a n ss ∧ (∀ s ∈ ss, Storable s) ∧ (n = 1 ∨ ∃ s ∈ ss, s.length = n)

/-- numpy data in a container (array, matrix, chararray, recarray or scalar) that is expected to survive a round trip:
scalars have no shape and, if strings, no trailing NULs (numpy scalars cannot have any); matrices are two-dimensional, chararrays hold strings,
and string arrays do not have the degenerate width 0. -/
structure GoodNp (c : Cont) (a : Arr) : Prop where
  arr : PlainArr a
  scalar : c = .scalar → a.shape = [] ∧ ∀ u, El.units u ∈ a.data → u.getLast? ≠ some 0
  matrix : c = .matrix → a.shape.length = 2
  chararray : c = .chararray → (∃ n, a.dt = .bytes n) ∨ ∃ n, a.dt = .str n
  width : c ≠ .scalar → a.dt ≠ .bytes 0 ∧ a.dt ≠ .str 0
  strs : StrsOk a

/-- Texts that survive as Python `str`: storable, and no byte order mark in front (finding F6). -/
def GoodText (s : Str) : Prop := Storable s ∧ s.head? ≠ some 0xFEFF

/-- Byte strings that survive: no trailing NUL (numpy drops them). -/
def GoodBytes (b : Bytes) : Prop := b.getLast? ≠ some 0

/-- A dict key that is a string of one of the four string types, and its text. -/
inductive KeyText : Val → Str → Prop
  | str (s : Str) : KeyText (.str s) s
  | bytes (s : Str) (b : Bytes) : utf8Enc s = .ok b → KeyText (.bytes b) s
  | npStr (s : Str) : Scalars s → s.head? ≠ some 0xFEFF → KeyText (.np .scalar (npStr s)) s
  | npBytes (s : Str) (b : Bytes) : utf8Enc s = .ok b → KeyText (.np .scalar (npBytes b)) s

/-- A dict key that is not a string, or bytes that are not UTF-8. -/
def NotTextKey : Val → Prop
  | .str _ => False
  | .bytes b => ∀ s, utf8Enc s ≠ .ok b
  | .np .scalar a =>
    match a.dt with
    | .str _ => False
    | .bytes _ => ∃ b, a = npBytes b ∧ ∀ s, utf8Enc s ≠ .ok b
    | _ => True
  | _ => True

/-- numpy data for which the action for MATLAB incompatible types does not lead to it being dropped. -/
def NotDropped (o : COpts) (dt : DT) : Prop := o.matlab = true → o.action = .discard → dt ≠ .f16

/-- The value is a structured numpy array or scalar, or contains one. -/
inductive HasStruct : Val → Prop
  | here (c : Cont) (shape : List Nat) (names : List Str) (types : List FT) (elems : List Val) : HasStruct (.npStruct c shape names types elems)
  | npObj (c : Cont) (shape : List Nat) (elems : List Val) (e : Val) : e ∈ elems → HasStruct e → HasStruct (.npObj c shape elems)
  | seq (k : SeqKind) (elems : List Val) (e : Val) : e ∈ elems → HasStruct e → HasStruct (.seq k elems)
  | key (k : DictKind) (keys vals : List Val) (e : Val) : e ∈ keys → HasStruct e → HasStruct (.dict k keys vals)
  | val (k : DictKind) (keys vals : List Val) (e : Val) : e ∈ vals → HasStruct e → HasStruct (.dict k keys vals)
  | record (k : RecKind) (vals : List Val) (e : Val) : e ∈ vals → HasStruct e → HasStruct (.record k vals)

/-- Reading with the options `ro` the value `v` written with the options `o`: the order of the dimensions is the same, or the file tells that it was reversed, because
it was written MATLAB compatible and no incompatible numpy types were let through (finding F36); and the option `structs_as_dicts` does not turn structured arrays of a
MATLAB compatible file into dicts.  Nothing else in the options matters. -/
structure ReadableWith (o ro : COpts) (v : Val) : Prop where
  order : ro.reverse = o.reverse ∨ (o.matlab = true ∧ o.action ≠ .ignore)
  structs : o.matlab = true → ro.structsAsDicts = true → ¬ HasStruct v

/-- Complex data needs names of the parts that reading recognises. -/
def CplxOk (o : COpts) (a : Arr) : Prop := a.dt = .c64 ∨ a.dt = .c128 → a.data ≠ [] → CplxNames o

/-- The value is numpy data of this dtype and shape. -/
inductive NumpyOf : Val → FT → Prop
  | np (c : Cont) (a : Arr) : NumpyOf (.np c a) (.base a.dt a.shape)
  | npObj (c : Cont) (s : List Nat) (e : List Val) : NumpyOf (.npObj c s e) (.base .object s)
  | npStruct (c : Cont) (s : List Nat) (n : List Str) (t : List FT) (e : List Val) : NumpyOf (.npStruct c s n t e) (.struct n t s)

/-- The container numpy hands out the value of a field in: a scalar, or an array if the field is a subarray. -/
def InField (sp : List Nat) : Val → Prop
  | .np c _ | .npStruct c _ _ _ _ => c = (if sp = [] then .scalar else .ndarray)
  | .npObj c _ _ => c = .ndarray
  | _ => False

/-- Shape of the subarrays of a field. -/
def subShape : FT → List Nat
  | .base _ sp | .struct _ _ sp => sp

/-- The values of a field of the type survive as such: an object field holds values that are not all numpy data of one dtype and shape (a typed field is made of those),
any other field holds values that have exactly its type (in particular strings have the full width of the field). -/
def FieldOk (t : FT) (col : List Val) : Prop :=
  (t = .base .object [] ∧ ¬ ∃ u, ∀ v ∈ col, NumpyOf v u) ∨ (t ≠ .base .object [] ∧ ∀ v ∈ col, NumpyOf v t ∧ InField (subShape t) v)

/-- The second type is the first one, or the type of a field of it, or of a field of such a field, and so on. -/
inductive Within : FT → FT → Prop
  | self (t : FT) : Within t t
  | field (names : List Str) (types : List FT) (sp : List Nat) (k : Nat) (name : Str) (t u : FT) : names[k]? = some name → types[k]? = some t → Within t u →
      Within (.struct names types sp) u

/-- The name of a field has a NUL, or looks like it when printed (it contains the four characters backslash, x, 0, 0). -/
def NulName (name : Str) : Prop := 0 ∈ name ∨ p!"\\x00" <:+: name

/-- Structured data that HDF5 (or h5py) cannot store as one Dataset: at any depth, there is a field of objects, a name with a NUL or a subarray with no elements. -/
def NeedsGroup (names : List Str) (types : List FT) : Prop :=
  ∃ u, Within (.struct names types []) u ∧ ((∃ sp, u = .base .object sp) ∨ (∃ n t sp m, u = .struct n t sp ∧ m ∈ n ∧ NulName m) ∨ 0 ∈ subShape u)

/-- Each structured type in the type has a name for every field. -/
def AllNamed (t : FT) : Prop := ∀ n ts sp, Within t (.struct n ts sp) → ts.length = n.length

/-- Structured numpy data (not empty, stored field by field in a Group) that is expected to survive: the fields have distinct names that are not empty, and as many values
as the shape says; it is not dropped nor turned into a dict by the options; recarrays have no structured fields. -/
structure GoodStruct (o : COpts) (c : Cont) (shape : List Nat) (names : List Str) (types : List FT) (elems : List Val) : Prop where
  cont : c = .ndarray ∨ (c = .recarray ∧ ∀ t ∈ types, ∃ dt sp, t = .base dt sp) ∨ (c = .matrix ∧ shape.length = 2) ∨ (c = .scalar ∧ shape = [])
  size : 0 < prodN shape
  named : names ≠ [] ∧ [] ∉ names ∧ names.Nodup
  typed : types.length = names.length
  filled : elems.length = names.length * prodN shape
  fields : ∀ (k : Nat) t, types[k]? = some t → FieldOk t ((elems.drop (k * prodN shape)).take (prodN shape))
  group : o.structAsStruct = true ∨ NeedsGroup names types
  kept : o.matlab = true → o.action = .discard → o.structAsStruct = true
  read : o.matlab = true → o.structsAsDicts = false

/-- Two fields `r` and `i` of the same floating point type: to h5py, this is a complex number. -/
def ComplexPair (names : List Str) (types : List FT) : Prop :=
  names = [p!"r", p!"i"] ∧ ∃ d, (d = .f16 ∨ d = .f32 ∨ d = .f64) ∧ types = [.base d [], .base d []]

/-- Values of the fields of structured data that HDF5 can store as they are: a number, bytes (of at most the width of the field), an array of these if the field is a
subarray, or structured data with such fields, nested to any depth. -/
inductive FieldVal : FT → Val → Prop
  | number (dt : DT) (e : El) : (∀ n, dt ≠ .bytes n) → (∀ n, dt ≠ .str n) → FitsDT dt e → FieldVal (.base dt []) (.np .scalar ⟨dt, [], [e]⟩)
  | bytes (n : Nat) (b : Bytes) : b.length ≤ n → GoodBytes b → FieldVal (.base (.bytes n) []) (.np .scalar (npBytes b))
  | array (dt : DT) (sp : List Nat) (data : List El) : (∀ n, dt ≠ .str n) → sp ≠ [] → 0 ∉ sp → data.length = prodN sp → (∀ e ∈ data, FitsDT dt e) →
      FieldVal (.base dt sp) (.np .ndarray ⟨dt, sp, data⟩)
  | struct (c : Cont) (names : List Str) (types : List FT) (sp : List Nat) (elems : List Val) : c = (if sp = [] then .scalar else .ndarray) → (∀ n ∈ names, ¬ NulName n) →
      0 ∉ sp → ¬ ComplexPair names types → types.length = names.length → elems.length = names.length * prodN sp →
      (∀ (k : Nat) t, types[k]? = some t → ∀ v ∈ (elems.drop (k * prodN sp)).take (prodN sp), FieldVal t v) → FieldVal (.struct names types sp) (.npStruct c sp names types elems)

/-- Structured numpy data (not empty) that is stored as one Dataset with a compound type and is expected to survive: the fields have distinct names that are not empty
and have no NUL, and as many values as the shape says, which HDF5 can store; it is not dropped by the options. -/
structure GoodTable (o : COpts) (c : Cont) (shape : List Nat) (names : List Str) (types : List FT) (elems : List Val) : Prop where
  cont : c = .ndarray ∨ (c = .recarray ∧ ∀ t ∈ types, ∃ dt sp, t = .base dt sp) ∨ (c = .matrix ∧ shape.length = 2) ∨ (c = .scalar ∧ shape = [])
  size : 0 < prodN shape
  named : names ≠ [] ∧ [] ∉ names ∧ names.Nodup ∧ ∀ n ∈ names, ¬ NulName n
  typed : types.length = names.length
  filled : elems.length = names.length * prodN shape
  fields : ∀ (k : Nat) t, types[k]? = some t → ∀ v ∈ (elems.drop (k * prodN shape)).take (prodN shape), FieldVal t v
  notComplex : ¬ ComplexPair names types
  table : o.structAsStruct = false
  kept : o.matlab = true → o.action ≠ .discard
  read : o.matlab = true → o.structsAsDicts = false

/-- Values expected to survive a round trip under the given options, nested to any depth. -/
inductive Good (o : COpts) : Val → Prop
  | none : Good o .none
  | ellipsis : Good o .ellipsis
  | notImplemented : Good o .notImplemented
  | bool (b : Bool) : Good o (.bool b)
  | int (v : Int) : Good o (.int v)
  | float (b : Int) : Good o (.float b)
  | complex (a b : Int) : CplxNames o → Good o (.complex a b)
  | str (s : Str) : GoodText s → Good o (.str s)
  | bytes (b : Bytes) : GoodBytes b → Good o (.bytes b)
  | bytearray (b : Bytes) : GoodBytes b → Good o (.bytearray b)
  | np (c : Cont) (a : Arr) : GoodNp c a → NotDropped o a.dt → CplxOk o a → Good o (.np c a)
  | npObj (c : Cont) (shape : List Nat) (elems : List Val) : c = .ndarray ∨ (c = .matrix ∧ shape.length = 2) → elems.length = prodN shape →
      (∀ e ∈ elems, Good o e) → Good o (.npObj c shape elems)
  | seq (k : SeqKind) (elems : List Val) : (k = .chainMap → elems ≠ []) → (∀ e ∈ elems, Good o e) → Good o (.seq k elems)
  | dictText (k : DictKind) (keys vals : List Val) (texts : List Str) : All2 KeyText keys texts → texts.Nodup → vals.length = keys.length →
      (∀ v ∈ vals, Good o v) → Good o (.dict k keys vals)
  | dictAny (k : DictKind) (keys vals : List Val) : (∃ k ∈ keys, NotTextKey k) → KvNames o → vals.length = keys.length → (∀ k ∈ keys, Good o k) →
      (∀ v ∈ vals, Good o v) → Good o (.dict k keys vals)
  | record (k : RecKind) (vals : List Val) : vals.length = (recordFields k).length → (∀ v ∈ vals, Good o v) → Good o (.record k vals)
  | npStruct (c : Cont) (shape : List Nat) (names : List Str) (types : List FT) (elems : List Val) : GoodStruct o c shape names types elems → (∀ e ∈ elems, Good o e) →
      Good o (.npStruct c shape names types elems)
  | npTable (c : Cont) (shape : List Nat) (names : List Str) (types : List FT) (elems : List Val) : GoodTable o c shape names types elems →
      Good o (.npStruct c shape names types elems)
  | dtypeObj (s : Str) : Scalars s → s.getLast? ≠ some 0 → Good o (.dtypeObj s)

end HS.Spec
