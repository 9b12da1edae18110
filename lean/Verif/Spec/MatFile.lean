import Verif.Model.File
/-
What MATLAB expects of the Datasets and Groups in a MAT file of version 7.3 (`/repo/doc/source/storage_format.rst`).
-/
namespace HS.Spec

/-- Which MATLAB classes there are and what HDF5 type their elements have.  Complex data are a compound with the fields 'real' and 'imag'. -/
inductive ClassFits : DT → Str → Prop
  | logical : ClassFits .u8 p!"logical"
  | uint8 : ClassFits .u8 p!"uint8"
  | uint16 : ClassFits .u16 p!"uint16"
  | uint32 : ClassFits .u32 p!"uint32"
  | uint64 : ClassFits .u64 p!"uint64"
  | int8 : ClassFits .i8 p!"int8"
  | int16 : ClassFits .i16 p!"int16"
  | int32 : ClassFits .i32 p!"int32"
  | int64 : ClassFits .i64 p!"int64"
  | single : ClassFits .f32 p!"single"
  | double : ClassFits .f64 p!"double"
  | complexSingle : ClassFits (.crec p!"real" p!"imag" false) p!"single"
  | complexDouble : ClassFits (.crec p!"real" p!"imag" true) p!"double"
  | char16 : ClassFits .u16 p!"char"
  | char32 : ClassFits .u32 p!"char"
  | charBytes (n : Nat) : ClassFits (.bytes (n + 1)) p!"char"
  | cell : ClassFits .ref p!"cell"

/-- Bytes of one character or truth value. -/
def unitSize : DT → Nat
  | .bytes _ => 1
  | dt => dt.itemsize

/-- The attribute MATLAB_int_decode, if there is one, is the number of bytes of an element. -/
def DecodeOk (attrs : List (Str × AVal)) (dt : DT) : Prop :=
  ∀ v, aget attrs p!"MATLAB_int_decode" = some v → v = .int .i64 (unitSize dt)

/-- An array without elements: the Dataset holds its dimensions, at least two and one of them zero, and is marked as empty. -/
structure EmptyOk (attrs : List (Str × AVal)) (a : Arr) : Prop where
  marked : aget attrs p!"MATLAB_empty" = some (.int .u8 1)
  dims : ∃ ds : List Nat, 2 ≤ ds.length ∧ 0 ∈ ds ∧ a = ⟨.u64, [ds.length], ds.map fun (d : Nat) => El.num d⟩
  cls : ∃ c, aget attrs p!"MATLAB_class" = some (.bytes c) ∧ ((∃ dt, ClassFits dt c) ∨ c = p!"struct" ∨ c = p!"canonical empty")
  decode : DecodeOk attrs a.dt

/-- An array with elements: it has at least two dimensions and none of them is zero, it is not marked as empty, and its class is one with elements of this type.
Only the Datasets with the values of a field of a struct array have no class. -/
structure FullOk (attrs : List (Str × AVal)) (a : Arr) : Prop where
  rank : 2 ≤ a.shape.length
  dims : 0 ∉ a.shape
  marked : aget attrs p!"MATLAB_empty" = none
  cls : (∃ c, aget attrs p!"MATLAB_class" = some (.bytes c) ∧ ClassFits a.dt c) ∨ (a.dt = .ref ∧ aget attrs p!"MATLAB_class" = none)
  decode : DecodeOk attrs a.dt

/-- An object as MATLAB expects it.  Groups are structs, or of no class (Groups on the way to something, and objects MATLAB has no type for that are stored as
Groups). -/
def MatObj (ob : Obj) : Prop :=
  match ob.body with
  | .dset a _ => EmptyOk ob.attrs a ∨ FullOk ob.attrs a
  | .group _ => aget ob.attrs p!"MATLAB_class" = none ∨ aget ob.attrs p!"MATLAB_class" = some (.bytes p!"struct")

/-- Every object in the file is as MATLAB expects it. -/
def MatFile (h : Heap) : Prop := ∀ (p : Nat) (ob : Obj), h[p]? = some ob → MatObj ob

/-- `w` is `v` or in it, at any depth. -/
inductive Inside : Val → Val → Prop
  | self (v : Val) : Inside v v
  | npObj (c : Cont) (shape : List Nat) (elems : List Val) (e w : Val) : e ∈ elems → Inside e w → Inside (.npObj c shape elems) w
  | seq (k : SeqKind) (elems : List Val) (e w : Val) : e ∈ elems → Inside e w → Inside (.seq k elems) w
  | key (k : DictKind) (keys vals : List Val) (e w : Val) : e ∈ keys → Inside e w → Inside (.dict k keys vals) w
  | val (k : DictKind) (keys vals : List Val) (e w : Val) : e ∈ vals → Inside e w → Inside (.dict k keys vals) w
  | record (k : RecKind) (vals : List Val) (e w : Val) : e ∈ vals → Inside e w → Inside (.record k vals) w
  | npStruct (c : Cont) (shape : List Nat) (names : List Str) (types : List FT) (elems : List Val) (e w : Val) : e ∈ elems → Inside e w →
      Inside (.npStruct c shape names types elems) w

/-- Values as numpy has them: a scalar has no dimensions, object arrays are `npObj`; and the names of fields can be encoded. -/
structure NumpyOk (v : Val) : Prop where
  scalar : ∀ a, Inside v (.np .scalar a) → a.shape = []
  notObject : ∀ c a, Inside v (.np c a) → a.dt ≠ .object
  names : ∀ c shape names types elems, Inside v (.npStruct c shape names types elems) → ∀ n ∈ names, nameOk n = true

/-- The data written by a method. -/
def written : Op → List Val
  | .writes m => m.map (·.2)
  | .write _ v => [v]
  | _ => []

/-- The class documented for the dtypes of NumPy (`/repo/doc/source/storage_format.rst:181-237`). -/
inductive DtClass : DT → Str → Prop
  | bool : DtClass .bool p!"logical"
  | u8 : DtClass .u8 p!"uint8"
  | u16 : DtClass .u16 p!"uint16"
  | u32 : DtClass .u32 p!"uint32"
  | u64 : DtClass .u64 p!"uint64"
  | i8 : DtClass .i8 p!"int8"
  | i16 : DtClass .i16 p!"int16"
  | i32 : DtClass .i32 p!"int32"
  | i64 : DtClass .i64 p!"int64"
  | f32 : DtClass .f32 p!"single"
  | f64 : DtClass .f64 p!"double"
  | c64 : DtClass .c64 p!"single"
  | c128 : DtClass .c128 p!"double"
  | str (n : Nat) : DtClass (.str n) p!"char"
  | bytes (n : Nat) : DtClass (.bytes n) p!"char"

/-- The class documented for values (the same table; but for the class 'struct' of a Counter, which it is not given). -/
inductive DocClass : Val → Str → Prop
  | none : DocClass .none p!"double"
  | ellipsis : DocClass .ellipsis p!"double"
  | notImplemented : DocClass .notImplemented p!"double"
  | bool (b : Bool) : DocClass (.bool b) p!"logical"
  | int (i : Int) : -9223372036854775808 ≤ i → i < 9223372036854775808 → DocClass (.int i) p!"int64"
  | bigInt (i : Int) : i < -9223372036854775808 ∨ 9223372036854775808 ≤ i → DocClass (.int i) p!"char"
  | float (f : Int) : DocClass (.float f) p!"double"
  | complex (a b : Int) : DocClass (.complex a b) p!"double"
  | str (s : Str) : DocClass (.str s) p!"char"
  | bytes (b : Bytes) : DocClass (.bytes b) p!"char"
  | bytearray (b : Bytes) : DocClass (.bytearray b) p!"char"
  | np (c : Cont) (a : Arr) (cl : Str) : DtClass a.dt cl → DocClass (.np c a) cl
  | npObj (c : Cont) (shape : List Nat) (elems : List Val) : DocClass (.npObj c shape elems) p!"cell"
  | seq (k : SeqKind) (elems : List Val) : DocClass (.seq k elems) p!"cell"
  | dict (keys vals : List Val) : DocClass (.dict .dict keys vals) p!"struct"
  | orderedDict (keys vals : List Val) : DocClass (.dict .orderedDict keys vals) p!"struct"
  | record (k : RecKind) (vals : List Val) : DocClass (.record k vals) p!"struct"
  | npStruct (c : Cont) (shape : List Nat) (names : List Str) (types : List FT) (elems : List Val) : DocClass (.npStruct c shape names types elems) p!"struct"

end HS.Spec
