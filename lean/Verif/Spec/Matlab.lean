import Verif.Spec.Storage
/-
What data written by MATLAB look like in a file, and what they mean.
-/
namespace HS.Spec

/-- An object with MATLAB's attributes only: a class, no field names, nothing of ours. -/
structure MatlabOnly (ob : Obj) (cls : Str) : Prop where
  cls : aget ob.attrs p!"MATLAB_class" = some (.bytes cls) ∧ ∀ c ∈ cls, c < 128
  noType : aget ob.attrs p!"Python.Type" = none
  noUnder : aget ob.attrs p!"Python.numpy.UnderlyingType" = none
  noCont : aget ob.attrs p!"Python.numpy.Container" = none
  noPyFields : aget ob.attrs p!"Python.Fields" = none
  noShape : aget ob.attrs p!"Python.Shape" = none
  noFields : aget ob.attrs p!"MATLAB_fields" = none

/-- The object is a Dataset with these data. -/
def HasData (ob : Obj) (a : Arr) : Prop := ∃ f, ob.body = .dset a f

/-- MATLAB says that the array is empty. -/
def SaysEmpty (ob : Obj) : Prop :=
  (∃ dt, aget ob.attrs p!"MATLAB_empty" = some (.int dt 1)) ∨ aget ob.attrs p!"MATLAB_empty" = some (.u64s [1])

/-- The MATLAB classes of arrays of numbers, and their numpy types. -/
inductive NumberClass : Str → DT → Prop
  | u8 : NumberClass p!"uint8" .u8
  | u16 : NumberClass p!"uint16" .u16
  | u32 : NumberClass p!"uint32" .u32
  | u64 : NumberClass p!"uint64" .u64
  | i8 : NumberClass p!"int8" .i8
  | i16 : NumberClass p!"int16" .i16
  | i32 : NumberClass p!"int32" .i32
  | i64 : NumberClass p!"int64" .i64
  | single : NumberClass p!"single" .f32
  | double : NumberClass p!"double" .f64

/-- All MATLAB classes the package knows, with the numpy type of an empty array of the class. -/
inductive KnownClass : Str → DT → Prop
  | num {c : Str} {dt : DT} : NumberClass c dt → KnownClass c dt
  | logical : KnownClass p!"logical" .bool
  | char : KnownClass p!"char" (.str 1)
  | cell : KnownClass p!"cell" .object
  | struct : KnownClass p!"struct" .object
  | canonicalEmpty : KnownClass p!"canonical empty" .f64

/-- `t` is the list of elements `a`, of an array of shape `sa`, with the order of the dimensions reversed. -/
def ReversedElems {α : Type} (sa : List Nat) (a t : List α) : Prop :=
  a.length = prodN sa ∧ t.length = prodN sa.reverse ∧ ∀ i, IndexOf sa i → t[ravelN sa.reverse i.reverse]? = a[ravelN sa i]?

/-- `t` is the array `a` with the order of the dimensions reversed. -/
def ReversedOf (a t : Arr) : Prop := t.dt = a.dt ∧ t.shape = a.shape.reverse ∧ ReversedElems a.shape a.data t.data

/-- The units of a text in a Dataset of these unsigned integers (UTF-8, UTF-16, UTF-32). -/
def Units (dt : DT) (s : Str) (u : List Nat) : Prop :=
  match dt with
  | .u8 => utf8Enc s = .ok u
  | .u16 => utf16Enc s = .ok u
  | _ => u = s

/-- `t` is a matrix of characters: unsigned integers, the texts `ss` along its last axis (of length `n`), filled up with zeros; the other axes are `rest`. -/
structure TextRows (t : Arr) (rest : List Nat) (n : Nat) (ss : List Str) : Prop where
  dt : t.dt = .u8 ∨ t.dt = .u16 ∨ t.dt = .u32
  shape : t.shape = rest ++ [n]
  pos : 0 < n
  rows : ∃ us : List (List Nat), All2 (Units t.dt) ss us ∧ us.length = prodN rest ∧ (∀ u ∈ us, u.length ≤ n) ∧
    t.data = us.flatMap fun u => (u ++ List.replicate (n - u.length) 0).map fun (x : Nat) => El.num x

end HS.Spec
