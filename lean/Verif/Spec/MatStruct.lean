import Verif.Spec.Matlab
import Verif.Model.PathEsc
/-
What structs written by MATLAB look like in a file, and what they mean.
-/
namespace HS.Spec

/-- A struct as MATLAB writes it: a Group with the given members (names in the file and objects) and MATLAB's attributes only; `order` are the names of the fields in
their order, as far as the file tells it. -/
structure MatStruct (ob : Obj) (members : List (Str × Nat)) (order : List Str) : Prop where
  body : ob.body = .group members
  names : (members.map (·.1)).Nodup
  cls : aget ob.attrs p!"MATLAB_class" = some (.bytes p!"struct")
  noType : aget ob.attrs p!"Python.Type" = none
  noUnder : aget ob.attrs p!"Python.numpy.UnderlyingType" = none
  noCont : aget ob.attrs p!"Python.numpy.Container" = none
  noPyFields : aget ob.attrs p!"Python.Fields" = none
  noShape : aget ob.attrs p!"Python.Shape" = none
  notEmpty : ¬ SaysEmpty ob
  order : (aget ob.attrs p!"MATLAB_fields" = none ∧ order = []) ∨
    ∃ bs, aget ob.attrs p!"MATLAB_fields" = some (.fields bs) ∧ (∀ b ∈ bs, ∀ c ∈ b, c < 128) ∧ All2 (fun b nm => unescapePath b = .ok nm) bs order

/-- A struct without elements as MATLAB writes it: a Dataset with the shape `dims` and the names of the fields. -/
structure EmptyStruct (ob : Obj) (dims : List Nat) (order : List Str) : Prop where
  body : ∃ a f, ob.body = .dset a f ∧ a.dt ∈ [DT.u8, .u16, .u32, .u64, .i8, .i16, .i32, .i64] ∧ a.shape = [dims.length] ∧ a.data = dims.map fun (d : Nat) => El.num d
  zero : 0 ∈ dims
  cls : aget ob.attrs p!"MATLAB_class" = some (.bytes p!"struct")
  noType : aget ob.attrs p!"Python.Type" = none
  noUnder : aget ob.attrs p!"Python.numpy.UnderlyingType" = none
  noCont : aget ob.attrs p!"Python.numpy.Container" = none
  noPyFields : aget ob.attrs p!"Python.Fields" = none
  noShape : aget ob.attrs p!"Python.Shape" = none
  empty : SaysEmpty ob
  order : ∃ bs, aget ob.attrs p!"MATLAB_fields" = some (.fields bs) ∧ (∀ b ∈ bs, ∀ c ∈ b, c < 128) ∧ All2 (fun b nm => unescapePath b = .ok nm) bs order

/-- The Group with these members has the field `nm`, stored in the object `q`. -/
def Field (members : List (Str × Nat)) (nm : Str) (q : Nat) : Prop := ∃ e, (e, q) ∈ members ∧ unescapePath e = .ok nm

/-- The names in the file stand for names of fields, different ones for different ones. -/
structure ProperNames (members : List (Str × Nat)) : Prop where
  unescape : ∀ m ∈ members, ∃ nm, unescapePath m.1 = .ok nm
  distinct : ∀ m ∈ members, ∀ m' ∈ members, unescapePath m.1 = unescapePath m'.1 → m.1 = m'.1

/-- `names` are the names of all fields: those in `order`, then the others sorted; numpy takes them (there are some, and none is empty). -/
structure FieldNames (members : List (Str × Nat)) (order names : List Str) : Prop where
  all : ∀ nm, nm ∈ names ↔ ∃ q, Field members nm q
  sorted : ∃ rest, names = order ++ rest ∧ rest.Pairwise (fun a b => strLt a b = true)
  nodup : names.Nodup
  some : names ≠ []
  named : [] ∉ names

/-- The attributes that show that an object holds data itself. -/
def DataAttrs : List Str :=
  [p!"Python.Type", p!"Python.Shape", p!"Python.numpy.UnderlyingType", p!"Python.numpy.Container", p!"Python.Fields", p!"MATLAB_class",
    p!"MATLAB_int_decode", p!"MATLAB_fields"]

/-- The object holds the value of a field itself: it is a Group, or its elements are not references, or it has attributes data have. -/
def HoldsValue (V : View) (q : Nat) : Prop :=
  ∃ ob, V q = some ob ∧ ((∃ l, ob.body = .group l) ∨ ∃ a f, ob.body = .dset a f ∧ (a.dt ≠ .ref ∨ ∃ k ∈ DataAttrs, aget ob.attrs k ≠ none))

/-- The Dataset holds references to the values of a field, one for each element: it has none of the attributes data have. -/
def RefColumn (V : View) (q : Nat) (sh : List Nat) (oids : List Nat) : Prop :=
  ∃ attrs f, V q = some ⟨attrs, .dset ⟨.ref, sh, oids.map El.ref⟩ f⟩ ∧ oids.length = prodN sh ∧
    ∀ k ∈ DataAttrs, aget attrs k = none

/-- The type of a field with these values: the dtype and shape all of them have, or object. -/
def FieldTypeOf (vs : List Val) (t : FT) : Prop :=
  (vs ≠ [] ∧ ∀ v ∈ vs, NumpyOf v t) ∨ (t = .base .object [] ∧ (vs = [] ∨ ¬ ∃ u, ∀ v ∈ vs, NumpyOf v u))

/-- numpy data has as many elements as its shape says, strings have characters. -/
def Sized (v : Val) : Prop :=
  ∀ c a, v = .np c a → a.data.length = prodN a.shape ∧ (∀ n, a.dt = .bytes n ∨ a.dt = .str n → ∀ e ∈ a.data, ∃ u, e = .units u)

/-- What numpy hands out for the value `v` put into a field of the type: an object field has the object itself, others the same data as array or, without a shape,
as scalar; a string without trailing NULs. -/
inductive Handed (t : FT) : Val → Val → Prop
  | object (v : Val) : t = .base .object [] → Handed t v v
  | array (c : Cont) (a : Arr) : t ≠ .base .object [] → a.shape ≠ [] → Handed t (.np c a) (.np .ndarray a)
  | scalar (c : Cont) (a : Arr) : t ≠ .base .object [] → a.shape = [] → (∀ n, a.dt ≠ .bytes n ∧ a.dt ≠ .str n) → Handed t (.np c a) (.np .scalar a)
  | bytes (c : Cont) (n : Nat) (u : Bytes) (k : Nat) : t ≠ .base .object [] → u.getLast? ≠ some 0 →
      Handed t (.np c ⟨.bytes n, [], [.units (u ++ List.replicate k 0)]⟩) (.np .scalar (npBytes u))
  | str (c : Cont) (n : Nat) (u : Str) (k : Nat) : t ≠ .base .object [] → u.getLast? ≠ some 0 →
      Handed t (.np c ⟨.str n, [], [.units (u ++ List.replicate k 0)]⟩) (.np .scalar (npStr u))
  | npObj (c : Cont) (s : List Nat) (e : List Val) : t ≠ .base .object [] → Handed t (.npObj c s e) (.npObj .ndarray s e)
  | npStruct (c : Cont) (s : List Nat) (n : List Str) (u : List FT) (e : List Val) : t ≠ .base .object [] →
      Handed t (.npStruct c s n u e) (.npStruct (if s = [] then .scalar else .ndarray) s n u e)

end HS.Spec
