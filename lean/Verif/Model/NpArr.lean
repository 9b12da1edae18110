import Verif.Model.Array
import Verif.Model.Unicode
/-
numpy dtypes, elements and non-object arrays.
-/
namespace HS

mutual
/-- numpy dtypes the model covers.  `crec` is the two-field structured dtype made by `encode_complex` (the `Bool` says whether the
parts are float64).  Object arrays hold Python values and are treated separately; `ref` is h5py's reference dtype.  `comp` is the type of a compound Dataset made for a
structured array: its size and the names and types of its fields; `other` says that h5py shows the type as another one (`comp` occurs only as the dtype of Datasets; the
elements of such a Dataset are kept field by field, see `flatVals`). -/
inductive DT
  | bool | u8 | u16 | u32 | u64 | i8 | i16 | i32 | i64 | f16 | f32 | f64 | c64 | c128
  | bytes (n : Nat) | str (n : Nat) | object | ref
  | crec (re im : Str) (dbl : Bool)
  | comp (other : Bool) (size : Nat) (names : List Str) (types : List FT)
/-- Type of a field as numpy lists it, `(name, dtype, shape)` (`/repo/src/hdf5storage/Marshallers.py:1255-1291` builds such lists): a plain dtype or a
structured one, with the shape of the subarray (`[]` if the field is not a subarray). -/
inductive FT
  | base (dt : DT) (sp : List Nat)
  | struct (names : List Str) (types : List FT) (sp : List Nat)
end

deriving instance Repr for DT, FT

instance : Inhabited DT := ⟨.bool⟩
instance : Inhabited FT := ⟨.base .bool []⟩

mutual
/-- Equality of dtypes as a Boolean. -/
def DT.eqb : DT → DT → Bool
  | .bool, .bool | .u8, .u8 | .u16, .u16 | .u32, .u32 | .u64, .u64 | .i8, .i8 | .i16, .i16 | .i32, .i32 | .i64, .i64 => true
  | .f16, .f16 | .f32, .f32 | .f64, .f64 | .c64, .c64 | .c128, .c128 | .object, .object | .ref, .ref => true
  | .bytes a, .bytes b | .str a, .str b => a == b
  | .crec a b c, .crec d e f => a == d && b == e && c == f
  | .comp a b c d, .comp e f g h => a == e && b == f && c == g && FT.beqL d h
  | _, _ => false
/-- Structural equality as a Boolean. -/
def FT.beq : FT → FT → Bool
  | .base a s, .base b t => DT.eqb a b && s == t
  | .struct n a s, .struct m b t => n == m && FT.beqL a b && s == t
  | _, _ => false
/-- Elementwise. -/
def FT.beqL : List FT → List FT → Bool
  | [], [] => true
  | a :: r, b :: s => FT.beq a b && FT.beqL r s
  | _, _ => false
end

mutual
theorem DT.eq_of_eqb : ∀ a b : DT, DT.eqb a b = true → a = b
  | .comp a b c d, y, h => by
    cases y with
    | comp e f g i =>
      simp only [DT.eqb, Bool.and_eq_true, beq_iff_eq] at h
      rw [h.1.1.1, h.1.1.2, h.1.2, FT.eq_of_beqL d i h.2]
    | _ => simp [DT.eqb] at h
  | .bool, y, h => by cases y <;> simp_all [DT.eqb]
  | .u8, y, h => by cases y <;> simp_all [DT.eqb]
  | .u16, y, h => by cases y <;> simp_all [DT.eqb]
  | .u32, y, h => by cases y <;> simp_all [DT.eqb]
  | .u64, y, h => by cases y <;> simp_all [DT.eqb]
  | .i8, y, h => by cases y <;> simp_all [DT.eqb]
  | .i16, y, h => by cases y <;> simp_all [DT.eqb]
  | .i32, y, h => by cases y <;> simp_all [DT.eqb]
  | .i64, y, h => by cases y <;> simp_all [DT.eqb]
  | .f16, y, h => by cases y <;> simp_all [DT.eqb]
  | .f32, y, h => by cases y <;> simp_all [DT.eqb]
  | .f64, y, h => by cases y <;> simp_all [DT.eqb]
  | .c64, y, h => by cases y <;> simp_all [DT.eqb]
  | .c128, y, h => by cases y <;> simp_all [DT.eqb]
  | .object, y, h => by cases y <;> simp_all [DT.eqb]
  | .ref, y, h => by cases y <;> simp_all [DT.eqb]
  | .bytes _, y, h => by cases y <;> simp_all [DT.eqb]
  | .str _, y, h => by cases y <;> simp_all [DT.eqb]
  | .crec _ _ _, y, h => by cases y <;> simp_all [DT.eqb]
theorem FT.eq_of_beq : ∀ a b : FT, FT.beq a b = true → a = b
  | .base d s, b, h => by
    cases b with
    | base e t =>
      simp only [FT.beq, Bool.and_eq_true, beq_iff_eq] at h
      rw [DT.eq_of_eqb d e h.1, h.2]
    | struct _ _ _ => simp [FT.beq] at h
  | .struct n a s, b, h => by
    cases b with
    | base _ _ => simp [FT.beq] at h
    | struct m c t =>
      simp only [FT.beq, Bool.and_eq_true, beq_iff_eq] at h
      rw [h.1.1, FT.eq_of_beqL a c h.1.2, h.2]
theorem FT.eq_of_beqL : ∀ a b : List FT, FT.beqL a b = true → a = b
  | [], b, h => by cases b <;> simp_all [FT.beqL]
  | a :: l, b, h => by
    cases b with
    | nil => simp [FT.beqL] at h
    | cons c m =>
      simp only [FT.beqL, Bool.and_eq_true] at h
      rw [FT.eq_of_beq a c h.1, FT.eq_of_beqL l m h.2]
end

mutual
theorem DT.eqb_refl : ∀ a : DT, DT.eqb a a = true
  | .comp a b c d => by simp [DT.eqb, FT.beqL_refl d]
  | .bool | .u8 | .u16 | .u32 | .u64 | .i8 | .i16 | .i32 | .i64 | .f16 | .f32 | .f64 | .c64 | .c128 | .object | .ref => rfl
  | .bytes _ | .str _ | .crec _ _ _ => by simp [DT.eqb]
theorem FT.beq_refl : ∀ a : FT, FT.beq a a = true
  | .base d _ => by simp [FT.beq, DT.eqb_refl d]
  | .struct _ a _ => by simp [FT.beq, FT.beqL_refl a]
theorem FT.beqL_refl : ∀ a : List FT, FT.beqL a a = true
  | [] => rfl
  | a :: l => by simp [FT.beqL, FT.beq_refl a, FT.beqL_refl l]
end

instance : DecidableEq DT := fun a b =>
  if h : DT.eqb a b = true then .isTrue (DT.eq_of_eqb a b h) else .isFalse fun e => h (e ▸ DT.eqb_refl a)

instance : DecidableEq FT := fun a b =>
  if h : FT.beq a b = true then .isTrue (FT.eq_of_beq a b h) else .isFalse fun e => h (e ▸ FT.beq_refl a)

/-- Elements.  Integers and bools by value, floats by bit pattern, complex by two bit patterns, `S n`/`U n` elements as all their
`n` bytes / code points (padding NULs included), references by object. -/
inductive El
  | num (v : Int)
  | cplx (re im : Int)
  | units (u : List Nat)
  | ref (oid : Nat)
  deriving DecidableEq, Repr, Inhabited

/-- An array (not of dtype object): elements in C order. -/
structure Arr where
  dt : DT
  shape : List Nat
  data : List El
  deriving DecidableEq, Repr

/-- Worker of `decDigits`; the first argument only bounds the recursion. -/
def decGo : Nat → Nat → Str
  | 0, n => [48 + n % 10]
  | f + 1, n => if n < 10 then [48 + n] else decGo f (n / 10) ++ [48 + n % 10]

/-- Decimal digits of a natural number, as `str(n)`. -/
def decDigits (n : Nat) : Str := decGo n n

/-- `int(s)` for a string of decimal digits; `ValueError` otherwise (signs, blanks and underscores, which Python also accepts, are handled
by the callers or never occur). -/
def natOfDec (s : Str) : Res Nat :=
  if s.isEmpty || !s.all (fun c => 48 ≤ c && c ≤ 57) then .error .valueError
  else .ok (s.foldl (fun a c => 10 * a + (c - 48)) 0)

/-- `dtype.name`. Bytes and str types carry their width in bits, except for width 0. -/
def DT.name : DT → Str
  | .bool => p!"bool" | .u8 => p!"uint8" | .u16 => p!"uint16" | .u32 => p!"uint32" | .u64 => p!"uint64"
  | .i8 => p!"int8" | .i16 => p!"int16" | .i32 => p!"int32" | .i64 => p!"int64"
  | .f16 => p!"float16" | .f32 => p!"float32" | .f64 => p!"float64" | .c64 => p!"complex64" | .c128 => p!"complex128"
  | .bytes 0 => p!"bytes" | .bytes (n + 1) => p!"bytes" ++ decDigits (8 * (n + 1))
  | .str 0 => p!"str" | .str (n + 1) => p!"str" ++ decDigits (32 * (n + 1))
  | .object => p!"object" | .ref => p!"object"
  | .crec _ _ true => p!"void128" | .crec _ _ false => p!"void64"
  | .comp _ 0 _ _ => p!"void" | .comp _ (n + 1) _ _ => p!"void" ++ decDigits (8 * (n + 1))

/-- `dtype.itemsize`. -/
def DT.itemsize : DT → Nat
  | .bool | .u8 | .i8 => 1
  | .u16 | .i16 | .f16 => 2
  | .u32 | .i32 | .f32 => 4
  | .u64 | .i64 | .f64 | .c64 | .object | .ref => 8
  | .c128 => 16
  | .bytes n => n
  | .str n => 4 * n
  | .crec _ _ true => 16 | .crec _ _ false => 8
  | .comp _ n _ _ => n

/-- `a.size`. -/
def Arr.size (a : Arr) : Nat := prodN a.shape
/-- `a.nbytes`. -/
def Arr.nbytes (a : Arr) : Nat := prodN a.shape * a.dt.itemsize

/-- `a.T`. -/
def Arr.T (a : Arr) : Arr := { a with shape := a.shape.reverse, data := transposeData a.shape a.data }

/-- `np.atleast_2d(a)`. -/
def Arr.atleast2d (a : Arr) : Arr := { a with shape := atleast2dShape a.shape }

/-- Elements of `np.zeros(shape, dtype)`. -/
def zeroEl : DT → El
  | .c64 | .c128 | .crec _ _ _ => .cplx 0 0
  | .bytes n | .str n => .units (List.replicate n 0)
  | _ => .num 0

/-- `np.zeros(shape, dtype=dt)`. -/
def npZeros (dt : DT) (shape : List Nat) : Arr := ⟨dt, shape, List.replicate (prodN shape) (zeroEl dt)⟩

/-- Integer value of an element (0 for other kinds; only used on integer arrays). -/
def El.toNat : El → Nat
  | .num v => v.toNat
  | _ => 0
/-- Units of an element (only used on `S`/`U` arrays). -/
def El.toUnits : El → List Nat
  | .units u => u
  | _ => []

end HS
