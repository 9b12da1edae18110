import Verif.Model.DtypeStr
/-
The dtypes the round trip of `np.dtype` objects is about.
-/
namespace HS.Spec

/-- A name of a field or a title: any text. -/
def FieldText (s : Str) : Prop := ∀ c ∈ s, c ≤ 0x10FFFF

/-- The number types of numpy (on platforms where `longdouble` has 16 bytes): `dtype.kind`, `dtype.itemsize` and `dtype.name`. -/
def numberTypes : List (Nat × Nat × Str) :=
  [(105, 1, p!"int8"), (105, 2, p!"int16"), (105, 4, p!"int32"), (105, 8, p!"int64"), (117, 1, p!"uint8"), (117, 2, p!"uint16"), (117, 4, p!"uint32"), (117, 8, p!"uint64"),
    (102, 2, p!"float16"), (102, 4, p!"float32"), (102, 8, p!"float64"), (102, 16, p!"float128"), (99, 8, p!"complex64"), (99, 16, p!"complex128"), (99, 32, p!"complex256")]

/-- A dtype without fields as numpy has them: the kinds and sizes of numbers that exist, single bytes without byte order, units made of letters and digits. -/
def ScalarDt : SK → Prop
  | .num k n b => (∃ name, (k, n, name) ∈ numberTypes) ∧ (n = 1 → b = false)
  | .time _ (some u) _ => ∀ c ∈ u, (48 ≤ c ∧ c ≤ 57) ∨ (65 ≤ c ∧ c ≤ 90) ∨ (97 ≤ c ∧ c ≤ 122)
  | _ => True

mutual
/-- A dtype of any nesting: subarrays are not made of subarrays, structured dtypes are not of the type `np.record`, and have titles only if they have no gaps. -/
def PlainDt : NDt → Prop
  | .sc k => ScalarDt k
  | .sub b _ => PlainDt b ∧ ∀ b' sh', b ≠ .sub b' sh'
  | .st isRec fs n => isRec = false ∧ PlainFs fs ∧ (packedFrom 0 fs n = false → NoTitles fs)
/-- Fields. -/
def PlainFs : NFs → Prop
  | .nil => True
  | .cons n t dt _ r => n ≠ [] ∧ FieldText n ∧ (∀ s, t = some s → FieldText s) ∧ PlainDt dt ∧ PlainFs r
/-- No field has a title. -/
def NoTitles : NFs → Prop
  | .nil => True
  | .cons _ t _ _ r => t = none ∧ NoTitles r
end

/-- Characters that `str.isprintable` accepts can be encoded. -/
def PrintOk (pr : Nat → Bool) : Prop := ∀ c, pr c = true → (c < 0xD800 ∨ 0xDFFF < c) ∧ c ≤ 0x10FFFF

end HS.Spec
