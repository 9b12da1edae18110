import Verif.Spec.File
/-
Independent notions about how data are stored.
-/
namespace HS.Spec

/-- `f.write(v, p)` (or `f[p] = v`) succeeded, whatever was at `p` before: `F` is a file opened for writing in any state it can be in, `p` is not the root
Group, and `F'` is the file afterwards. -/
structure Wrote (x : Ctx) (n : Nat) (F : FileS) (p : PathArg) (ns : List Str) (v : Val) (F' : FileS) : Prop where
  refs : RefsPathOk x.o
  reach : Reach x F
  rw : F.ro = false
  addr : Addr p ns
  notRoot : ns ≠ []
  ok : fileWrite x n p v F = (.ok (), F')

/-- A Dataset with this data and these filters is at the place with these names. -/
def DsetAt (h : Heap) (ns : List Str) (b : Arr) (f : Filters) : Prop := ∃ q attrs, LPath h ns q ∧ h[q]? = some ⟨attrs, .dset b f⟩

/-- Size in bytes of the data of a Dataset.  (Byte strings of width 0 take no bytes, but HDF5 has no such type and width 1 is stored.) -/
def DataSize (b : Arr) (sz : Nat) : Prop := sz = prodN b.shape * b.dt.itemsize ∨ (b.dt = .bytes 1 ∧ sz = 0)

/-- A Dataset of this shape and size in bytes is to be compressed: the option is on, it is not a scalar and not smaller than the threshold. -/
def ToCompress (o : COpts) (shape : List Nat) (sz : Nat) : Prop := o.compress = true ∧ shape ≠ [] ∧ o.threshold ≤ sz

/-- The filters the options ask for. -/
structure AsAsked (o : COpts) (shape : List Nat) (sz : Nat) (f : Filters) : Prop where
  compressed : ToCompress o shape sz → f.compression = some o.algorithm ∧ f.shuffle = o.shuffle ∧ f.fletcher32 = o.fletcherC ∧
    f.opts = some (if o.algorithm = p!"gzip" then some o.gzipLevel else none)
  plain : ¬ ToCompress o shape sz → f.compression = none ∧ f.opts = some none ∧ f.shuffle = false ∧ (f.fletcher32 = true ↔ shape ≠ [] ∧ o.fletcherU = true)

/-- Chunked exactly if a filter needs it. -/
def ChunkedAsNeeded (f : Filters) : Prop := f.chunks = true ↔ f.compression.isSome = true ∨ f.fletcher32 = true

/-- The canonical empty in the references Group: two zeros, no filters. -/
def CanonicalEmpty (b : Arr) (f : Filters) : Prop := b = ⟨.u64, [2], [.num 0, .num 0]⟩ ∧ f = ⟨none, some none, false, false, false⟩

/-- With `make_atleast_2d` a scalar is stored as 1x1 and one-dimensional data as a row (also if `oned_as` is 'column', finding F2). -/
def RowShape (o : COpts) (shape : List Nat) : List Nat :=
  if o.atleast2d then match shape with
    | [] => [1, 1]
    | [n] => [1, n]
    | l => l
  else shape

/-- The dtype of the Dataset for numeric data: bools as uint8 if asked for, complex numbers as compounds with the chosen names (which h5py takes for its own
complex type if they are 'r' and 'i'; numpy calls a field without name by its position). -/
inductive StoredDT (o : COpts) : DT → DT → Prop
  | bool : StoredDT o .bool (if o.boolsU8 then .u8 else .bool)
  | c64 (r i : Str) : (r = o.complexNames.1 ∨ o.complexNames.1 = []) → (i = o.complexNames.2 ∨ o.complexNames.2 = []) →
      StoredDT o .c64 (if r = p!"r" ∧ i = p!"i" then .c64 else .crec r i false)
  | c128 (r i : Str) : (r = o.complexNames.1 ∨ o.complexNames.1 = []) → (i = o.complexNames.2 ∨ o.complexNames.2 = []) →
      StoredDT o .c128 (if r = p!"r" ∧ i = p!"i" then .c128 else .crec r i true)
  | same (d : DT) : d ∉ [.bool, .c64, .c128] → StoredDT o d d

/-- An index tuple for the shape. -/
def IndexOf (shape i : List Nat) : Prop := i.length = shape.length ∧ ∀ k, k < shape.length → i.getD k 0 < shape.getD k 0

/-- The Dataset's data `b` are the array `a`: dtype, shape (reversed with `reverse_dimension_order`) and every element. -/
structure HoldsArray (o : COpts) (a b : Arr) : Prop where
  dt : StoredDT o a.dt b.dt
  shape : b.shape = if o.reverse then (RowShape o a.shape).reverse else RowShape o a.shape
  count : b.data.length = prodN b.shape
  elems : ∀ i, IndexOf (RowShape o a.shape) i →
    b.data[ravelN b.shape (if o.reverse then i.reverse else i)]? = a.data[ravelN (RowShape o a.shape) i]?

/-- The Dataset's data are the shape of `a` (in the order of `a`, not reversed) as uint64. -/
def HoldsShape (o : COpts) (a b : Arr) : Prop :=
  b = ⟨.u64, [(RowShape o a.shape).length], (RowShape o a.shape).map fun d => .num (Int.ofNat d)⟩

/-- Numeric, bool or complex data of dtype `dt`. -/
def NumericDT (dt : DT) : Prop := dt ∈ [.bool, .u8, .u16, .u32, .u64, .i8, .i16, .i32, .i64, .f16, .f32, .f64, .c64, .c128]

end HS.Spec
