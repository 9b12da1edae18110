import Verif.Model.NpWrite
/-
Arrays as they lie in memory, with strides and byte order, and the functions of `/repo/src/hdf5storage/utilities.py:688-1178` and the step of
`/repo/src/hdf5storage/Marshallers.py:745-756` that look at the bytes.  The other models treat arrays as their elements in C order.

`mach` is the byte order of the machine: `sys.byteorder == "big"`.
-/
namespace HS

/-- A numpy array: memory, address of the first element, strides, shape, dtype and whether its byte order is big-endian (of no meaning for uint8 and bytes). -/
structure MArr where
  byte : Int → Nat
  addr : Int
  strides : List Int
  shape : List Nat
  dt : DT
  big : Bool

/-- The number the bytes are in that byte order. -/
def wordOf (big : Bool) (b : Bytes) : Nat := (if big then b else b.reverse).foldl (fun a c => a * 256 + c) 0

/-- The bytes of a number of 16 bits in that byte order. -/
def bytes16 (big : Bool) (u : Nat) : Bytes := if big then be16 u else (be16 u).reverse

/-- The element the bytes are.  Only for uint8, uint16, uint32, bytes and str. -/
def elOf (dt : DT) (big : Bool) (b : Bytes) : El :=
  match dt with
  | .bytes _ => .units b
  | .str n => .units ((chunksN 4 n b).map (wordOf big))
  | _ => .num (wordOf big b)

/-- Scalar product of strides and index. -/
def dotS : List Int → List Nat → Int
  | s :: t, i :: r => s * i + dotS t r
  | _, _ => 0

/-- The bytes of the element with this index. -/
def MArr.bytesAt (m : MArr) (ix : List Nat) : Bytes := (List.range m.dt.itemsize).map fun (i : Nat) => m.byte (m.addr + dotS m.strides ix + i)

/-- The elements of the array in C order: what the other models call the array. -/
def MArr.values (m : MArr) : Arr := ⟨m.dt, m.shape, (indicesN m.shape).map fun ix => elOf m.dt m.big (m.bytesAt ix)⟩

/-- `m.tobytes()`: the bytes of the elements in C order. -/
def MArr.tobytes (m : MArr) : Bytes := (indicesN m.shape).flatMap m.bytesAt

/-- `m.nbytes`. -/
def MArr.nbytes (m : MArr) : Nat := prodN m.shape * m.dt.itemsize

/-- Strides of a C contiguous array. -/
def cStrides (item : Nat) : List Nat → List Int
  | [] => []
  | _ :: r => ((item * prodN r : Nat) : Int) :: cStrides item r

/-- A C contiguous array with these bytes: `np.ndarray(shape=shape, dtype=dt, buffer=l)`. -/
def contiguous (l : Bytes) (shape : List Nat) (dt : DT) (big : Bool) : MArr := ⟨fun p => l.getD p.toNat 0, 0, cStrides dt.itemsize shape, shape, dt, big⟩

/-- `s.encode("UTF-16LE")` or `s.encode("UTF-16BE")`. -/
def utf16Bytes (big : Bool) (s : Str) : Res Bytes := do .ok ((← utf16Enc s).flatMap (bytes16 big))

/-- `convert_numpy_str_to_uint16(data)` (`utilities.py:721-739`).  `np.char.encode` gives a C contiguous array of `S w`, `w` at least 1. -/
def memUint16 (mach : Bool) (m : MArr) : Res MArr :=
  if m.nbytes = 0 then .ok (contiguous [] [0] .u16 mach)
  else do
    let enc ← m.values.data.mapM fun e => utf16Bytes mach (stripNul e.toUnits)
    let w := (enc.map List.length).foldl max 1
    .ok (contiguous (enc.flatMap fun b => b ++ List.replicate (w - b.length) 0) (mulLast (w / 2) (atleast1dShape m.shape)) .u16 mach)

/-- `convert_numpy_str_to_uint32(data)` (`utilities.py:767-779`): `data.ravel()` is C contiguous and of the byte order of `data`, `np.uint32` has that of the machine. -/
def memUint32 (mach : Bool) (m : MArr) : MArr :=
  if m.nbytes = 0 then contiguous [] [0] .u32 mach
  else contiguous m.tobytes (mulLast (m.dt.itemsize / 4) (atleast1dShape m.shape)) .u32 mach

/-- Conversion of str to UTF-16 or UTF-32 units (`Marshallers.py:769-788`); `sc` says that the data is a `np.str_` scalar (see `strStep`). -/
def memStrStep (o : COpts) (mach sc : Bool) (m : MArr) : Res MArr :=
  match m.dt with
  | .str n =>
    match (if o.str16 then (memUint16 mach m).toOption else none) with
    | none => .ok (memUint32 mach m)
    | some b =>
      if sc then .ok (if n ≠ b.shape.headD 0 then memUint32 mach m else b)
      else if m.shape.isEmpty then .error .indexError
      else .ok (if b.shape.getLastD 0 ≠ m.shape.getLastD 0 * n then memUint32 mach m else b)
  | _ => .ok m

/-- Replace the last one. -/
def setLast (k : Int) : List Int → List Int
  | [] => []
  | [_] => [k]
  | s :: t => s :: setLast k t

/-- `m.view(np.uint8)` (numpy 1.23 and later): `ValueError` without dimensions or if the last axis is not contiguous. -/
def viewU8 (m : MArr) : Res MArr :=
  if m.shape = [] then .error .valueError
  else if m.shape.getLastD 0 ≠ 1 ∧ prodN m.shape ≠ 0 ∧ m.strides.getLastD 0 ≠ m.dt.itemsize then .error .valueError
  else .ok { m with shape := mulLast m.dt.itemsize m.shape, strides := setLast 1 m.strides, dt := .u8 }

/-- `np.atleast_1d(m)`. -/
def atleast1dM (m : MArr) : MArr := if m.shape = [] then { m with shape := [1], strides := [(m.dt.itemsize : Int)] } else m

/-- Conversion of bytes to UTF-16 (`Marshallers.py:746-756`), `convert_numpy_bytes_to_utf16` being set.  `astype` gives a new array of the byte order of the machine. -/
def memBytesStep (mach : Bool) (m : MArr) : Res MArr :=
  if m.nbytes = 0 then .ok (contiguous [] [0] .u16 mach)
  else do
    let v ← viewU8 (atleast1dM m)
    let u := v.values.data.map El.toNat
    .ok (if u.all (· < 128) then contiguous (u.flatMap (bytes16 mach)) v.shape .u16 mach else m)

/-- `convert_to_str(data)` for numpy data (`utilities.py:833-851`): "UTF-16" and "UTF-32" mean the byte order of the machine unless there is a byte order mark. -/
def memToStr (mach : Bool) (m : MArr) : Res Str :=
  match m.dt with
  | .u8 => utf8Dec m.tobytes
  | .u16 => utf16BomDec ((chunksN 2 (m.tobytes.length / 2) m.tobytes).map (wordOf mach))
  | .u32 => utf32BomDec ((chunksN 4 (m.tobytes.length / 4) m.tobytes).map (wordOf mach))
  | .bytes 0 => .ok []
  | .bytes _ => utf8Dec m.tobytes
  | .str 0 => .ok []
  | .str _ => utf32BomDec ((chunksN 4 (m.tobytes.length / 4) m.tobytes).map (wordOf mach))
  | _ => .error .typeError

/-- `dtype.byteorder` (numpy writes the order of the machine as `=`). -/
inductive BO
  | native | little | big | none
  deriving DecidableEq, Repr

/-- `m.dtype.byteorder`. -/
def MArr.byteorder (mach : Bool) (m : MArr) : BO :=
  match m.dt with
  | .u8 | .bytes _ => .none
  | _ => if m.big = mach then .native else if m.big then .big else .little

/-- `m.byteswap()` on the bytes of an array with elements of `k` bytes. -/
def swapEach (k cnt : Nat) (l : Bytes) : Bytes := (chunksN k cnt l).flatMap List.reverse

/-- The uint array case of `convert_to_numpy_str` for at least one-dimensional arrays (`utilities.py:949-1009`); the result by its elements (it is a new array). -/
def memUintsToStr (mach : Bool) (m : MArr) (length : Option Nat) : Res Arr :=
  let len := length.getD (m.shape.getLastD 0)
  if len = 0 then .error .other
  else
    let swapbytes := m.dt ≠ .u8 ∧ (m.byteorder mach = .little ∨ (mach = false ∧ m.byteorder mach = .native))
    let l := if swapbytes then swapEach m.dt.itemsize (prodN m.shape) m.tobytes else m.tobytes
    if m.shape.getLastD 0 % len ≠ 0 then .error .valueError
    else do
      let ss ← (chunksN (len * m.dt.itemsize) (prodN m.shape / len) l).mapM fun b =>
        match m.dt with
        | .u8 => utf8Dec (stripNul b)
        | .u16 => decU16BE (stripNul b)
        | _ => decU32BE (stripNul b)
      .ok (mkStrArr (divLast len m.shape) ss)

/-- Is the array C contiguous (numpy's flag)? -/
def contigGo (item : Nat) : List Nat → List Int → Bool
  | d :: r, s :: t => (d == 1 || s == ((item * prodN r : Nat) : Int)) && contigGo item r t
  | _, _ => true

/-- `m.flags.c_contiguous`. -/
def MArr.cContig (m : MArr) : Bool := prodN m.shape == 0 || contigGo m.dt.itemsize m.shape m.strides

/-- The uint8 array case of `convert_to_numpy_bytes` for at least one-dimensional arrays (`utilities.py:1134-1157`): the array itself is the buffer of the new one, which
numpy refuses (`ValueError`) if it is not C contiguous. -/
def memUint8ToBytes (m : MArr) (length : Option Nat) : Res MArr :=
  let len := length.getD (m.shape.getLastD 0)
  if len = 0 then .error .other
  else
    let shp := if length.isNone && m.shape.length = 1 then m.shape else divLast len m.shape
    if m.cContig = false then .error .valueError
    else if prodN m.shape < prodN shp * len then .error .typeError
    else .ok { m with shape := shp, strides := cStrides len shp, dt := .bytes len }

/-- The uint16 and uint32 array case of `convert_to_numpy_bytes` for at least one-dimensional arrays (`utilities.py:1134-1178`). -/
def memUintsToBytes (mach : Bool) (m : MArr) (length : Option Nat) : Res Arr :=
  let len := length.getD (m.shape.getLastD 0)
  if len = 0 then .error .other
  else do
    let shp := if length.isNone && m.shape.length = 1 then m.shape else divLast len m.shape
    let bs ← (chunksN (len * m.dt.itemsize) (prodN shp) m.tobytes).mapM fun b => do
      utf8Enc (← memToStr mach (contiguous b [b.length / m.dt.itemsize] m.dt m.big))
    .ok (mkBytesArr len shp bs)

end HS
