import Verif.Model.NpArr
/-
String conversions: `/repo/src/hdf5storage/utilities.py:688-1185`.
-/
namespace HS

/-- `convert_numpy_str_to_uint16(data)` (`utilities.py:688-739`) on a `U n` scalar or array.  `np.char.encode` works on the elements
with trailing NULs dropped and makes an `S` array as wide as the longest result; the raw buffer is then viewed as uint16. -/
def convertNumpyStrToUint16 (a : Arr) : Res Arr :=
  if a.nbytes = 0 then .ok (npZeros .u16 [0])
  else do
    let enc ← a.data.mapM fun e => utf16Enc (stripNul e.toUnits)
    let w := (enc.map List.length).foldl max 0
    .ok { dt := .u16, shape := mulLast w (atleast1dShape a.shape),
          data := enc.flatMap fun u => (u ++ List.replicate (w - u.length) 0).map fun (x : Nat) => El.num x }

/-- `convert_numpy_str_to_uint32(data)` (`utilities.py:742-779`): the raw UTF-32 buffer viewed as uint32. -/
def convertNumpyStrToUint32 (a : Arr) : Arr :=
  if a.nbytes = 0 then npZeros .u32 [0]
  else
    { dt := .u32, shape := mulLast (a.dt.itemsize / 4) (atleast1dShape a.shape),
      data := a.data.flatMap fun e => e.toUnits.map fun (x : Nat) => El.num x }

/-- The argument kinds of the `convert_to_*` functions. -/
inductive StrLike
  | str (s : Str)
  | bytes (b : Bytes)      -- bytes or bytearray
  | np (scalar : Bool) (a : Arr)   -- numpy scalar (`scalar`) or ndarray
  deriving DecidableEq, Repr

/-- `convert_to_str(data)` (`utilities.py:782-856`). -/
def convertToStr : StrLike → Res Str
  | .str s => .ok s
  | .bytes b => utf8Dec b
  | .np _ a =>
    match a.dt with
    | .u8 => utf8Dec (a.data.map El.toNat)
    | .u16 => utf16BomDec (a.data.map El.toNat)
    | .u32 => utf32BomDec (a.data.map El.toNat)
    | .bytes 0 => .ok []
    | .bytes _ => utf8Dec (a.data.flatMap El.toUnits)
    | .str 0 => .ok []
    | .str _ => utf32BomDec (a.data.flatMap El.toUnits)
    | _ => .error .typeError

/-- A numpy `U` array made by numpy from Python strings (`np.asarray(list of str)`): as wide as the longest (at least 1), others NUL padded. -/
def mkStrArr (shape : List Nat) (ss : List Str) : Arr :=
  let w := (ss.map List.length).foldl max 1
  ⟨.str w, shape, ss.map fun s => .units (s ++ List.replicate (w - s.length) 0)⟩

/-- `np.unicode_(s)`: a scalar exactly as wide as the string. -/
def npStr (s : Str) : Arr := ⟨.str s.length, [], [.units s]⟩

/-- Decoding of one `S` element (trailing NUL bytes already dropped by numpy) in `np.char.decode` (`utilities.py:1007-1009`). -/
def decodeChunk (dt : DT) (chunk : List Nat) : Res Str :=
  match dt with
  | .u8 => utf8Dec (stripNul chunk)
  | .u16 => decU16BE (stripNul (chunk.flatMap be16))
  | _ => decU32BE (stripNul (chunk.flatMap be32))

/-- The uint array case of `convert_to_numpy_str` for at least one-dimensional arrays (`utilities.py:949-1009`); `length = none` means
the whole last axis.  A view with a wider dtype needs a last axis that is a multiple of the width (`ValueError`); a width of zero
is a division by zero in the code (`ZeroDivisionError`). -/
def uintsToStr (a : Arr) (length : Option Nat) : Res Arr :=
  let len := length.getD (a.shape.getLastD 0)
  if len = 0 then .error .other
  else if a.shape.getLastD 0 % len ≠ 0 then .error .valueError
  else do
    let ss ← (chunksN len (prodN a.shape / len) (a.data.map El.toNat)).mapM (decodeChunk a.dt)
    .ok (mkStrArr (divLast len a.shape) ss)

/-- `convert_to_numpy_str(data, length)` (`utilities.py:859-1018`).  The result is (is it a scalar?, array).  Not modelled: ndarrays of
`S` dtype (the code encodes instead of decoding there), which are rejected here with `TypeError`; a zero-dimensional uint array is
treated like its scalar. -/
def convertToNumpyStr (d : StrLike) (length : Option Nat) : Res (Bool × Arr) :=
  match d with
  | .str s => .ok (true, npStr s)
  | .bytes b => do .ok (true, npStr (← utf8Dec b))
  | .np sc a =>
    match a.dt with
    | .str _ => .ok (sc, a)
    | .bytes _ => if sc then do .ok (true, npStr (← utf8Dec (a.data.flatMap El.toUnits))) else .error .typeError
    | .u8 | .u16 =>
      if sc || a.shape.isEmpty then do
        let r ← uintsToStr { a with shape := [1] } none
        .ok (true, npStr (stripNul (r.data.flatMap El.toUnits)))
      else do .ok (false, ← uintsToStr a length)
    | .u32 =>
      if sc || a.shape.isEmpty then .ok (true, npStr (stripNul (a.data.map El.toNat)))
      else do .ok (false, ← uintsToStr a length)
    | _ => .error .typeError

/-- A numpy `S n` array made by assigning Python bytes to a zeroed array: cut to `n`, NUL padded. -/
def mkBytesArr (n : Nat) (shape : List Nat) (bs : List Bytes) : Arr :=
  ⟨.bytes n, shape, bs.map fun b => .units (b.take n ++ List.replicate (n - b.length) 0)⟩

/-- `np.bytes_(b)`. -/
def npBytes (b : Bytes) : Arr := mkBytesArr b.length [] [b]

/-- `convert_to_numpy_bytes(data, length)` (`utilities.py:1021-1185`). Same conventions as `convertToNumpyStr`.  For uint8 arrays `np.ndarray` takes the data as its
buffer and raises `TypeError` if that is too small (a one-dimensional array of several elements without `length`); arrays that are not C contiguous, for which it
raises `ValueError`, see `Memory.lean`. -/
def convertToNumpyBytes (d : StrLike) (length : Option Nat) : Res (Bool × Arr) :=
  match d with
  | .str s => do .ok (true, npBytes (← utf8Enc s))
  | .bytes b => .ok (true, npBytes b)
  | .np sc a =>
    match a.dt with
    | .bytes _ => .ok (sc, a)
    | .str _ =>
      if sc then do .ok (true, npBytes (← utf8Enc (a.data.flatMap El.toUnits)))
      else do
        let bs ← a.data.mapM fun e => utf8Enc (stripNul e.toUnits)
        .ok (false, mkBytesArr a.dt.itemsize a.shape bs)
    | .u8 =>
      if sc || a.shape.isEmpty then .ok (true, npBytes (stripNul (a.data.map El.toNat)))
      else
        let len := length.getD (a.shape.getLastD 0)
        if len = 0 then .error .other
        else
          let shp := if length.isNone && a.shape.length = 1 then a.shape else divLast len a.shape
          if prodN a.shape < prodN shp * len then .error .typeError
          else .ok (false, mkBytesArr len shp (chunksN len (prodN shp) (a.data.map El.toNat)))
    | .u16 | .u32 =>
      if sc || a.shape.isEmpty then do .ok (true, npBytes (← utf8Enc (← convertToStr (.np true a))))
      else
        let len := length.getD (a.shape.getLastD 0)
        if len = 0 then .error .other
        else do
          let shp := if length.isNone && a.shape.length = 1 then a.shape else divLast len a.shape
          let bs ← (chunksN len (prodN shp) (a.data.map El.toNat)).mapM fun ch => do
            utf8Enc (← convertToStr (.np false ⟨a.dt, [ch.length], ch.map fun (x : Nat) => El.num x⟩))
          .ok (false, mkBytesArr len shp bs)
    | _ => .error .typeError

end HS
