import Verif.Model.Codec
/-
CPython's UTF-16 and UTF-32 codecs (strict), on the byte/word level the code uses them.  `sys.byteorder` is taken to be "little".
-/
namespace HS

/-- `s.encode("UTF-16LE")` as 16 bit words; raises `UnicodeEncodeError` on surrogates. -/
def utf16Enc : Str → Res (List Nat)
  | [] => .ok []
  | c :: r =>
    if isSurr c then .error .unicodeError
    else if c < 0x10000 then do .ok (c :: (← utf16Enc r))
    else if c ≤ 0x10FFFF then do
      .ok ((0xD800 + (c - 0x10000) / 1024) :: (0xDC00 + (c - 0x10000) % 1024) :: (← utf16Enc r))
    else .error .unicodeError

/-- Decoding of 16 bit words (UTF-16, known byte order). -/
def utf16Dec : List Nat → Res Str
  | [] => .ok []
  | u :: r =>
    if 0xD800 ≤ u && u ≤ 0xDBFF then
      match r with
      | v :: r =>
        if 0xDC00 ≤ v && v ≤ 0xDFFF then do
          .ok ((0x10000 + (u - 0xD800) * 1024 + (v - 0xDC00)) :: (← utf16Dec r))
        else .error .unicodeError
      | [] => .error .unicodeError
    else if 0xDC00 ≤ u && u ≤ 0xDFFF then .error .unicodeError
    else do .ok (u :: (← utf16Dec r))

/-- Decoding of 32 bit words (UTF-32, known byte order): surrogates and values above 0x10FFFF are rejected. -/
def utf32Dec : List Nat → Res Str
  | [] => .ok []
  | u :: r => if isScalar u then do .ok (u :: (← utf32Dec r)) else .error .unicodeError

/-- `u.byteswap()` of one 16 bit word. -/
def swap16 (u : Nat) : Nat := u % 256 * 256 + u / 256
/-- `u.byteswap()` of one 32 bit word. -/
def swap32 (u : Nat) : Nat :=
  u % 256 * 16777216 + u / 256 % 256 * 65536 + u / 65536 % 256 * 256 + u / 16777216

/-- `b.decode("UTF-16")` on the bytes of native (little endian) 16 bit words: a leading byte order mark is consumed and obeyed. -/
def utf16BomDec : List Nat → Res Str
  | [] => .ok []
  | u :: r =>
    if u = 0xFEFF then utf16Dec r
    else if u = 0xFFFE then utf16Dec (r.map swap16)
    else utf16Dec (u :: r)

/-- `b.decode("UTF-32")` on the bytes of native (little endian) 32 bit words. -/
def utf32BomDec : List Nat → Res Str
  | [] => .ok []
  | u :: r =>
    if u = 0xFEFF then utf32Dec r
    else if u = 0xFFFE0000 then utf32Dec (r.map swap32)
    else utf32Dec (u :: r)

/-- Big endian bytes of a 16 bit word. -/
def be16 (u : Nat) : Bytes := [u / 256, u % 256]
/-- Big endian bytes of a 32 bit word. -/
def be32 (u : Nat) : Bytes := [u / 16777216, u / 65536 % 256, u / 256 % 256, u % 256]

/-- Accessing an element of a numpy `S`/`U` array drops all its trailing NULs. -/
def stripNul (b : List Nat) : List Nat := (b.reverse.dropWhile (· == 0)).reverse

/-- Words of big endian 16 bit data; `UnicodeDecodeError` ("truncated data") for an odd number of bytes. -/
def fromBe16 : Bytes → Res (List Nat)
  | [] => .ok []
  | a :: b :: r => do .ok ((a * 256 + b) :: (← fromBe16 r))
  | _ => .error .unicodeError

/-- Words of big endian 32 bit data. -/
def fromBe32 : Bytes → Res (List Nat)
  | [] => .ok []
  | a :: b :: c :: d :: r => do .ok ((a * 16777216 + b * 65536 + c * 256 + d) :: (← fromBe32 r))
  | _ => .error .unicodeError

/-- `b.decode("UTF-16BE")`. -/
def decU16BE (b : Bytes) : Res Str := do utf16Dec (← fromBe16 b)
/-- `b.decode("UTF-32BE")`. -/
def decU32BE (b : Bytes) : Res Str := do utf32Dec (← fromBe32 b)

/-- `s.encode("ascii")` (also what `np.bytes_(s)` does for a `str`): `UnicodeEncodeError` above 127. -/
def asciiEnc (s : Str) : Res Bytes := if s.all (· < 128) then .ok s else .error .unicodeError

end HS
