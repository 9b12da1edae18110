import Verif.Model.Py
/-
CPython codecs used by the code: UTF-8 (strict), ASCII, UTF-16 and UTF-32 on 16 and 32 bit units.
They are part of the environment of the code (CPython `Objects/unicodeobject.c`); they follow the Unicode standard.
-/
namespace HS

/-- Surrogate code point. -/
def isSurr (c : Nat) : Bool := 0xD800 ≤ c && c ≤ 0xDFFF

/-- Unicode scalar value. -/
def isScalar (c : Nat) : Bool := c ≤ 0x10FFFF && !isSurr c

/-- `chr(c).encode('utf-8')`, strict. -/
def utf8EncChar (c : Nat) : Option Bytes :=
  if c < 0x80 then some [c]
  else if c < 0x800 then some [0xC0 + c / 64, 0x80 + c % 64]
  else if isSurr c then none
  else if c < 0x10000 then some [0xE0 + c / 4096, 0x80 + c / 64 % 64, 0x80 + c % 64]
  else if c ≤ 0x10FFFF then
    some [0xF0 + c / 262144, 0x80 + c / 4096 % 64, 0x80 + c / 64 % 64, 0x80 + c % 64]
  else none

/-- `s.encode('utf-8')`; raises `UnicodeEncodeError` on lone surrogates. -/
def utf8Enc : Str → Res Bytes
  | [] => .ok []
  | c :: r =>
    match utf8EncChar c with
    | none => .error .unicodeError
    | some b => do .ok (b ++ (← utf8Enc r))

/-- UTF-8 continuation byte. -/
def isCont (b : Nat) : Bool := 0x80 ≤ b && b ≤ 0xBF

/-- `b.decode('utf-8')`; raises `UnicodeDecodeError` on anything but well-formed UTF-8. -/
def utf8Dec : Bytes → Res Str
  | [] => .ok []
  | a :: r =>
    if a < 0x80 then do .ok (a :: (← utf8Dec r))
    else if 0xC2 ≤ a && a ≤ 0xDF then
      match r with
      | b :: r => if isCont b then do .ok (((a - 0xC0) * 64 + (b - 0x80)) :: (← utf8Dec r))
                  else .error .unicodeError
      | _ => .error .unicodeError
    else if 0xE0 ≤ a && a ≤ 0xEF then
      match r with
      | b :: c :: r =>
        let v := (a - 0xE0) * 4096 + (b - 0x80) * 64 + (c - 0x80)
        if isCont b && isCont c && 0x800 ≤ v && !isSurr v then do .ok (v :: (← utf8Dec r))
        else .error .unicodeError
      | _ => .error .unicodeError
    else if 0xF0 ≤ a && a ≤ 0xF4 then
      match r with
      | b :: c :: d :: r =>
        let v := (a - 0xF0) * 262144 + (b - 0x80) * 4096 + (c - 0x80) * 64 + (d - 0x80)
        if isCont b && isCont c && isCont d && 0x10000 ≤ v && v ≤ 0x10FFFF then do
          .ok (v :: (← utf8Dec r))
        else .error .unicodeError
      | _ => .error .unicodeError
    else .error .unicodeError

end HS
