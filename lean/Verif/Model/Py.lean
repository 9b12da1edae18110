/-
Basic Python notions: `str` as code point lists, exceptions as values.

Python `str` may contain lone surrogates, which Lean's `Char` excludes, so a string is a list of code
points (`Nat`).  Every model function is total on all `List Nat`.
-/
namespace HS

/-- Python `str`: list of code points. -/
abbrev Str := List Nat
/-- Python `bytes`: list of byte values. -/
abbrev Bytes := List Nat

/-- `p!"abc"` is the code point list of the literal, expanded at elaboration time. -/
syntax:max "p!" str : term
open Lean in
macro_rules
  | `(p! $s:str) => do
    let elems : Array (TSyntax `term) :=
      (s.getString.toList.map (fun c => (Lean.quote c.toNat : TSyntax `term))).toArray
    `(([$elems,*] : List Nat))

/-- The exception classes the modelled code can raise (subset of Python's; `/repo/src/hdf5storage/exceptions.py:28-52`). -/
inductive Exc
  | typeError | valueError | keyError | indexError | osError | overflowError
  | notImplemented | unicodeError | cantRead | typeNotMatlabCompatible | importError | other
  deriving DecidableEq, Repr

deriving instance DecidableEq for Except

/-- Result of a call that may raise. -/
abbrev Res (α : Type _) := Except Exc α

/-- Python class hierarchy used by `except OSError`: `Hdf5storageError(OSError)` (exceptions.py:30-52). -/
def Exc.isOSError : Exc → Bool
  | .osError | .cantRead | .typeNotMatlabCompatible => true
  | _ => false

/-- Hexadecimal digit test `[0-9a-fA-F]`. -/
def isHex (c : Nat) : Bool :=
  (48 ≤ c && c ≤ 57) || (97 ≤ c && c ≤ 102) || (65 ≤ c && c ≤ 70)

/-- Value of a hexadecimal digit as used by `int(s, base=16)`. -/
def hexVal (c : Nat) : Nat :=
  if 48 ≤ c && c ≤ 57 then c - 48
  else if 97 ≤ c && c ≤ 102 then c - 87
  else if 65 ≤ c && c ≤ 70 then c - 55
  else 0

/-- `int(s, base=16)` on a string of hex digits (always the case where the code calls it). -/
def intHex (s : Str) : Nat := s.foldl (fun a c => 16 * a + hexVal c) 0

/-- `chr(n)`: raises `ValueError` for `n > 0x10FFFF`. -/
def pyChr (n : Nat) : Res Nat := if n ≤ 0x10FFFF then .ok n else .error .valueError

/-- Non-overlapping left-to-right replacement of the two-character substring `ab` by `t`
(`str.replace` with a two-character pattern). -/
def replace2 (a b : Nat) (t : Str) : Str → Str
  | x :: y :: r => if x = a ∧ y = b then t ++ replace2 a b t r else x :: replace2 a b t (y :: r)
  | r => r

end HS
