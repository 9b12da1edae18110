import Verif.Model.Py
/-
Independent specification of the documented escape grammar (docstrings at pathesc.py:146-156 and 194-201):
a left-to-right tokenizer.
-/
namespace HS.Spec

/-- The character is the hexadecimal digit with this value, in either case. -/
def HexDigit (c d : Nat) : Prop := p!"0123456789abcdef"[d]? = some c ∨ p!"0123456789ABCDEF"[d]? = some c

/-- A token of an escaped name. -/
inductive Tok
  /-- an ordinary character (not a backslash) -/
  | lit (c : Nat)
  /-- a doubled backslash -/
  | dbl
  /-- a hexadecimal escape with its numerical value -/
  | hex (v : Nat)
  deriving DecidableEq, Repr

/-- Split into tokens, left to right; `none` if a backslash starts neither a doubled backslash nor a
complete `\xYY`, `\uYYYY` or `\UYYYYYYYY`. -/
def tokenize : Str → Option (List Tok)
  | [] => some []
  | 92 :: 92 :: r => (tokenize r).map (Tok.dbl :: ·)
  | 92 :: 120 :: a :: b :: r =>
    if isHex a && isHex b then (tokenize r).map (Tok.hex (intHex [a, b]) :: ·) else none
  | 92 :: 117 :: a :: b :: c :: d :: r =>
    if [a, b, c, d].all isHex then (tokenize r).map (Tok.hex (intHex [a, b, c, d]) :: ·) else none
  | 92 :: 85 :: a :: b :: c :: d :: e :: f :: g :: h :: r =>
    if [a, b, c, d, e, f, g, h].all isHex then
      (tokenize r).map (Tok.hex (intHex [a, b, c, d, e, f, g, h]) :: ·) else none
  | 92 :: _ => none
  | c :: r => (tokenize r).map (Tok.lit c :: ·)

/-- The character a token stands for. -/
def Tok.char : Tok → Nat
  | .lit c => c
  | .dbl => 92
  | .hex v => v

/-- A token stands for a Unicode code point. -/
def Tok.valid : Tok → Bool
  | .hex v => v ≤ 0x10FFFF
  | _ => true

/-- The documented meaning of an escaped name: one character per token, `ValueError` if it cannot be tokenized or a token
is no code point. -/
def unescape (s : Str) : Res Str :=
  match tokenize s with
  | none => .error .valueError
  | some ts => if ts.all Tok.valid then .ok (ts.map Tok.char) else .error .valueError

end HS.Spec
