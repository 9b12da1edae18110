import Verif.Model.Regex
/-
Model of `/repo/src/hdf5storage/pathesc.py:52-235`: the four regular expressions, the two
replacement functions, `escape_path` and `unescape_path`.
-/
namespace HS
open Re

/-- Backslash, slash, full stop. -/
abbrev bs : Nat := 92
abbrev slash : Nat := 47
abbrev dot : Nat := 46

/-- `[0-9a-fA-F]` -/
def reHex : Re := cls isHex
/-- `[^0-9a-fA-F]` -/
def reNotHex : Re := cls (fun c => !isHex c)
/-- `($|[^0-9a-fA-F])` -/
def reEndOrNotHex : Re := alt eos reNotHex

/-- pathesc.py:58 `_find_dots_re = "\\.+"`. -/
def findDotsRe : Re := plus (lit dot)

/-- pathesc.py:59-64 `_find_invalid_escape_re`. -/
def findInvalidEscapeRe : Re :=
  seq (alt bos (cls (fun c => c != bs)))
  (seq (lit bs)
  (seq (star (seq (lit bs) (lit bs)))
    (alt eos
    (alt (cls (fun c => c != 120 && c != 117 && c != 85 && c != bs))
    (alt (seq (lit 120) (seq (opt reHex) reEndOrNotHex))
    (alt (seq (lit 117) (seq (repUpTo reHex 3) reEndOrNotHex))
         (seq (lit 85) (seq (repUpTo reHex 7) reEndOrNotHex))))))))

/-- pathesc.py:65 `_find_fslashnull_re = "[\\\\/\x00]"`. -/
def findFslashnullRe : Re := cls (fun c => c == bs || c == slash || c == 0)

/-- pathesc.py:66-68 `_find_escapes_re`. -/
def findEscapesRe : Re :=
  seq (plus (lit bs))
    (alt (seq (lit 120) (rep reHex 2))
    (alt (seq (lit 117) (rep reHex 4))
         (seq (lit 85) (rep reHex 8))))

/-- Lower-case hexadecimal digit. -/
def hexDigit (n : Nat) : Nat := if n < 10 then 48 + n else 87 + n

/-- `f"{value:0Nx}"` for `value < 16^N`: fixed width lower-case hexadecimal. -/
def hexFixed : Nat → Nat → Str
  | 0, _ => []
  | w + 1, v => hexFixed w (v / 16) ++ [hexDigit (v % 16)]

/-- pathesc.py:69,72-114 `_replace_fun_escape`, on the matched text (a single character).
`_char_escape_conversions` handles NUL, `/` and backslash; the generic branch is kept. -/
def replaceFunEscape (m : Str) : Res Str :=
  match m with
  | [c] =>
    if c = 0 then .ok p!"\\x00"
    else if c = slash then .ok p!"\\x2f"
    else if c = bs then .ok p!"\\\\"
    else if c ≤ 0xFF then .ok (p!"\\x" ++ hexFixed 2 c)
    else if c ≤ 0xFFFF then .ok (p!"\\u" ++ hexFixed 4 c)
    else if c ≤ 0xFFFFFFFF then .ok (p!"\\U" ++ hexFixed 8 c)
    else .error .notImplemented
  | _ => .error .typeError  -- `ord` of a non-single character; unreachable

/-- pathesc.py:117-142 `_replace_fun_unescape`, on the matched text. -/
def replaceFunUnescape (m : Str) : Res Str :=
  let count := m.count bs
  if count % 2 = 0 then .ok m
  else do
    let c ← pyChr (intHex (m.drop (count + 1)))
    .ok (List.replicate (count - 1) bs ++ [c])

/-- pathesc.py:145-190 `escape_path` on a `str`. -/
def escapePath (pth : Str) : Res Str :=
  match matchAt findDotsRe (true, pth) with
  | none => sub findFslashnullRe replaceFunEscape pth
  | some t => do
    -- `match.end()` dots matched; `t.2 = pth[match.end():]`
    let e := pth.length - t.2.length
    let s ← sub findFslashnullRe replaceFunEscape (pth.drop e)
    .ok ((List.replicate e p!"\\x2e").flatten ++ s)

/-- pathesc.py:193-235 `unescape_path` on a `str`. -/
def unescapePath (pth : Str) : Res Str :=
  if search findInvalidEscapeRe pth then .error .valueError
  else do
    let s ← sub findEscapesRe replaceFunUnescape pth
    .ok (replace2 bs bs [bs] s)

end HS
