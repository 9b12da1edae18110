import Verif.Model.NpArr
import Verif.Model.Heap
/-
`convert_dtype_to_str` (`/repo/src/hdf5storage/utilities.py:647-685`) and its inverse, `np.dtype(ast.literal_eval(text))` in `NumpyDtypeMarshaller.read`
(`Marshallers.py:1546-1563`), together with the parts of Python and numpy they rest on: `str` of a `np.dtype`, `ast.literal_eval` and the constructor of `np.dtype`.

Simplifications: the machine is little-endian; of the dtypes with padding those made with `align=True` and those with titles are not modelled, nor subarrays of
subarrays; the constructor of `np.dtype` does not check that names are distinct nor replace empty ones, and takes the keys of a dict in the order numpy writes them; `ast.literal_eval` knows
strings, natural numbers, tuples, lists and dicts with strings as keys; in strings the escapes that `repr` makes.
-/
namespace HS

/-- A dtype that is neither structured nor a subarray: `num` with `dtype.kind` and `dtype.itemsize`, `big` if it is big-endian; `time` is datetime64 or timedelta64. -/
inductive SK
  | bool | object
  | num (kind size : Nat) (big : Bool)
  | bytes (n : Nat)
  | str (n : Nat) (big : Bool)
  | void (n : Nat)
  | time (delta : Bool) (unit : Option Str) (big : Bool)
  deriving DecidableEq, Repr

mutual
/-- A `np.dtype`: `st` structured (`isRec`: of the scalar type `np.record`) with its `itemsize`, `sub` a subarray dtype. -/
inductive NDt
  | sc (k : SK)
  | sub (base : NDt) (shape : List Nat)
  | st (isRec : Bool) (fs : NFs) (itemsize : Nat)
/-- The fields: name, title, dtype, offset. -/
inductive NFs
  | nil
  | cons (name : Str) (title : Option Str) (dt : NDt) (off : Nat) (rest : NFs)
end

mutual
/-- A Python expression as far as `str(dtype)` has them: `name` is a dotted name. -/
inductive Lit
  | str (s : Str)
  | int (n : Nat)
  | tup (l : Lits)
  | list (l : Lits)
  | dict (l : Pairs)
  | name (s : Str)
/-- Elements. -/
inductive Lits
  | nil
  | cons (a : Lit) (r : Lits)
/-- Items of a dict. -/
inductive Pairs
  | nil
  | cons (k : Str) (v : Lit) (r : Pairs)
end

/-- `dtype.itemsize`. -/
def SK.size : SK → Nat
  | .bool => 1 | .object => 8 | .num _ n _ => n | .bytes n => n | .str n _ => 4 * n | .void n => n | .time _ _ _ => 8

/-- `dtype.itemsize`. -/
def NDt.size : NDt → Nat
  | .sc k => k.size
  | .sub b sh => prodN sh * b.size
  | .st _ _ n => n

/-- The character for the byte order. -/
def orderChar (big : Bool) : Nat := if big then 62 else 60

/-- The unit of a datetime64 in brackets, none for generic units. -/
def unitStr : Option Str → Str
  | none => []
  | some u => [91] ++ u ++ [93]

/-- How a dtype is written inside of others (numpy's `_scalar_str(dtype, short=True)`, without the quotes). -/
def SK.code : SK → Str
  | .bool => p!"?"
  | .object => p!"O"
  | .num k n b => (if n = 1 then [] else [orderChar b]) ++ [k] ++ decDigits n
  | .bytes n => if n = 0 then p!"S" else p!"S" ++ decDigits n
  | .str n b => if n = 0 then [orderChar b] ++ p!"U" else [orderChar b] ++ p!"U" ++ decDigits n
  | .void n => if n = 0 then p!"V" else p!"V" ++ decDigits n
  | .time d u b => [orderChar b] ++ (if d then p!"m8" else p!"M8") ++ unitStr u

/-- The names of the number types. -/
def kindName (k : Nat) : Str :=
  if k = 105 then p!"int" else if k = 117 then p!"uint" else if k = 102 then p!"float" else p!"complex"

/-- `str(dtype)`: `dtype.str` for flexible types and those that are not in native byte order, else `dtype.name`. -/
def SK.text : SK → Str
  | .bool => p!"bool"
  | .object => p!"object"
  | .num k n b => if b then [orderChar b] ++ [k] ++ decDigits n else kindName k ++ decDigits (8 * n)
  | .bytes n => p!"|S" ++ decDigits n
  | .str n b => [orderChar b] ++ p!"U" ++ decDigits n
  | .void n => p!"|V" ++ decDigits n
  | .time d u b => if b then [orderChar b] ++ (if d then p!"m8" else p!"M8") ++ unitStr u else (if d then p!"timedelta64" else p!"datetime64") ++ unitStr u

/-- A tuple of numbers. -/
def natLits : List Nat → Lits
  | [] => .nil
  | n :: r => .cons (.int n) (natLits r)

/-- numpy's `_is_packed` (not for `align=True`): the fields follow each other without gaps. -/
def packedFrom (off : Nat) : NFs → Nat → Bool
  | .nil, size => off == size
  | .cons _ _ dt o r, size => o == off && packedFrom (off + dt.size) r size

/-- The names, as a list of strings. -/
def NFs.nameLits : NFs → Lits
  | .nil => .nil
  | .cons n _ _ _ r => .cons (.str n) r.nameLits
/-- The offsets. -/
def NFs.offLits : NFs → Lits
  | .nil => .nil
  | .cons _ _ _ o r => .cons (.int o) r.offLits

/-- A field's name, with the title if it has one (numpy's `_struct_list_str`). -/
def titleLit (name : Str) : Option Str → Lit
  | none => .str name
  | some t => .tup (.cons (.str t) (.cons (.str name) .nil))

/-- In the list of fields a subarray's base and shape are written separately (numpy's `_struct_list_str`). -/
def fieldTail (dt : NDt) (l : Lit) : Lits :=
  match dt, l with
  | .sub _ _, .tup r => r
  | _, l => .cons l .nil

mutual
/-- How a dtype is written inside of others (numpy's `_construction_repr(dtype, short=True)`), as an expression. -/
def NDt.lit : NDt → Lit
  | .sc k => .str k.code
  | .sub b sh => .tup (.cons b.lit (.cons (.tup (natLits sh)) .nil))
  | .st isRec fs n =>
    let body :=
      if packedFrom 0 fs n then Lit.list fs.items
      else Lit.dict (.cons p!"names" (.list fs.nameLits) (.cons p!"formats" (.list fs.formats) (.cons p!"offsets" (.list fs.offLits) (.cons p!"itemsize" (.int n) .nil))))
    if isRec then .tup (.cons (.name p!"numpy.record") (.cons body .nil)) else body
/-- numpy's `_struct_list_str`. -/
def NFs.items : NFs → Lits
  | .nil => .nil
  | .cons name title dt _ r => .cons (.tup (.cons (titleLit name title) (fieldTail dt dt.lit))) r.items
/-- The dtypes of the fields (numpy's `_struct_dict_str`). -/
def NFs.formats : NFs → Lits
  | .nil => .nil
  | .cons _ _ dt _ r => .cons dt.lit r.formats
end

/-- One character in the `repr` of a `str`; `pr` is `str.isprintable` for characters that are not ASCII, `q` the quote. -/
def reprChar (pr : Nat → Bool) (q c : Nat) : Str :=
  if c = q ∨ c = 92 then [92, c]
  else if c = 9 then p!"\\t" else if c = 10 then p!"\\n" else if c = 13 then p!"\\r"
  else if c < 32 ∨ c = 127 then p!"\\x" ++ hexFixed 2 c
  else if c < 127 then [c]
  else if pr c then [c]
  else if c < 256 then p!"\\x" ++ hexFixed 2 c
  else if c < 65536 then p!"\\u" ++ hexFixed 4 c
  else p!"\\U" ++ hexFixed 8 c

/-- `repr(s)`. -/
def pyRepr (pr : Nat → Bool) (s : Str) : Str :=
  let q := if 39 ∈ s ∧ 34 ∉ s then 34 else 39
  [q] ++ s.flatMap (reprChar pr q) ++ [q]

/-- Comma after the only element of a tuple. -/
def oneComma : Lits → Str
  | .cons _ .nil => p!","
  | _ => []

mutual
/-- `repr` of the expression. -/
def Lit.repr (pr : Nat → Bool) : Lit → Str
  | .str s => pyRepr pr s
  | .int n => decDigits n
  | .tup l => p!"(" ++ l.repr pr ++ oneComma l ++ p!")"
  | .list l => p!"[" ++ l.repr pr ++ p!"]"
  | .dict l => p!"{" ++ l.repr pr ++ p!"}"
  | .name s => s
/-- Elements separated by commas. -/
def Lits.repr (pr : Nat → Bool) : Lits → Str
  | .nil => []
  | .cons a r => a.repr pr ++ r.more pr
/-- A comma and the following elements. -/
def Lits.more (pr : Nat → Bool) : Lits → Str
  | .nil => []
  | .cons a r => p!", " ++ a.repr pr ++ r.more pr
/-- Items separated by commas. -/
def Pairs.repr (pr : Nat → Bool) : Pairs → Str
  | .nil => []
  | .cons k v r => pyRepr pr k ++ p!": " ++ v.repr pr ++ r.more pr
/-- A comma and the following items. -/
def Pairs.more (pr : Nat → Bool) : Pairs → Str
  | .nil => []
  | .cons k v r => p!", " ++ pyRepr pr k ++ p!": " ++ v.repr pr ++ r.more pr
end

/-- `str(dtype)` (numpy). -/
def NDt.text (pr : Nat → Bool) : NDt → Str
  | .sc k => k.text
  | dt => dt.lit.repr pr

/-- `convert_dtype_to_str(dtype)` (`utilities.py:680-685`). -/
def convertDtypeToStr (pr : Nat → Bool) (dt : NDt) : Str :=
  let out := dt.text pr
  if out.headD 0 ∉ p!"([{" then p!"'" ++ out ++ p!"'" else out

/-- The hexadecimal escape with `n` digits. -/
def hexEsc (n : Nat) (s : Str) : Option (Nat × Str) :=
  if (s.take n).length = n ∧ (s.take n).all isHex then some (intHex (s.take n), s.drop n) else none

/-- The rest of a string literal with the quote `q`; the first argument bounds the recursion. -/
def pStr (q : Nat) : Nat → Str → Option (Str × Str)
  | 0, _ => none
  | _ + 1, [] => none
  | f + 1, c :: r =>
    if c = q then some ([], r)
    else if c = 92 then
      match r with
      | [] => none
      | e :: r =>
        if e = 120 then match hexEsc 2 r with | some (v, r) => (pStr q f r).map fun p => (v :: p.1, p.2) | none => none
        else if e = 117 then match hexEsc 4 r with | some (v, r) => (pStr q f r).map fun p => (v :: p.1, p.2) | none => none
        else if e = 85 then match hexEsc 8 r with | some (v, r) => (pStr q f r).map fun p => (v :: p.1, p.2) | none => none
        else if e = 110 then (pStr q f r).map fun p => (10 :: p.1, p.2)
        else if e = 114 then (pStr q f r).map fun p => (13 :: p.1, p.2)
        else if e = 116 then (pStr q f r).map fun p => (9 :: p.1, p.2)
        else if e = 92 ∨ e = 39 ∨ e = 34 then (pStr q f r).map fun p => (e :: p.1, p.2)
        else none
    else if c = 10 ∨ c = 13 ∨ c = 0 then none
    else (pStr q f r).map fun p => (c :: p.1, p.2)

/-- Skip blanks. -/
def ws (s : Str) : Str := s.dropWhile (· == 32)

mutual
/-- A value in Python syntax (`ast.literal_eval`); the first argument bounds the recursion. -/
def pVal : Nat → Str → Option (Lit × Str)
  | 0, _ => none
  | f + 1, s =>
    match ws s with
    | [] => none
    | c :: r =>
      if c = 40 then
        match pItems f 41 r with
        | some (.cons v .nil, false, r) => some (v, r)
        | some (l, _, r) => some (.tup l, r)
        | none => none
      else if c = 91 then
        match pItems f 93 r with
        | some (l, _, r) => some (.list l, r)
        | none => none
      else if c = 123 then
        match pPairs f r with
        | some (l, r) => some (.dict l, r)
        | none => none
      else if c = 39 ∨ c = 34 then (pStr c (r.length + 1) r).map fun p => (.str p.1, p.2)
      else if 48 ≤ c ∧ c ≤ 57 then
        match natOfDec ((c :: r).takeWhile fun d => 48 ≤ d && d ≤ 57) with
        | .ok n => some (.int n, (c :: r).dropWhile fun d => 48 ≤ d && d ≤ 57)
        | .error _ => none
      else none
/-- Elements up to the closing bracket, and whether there was a comma before it. -/
def pItems : Nat → Nat → Str → Option (Lits × Bool × Str)
  | 0, _, _ => none
  | f + 1, cl, s =>
    match ws s with
    | [] => none
    | c :: r =>
      if c = cl then some (.nil, true, r)
      else match pVal f (c :: r) with
        | none => none
        | some (v, r) =>
          match pRest f cl r with
          | some (l, b, r) => some (.cons v l, b, r)
          | none => none
/-- After an element. -/
def pRest : Nat → Nat → Str → Option (Lits × Bool × Str)
  | 0, _, _ => none
  | f + 1, cl, s =>
    match ws s with
    | [] => none
    | c :: r => if c = 44 then pItems f cl r else if c = cl then some (.nil, false, r) else none
/-- Items of a dict up to the closing bracket. -/
def pPairs : Nat → Str → Option (Pairs × Str)
  | 0, _ => none
  | f + 1, s =>
    match ws s with
    | [] => none
    | c :: r =>
      if c = 125 then some (.nil, r)
      else match pVal f (c :: r) with
        | some (.str k, r) =>
          match ws r with
          | [] => none
          | c :: r =>
            if c = 58 then
              match pVal f r with
              | none => none
              | some (v, r) =>
                match ws r with
                | [] => none
                | c :: r =>
                  if c = 44 then (pPairs f r).map fun p => (.cons k v p.1, p.2)
                  else if c = 125 then some (.cons k v .nil, r)
                  else none
            else none
        | _ => none
end

/-- `ast.literal_eval(s)`. -/
def literalEval (s : Str) : Res Lit :=
  match pVal (2 * s.length + 2) s with
  | some (l, r) => if ws r = [] then .ok l else .error .valueError
  | none => .error .valueError

/-- Digits, `n` if there are none. -/
def sizeOr (n : Nat) (s : Str) : Option Nat := if s = [] then some n else (natOfDec s).toOption

/-- A unit in brackets, or nothing. -/
def unitOf (s : Str) : Option (Option Str) :=
  match s with
  | [] => some none
  | c :: r => if c = 91 ∧ r.getLast? = some 93 then some (some r.dropLast) else none

/-- The kinds and sizes of numbers. -/
def numSizes (k : Nat) : List Nat :=
  if k = 105 ∨ k = 117 then [1, 2, 4, 8] else if k = 102 then [2, 4, 8, 16] else if k = 99 then [8, 16, 32] else []

/-- `np.dtype(s)` for a type code without byte order. -/
def codeOf (big : Bool) (s : Str) : Option SK :=
  match s with
  | [63] => some .bool
  | [79] => some .object
  | 83 :: r => (sizeOr 0 r).map .bytes
  | 85 :: r => (sizeOr 0 r).map fun n => .str n big
  | 86 :: r => (sizeOr 0 r).map .void
  | 109 :: 56 :: r => (unitOf r).map fun u => .time true u big
  | 77 :: 56 :: r => (unitOf r).map fun u => .time false u big
  | k :: r => (natOfDec r).toOption.bind fun n => if n ∈ numSizes k then some (.num k n (big && n != 1)) else none
  | _ => none

/-- `np.dtype(s)` for the name of a type. -/
def nameOf (s : Str) : Option SK :=
  if s = p!"bool" then some .bool else if s = p!"object" then some .object
  else if (p!"datetime64").isPrefixOf s then (unitOf (s.drop 10)).map fun u => .time false u false
  else if (p!"timedelta64").isPrefixOf s then (unitOf (s.drop 11)).map fun u => .time true u false
  else ([105, 117, 102, 99].flatMap fun k => (numSizes k).map fun n => SK.num k n false).find? fun k => k.text == s

/-- `np.dtype(s)`. -/
def skOf (s : Str) : Option SK :=
  match s with
  | 60 :: r | 61 :: r | 124 :: r => codeOf false r
  | 62 :: r => codeOf true r
  | s => match nameOf s with
    | some k => some k
    | none => codeOf false s

/-- A tuple of numbers. -/
def natsOf : Lits → Option (List Nat)
  | .nil => some []
  | .cons (.int n) r => (natsOf r).map (n :: ·)
  | _ => none
/-- A list of strings. -/
def strsOf : Lits → Option (List Str)
  | .nil => some []
  | .cons (.str n) r => (strsOf r).map (n :: ·)
  | _ => none

/-- Name and title of a field. -/
def titleOf : Lit → Option (Str × Option Str)
  | .str n => some (n, none)
  | .tup (.cons (.str t) (.cons (.str n) .nil)) => some (n, some t)
  | _ => none

/-- Put fields together. -/
def zipFields : List Str → List NDt → List Nat → Option NFs
  | [], [], [] => some .nil
  | n :: ns, d :: ds, o :: os => (zipFields ns ds os).map (.cons n none d o)
  | _, _, _ => none

mutual
/-- `np.dtype(obj)`. -/
def npDtype : Lit → Option NDt
  | .str s => (skOf s).map .sc
  | .tup (.cons a (.cons (.tup sh) .nil)) =>
    match npDtype a, natsOf sh with
    | some b, some sh => some (.sub b sh)
    | _, _ => none
  | .list l => (npFields 0 l).map fun p => .st false p.1 p.2
  | .dict (.cons a (.list names) (.cons b (.list formats) (.cons c (.list offs) (.cons d (.int n) .nil)))) =>
    if a = p!"names" ∧ b = p!"formats" ∧ c = p!"offsets" ∧ d = p!"itemsize" then
      match strsOf names, npDtypes formats, natsOf offs with
      | some ns, some ds, some os => (zipFields ns ds os).map fun fs => .st false fs n
      | _, _, _ => none
    else none
  | _ => none
/-- The fields of a list, one after the other from an offset on. -/
def npFields (off : Nat) : Lits → Option (NFs × Nat)
  | .nil => some (.nil, off)
  | .cons (.tup (.cons nm (.cons f .nil))) r =>
    match titleOf nm, npDtype f with
    | some (n, t), some d => (npFields (off + d.size) r).map fun p => (.cons n t d off p.1, p.2)
    | _, _ => none
  | .cons (.tup (.cons nm (.cons f (.cons (.tup sh) .nil)))) r =>
    match titleOf nm, npDtype f, natsOf sh with
    | some (n, t), some d, some sh => (npFields (off + (NDt.sub d sh).size) r).map fun p => (.cons n t (.sub d sh) off p.1, p.2)
    | _, _, _ => none
  | _ => none
/-- The formats. -/
def npDtypes : Lits → Option (List NDt)
  | .nil => some []
  | .cons a r =>
    match npDtype a, npDtypes r with
    | some d, some ds => some (d :: ds)
    | _, _ => none
end

/-- The dtype read back from the stored text (`Marshallers.py:1560-1563`): `np.dtype(ast.literal_eval(text))`. -/
def dtypeOfText (s : Str) : Res NDt := do
  match npDtype (← literalEval s) with
  | some d => .ok d
  | none => .error .typeError

end HS
