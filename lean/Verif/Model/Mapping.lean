import Verif.Model.File
/-
The methods `File` inherits from `collections.abc.MutableMapping` (`/repo/src/hdf5storage/__init__.py:1519`, `1556-1558`).  They are written, in Python's
`collections/abc.py`, in terms of the methods `__getitem__`, `__setitem__`, `__delitem__`, `__iter__` and `__len__` the class defines
(`__init__.py:2039-2237`, see `File.lean`), so their behaviour is what this package makes it.

Simplifications: the file is not changed by another thread in the middle of one of these methods; `__eq__` is not
modelled, and of the set operations of the views those of `keys()` with a set of `str`.
-/
namespace HS

/-- `f.get(p, d)` (`collections.abc.Mapping.get` over `__getitem__`, `__init__.py:2135-2166`). -/
def mapGet (x : Ctx) (n : Nat) (p : PathArg) (d : Val) (F : FileS) : Res Val :=
  match fileRead x n p F with
  | .ok v => .ok v
  | .error .keyError => .ok d
  | .error e => .error e

/-- `f.pop(p)` and `f.pop(p, d)` (`collections.abc.MutableMapping.pop` over `__getitem__` and `__delitem__`, `__init__.py:2135-2166`, `2204-2237`). -/
def mapPop (x : Ctx) (n : Nat) (p : PathArg) (d : Option Val) (F : FileS) : Res Val × FileS :=
  match fileRead x n p F with
  | .ok v =>
    match fileDel p F with
    | (.ok _, F') => (.ok v, F')
    | (.error e, F') => (.error e, F')
  | .error .keyError =>
    match d with
    | some v => (.ok v, F)
    | none => (.error .keyError, F)
  | .error e => (.error e, F)

/-- `f.popitem()` (`collections.abc.MutableMapping.popitem` over `__iter__`, `__getitem__` and `__delitem__`, `__init__.py:2097-2237`). -/
def mapPopitem (x : Ctx) (n : Nat) (F : FileS) : Res (Str × Val) × FileS :=
  match fileIter x F with
  | .error e => (.error e, F)
  | .ok [] => (.error .keyError, F)
  | .ok (k :: _) =>
    match fileRead x n (.str k) F with
    | .error e => (.error e, F)
    | .ok v =>
      match fileDel (.str k) F with
      | (.ok _, F') => (.ok (k, v), F')
      | (.error e, F') => (.error e, F')

/-- `f.clear()` (`collections.abc.MutableMapping.clear`: `popitem` until it raises `KeyError`); `none`: still going on after `fuel` turns of the loop. -/
def mapClear (x : Ctx) (n : Nat) : Nat → FileS → Option (Res Unit × FileS)
  | 0, _ => none
  | fuel + 1, F =>
    match mapPopitem x n F with
    | (.ok _, F') => mapClear x n fuel F'
    | (.error .keyError, F') => some (.ok (), F')
    | (.error e, F') => some (.error e, F')

/-- `f.update(items)` with a mapping or pairs (`collections.abc.MutableMapping.update` over `__setitem__`, `__init__.py:2168-2202`): one after the other, up to the
first exception. -/
def mapUpdate (x : Ctx) (n : Nat) : List (PathArg × Val) → FileS → Res Unit × FileS
  | [], F => (.ok (), F)
  | (p, v) :: r, F =>
    match fileWrite x n p v F with
    | (.ok _, F') => mapUpdate x n r F'
    | (.error e, F') => (.error e, F')

/-- `f.setdefault(p, d)` (`collections.abc.MutableMapping.setdefault` over `__getitem__` and `__setitem__`, `__init__.py:2135-2202`). -/
def mapSetdefault (x : Ctx) (n : Nat) (p : PathArg) (d : Val) (F : FileS) : Res Val × FileS :=
  match fileRead x n p F with
  | .ok v => (.ok v, F)
  | .error .keyError =>
    match fileWrite x n p d F with
    | (.ok _, F') => (.ok d, F')
    | (.error e, F') => (.error e, F')
  | .error e => (.error e, F)

/-- The pairs of these names and what is read there, up to the first exception. -/
def readNames (x : Ctx) (n : Nat) (F : FileS) : List Str → Res (List (Str × Val))
  | [] => .ok []
  | k :: r => do
    let v ← fileRead x n (.str k) F
    let l ← readNames x n F r
    .ok ((k, v) :: l)

/-- `list(f.items())` (`collections.abc.ItemsView` over `__iter__` and `__getitem__`, `__init__.py:2097-2166`). -/
def mapItems (x : Ctx) (n : Nat) (F : FileS) : Res (List (Str × Val)) := do
  let ks ← fileIter x F
  readNames x n F ks

/-- `list(f.values())` (`collections.abc.ValuesView` over `__iter__` and `__getitem__`, `__init__.py:2097-2166`). -/
def mapValues (x : Ctx) (n : Nat) (F : FileS) : Res (List Val) := do
  let l ← mapItems x n F
  .ok (l.map (·.2))

/-- The loop `for key in other: self[key] = other[key]` over these names, `other` being the file `G` opened with the options `y.o` (see `mapUpdateFrom`). -/
def mapCopy (y : Ctx) (m : Nat) (G : FileS) (x : Ctx) (n : Nat) : List Str → FileS → Res Unit × FileS
  | [], F => (.ok (), F)
  | k :: r, F =>
    match fileRead y m (.str k) G with
    | .error e => (.error e, F)
    | .ok v =>
      match fileWrite x n (.str k) v F with
      | (.ok _, F') => mapCopy y m G x n r F'
      | (.error e, F') => (.error e, F')

/-- `f.update(g)` where `g` is a `File` too, of another file (`collections.abc.MutableMapping.update` over `__iter__` and `__getitem__` of `g` and `__setitem__` of
`f`, `__init__.py:2097-2202`). -/
def mapUpdateFrom (y : Ctx) (m : Nat) (G : FileS) (x : Ctx) (n : Nat) (F : FileS) : Res Unit × FileS :=
  match fileIter y G with
  | .error e => (.error e, F)
  | .ok ks => mapCopy y m G x n ks F

/-- `[v for v in l if v in f]` (`in` is `__contains__`, `__init__.py:2070-2095`), up to the first exception. -/
def keepIn (F : FileS) : List Str → Res (List Str)
  | [] => .ok []
  | k :: r => do
    let b ← fileContains (.str k) F
    let l ← keepIn F r
    .ok (if b then k :: l else l)

/-- `[v for v in l if v not in f]` (`__init__.py:2070-2095`), up to the first exception. -/
def keepOut (F : FileS) : List Str → Res (List Str)
  | [] => .ok []
  | k :: r => do
    let b ← fileContains (.str k) F
    let l ← keepOut F r
    .ok (if b then l else k :: l)

/-- Whether all are in the file (`all(v in f for v in l)`, `__init__.py:2070-2095`). -/
def allIn (F : FileS) : List Str → Res Bool
  | [] => .ok true
  | k :: r => do
    let b ← fileContains (.str k) F
    if b then allIn F r else .ok false

/-- `f.keys() <= s` (`collections.abc.Set.__le__` over `__len__` and `__iter__`, `__init__.py:2039-2133`); `s`, here and below, is a set of `str`, its elements listed. -/
def keysLe (x : Ctx) (F : FileS) (s : List Str) : Res Bool := do
  let n ← fileLen x F
  if s.length < n then .ok false
  else do
    let ks ← fileIter x F
    .ok (ks.all fun k => decide (k ∈ s))

/-- `f.keys() >= s` (`collections.abc.Set.__ge__` over `__len__` and `__contains__`, `__init__.py:2039-2095`). -/
def keysGe (x : Ctx) (F : FileS) (s : List Str) : Res Bool := do
  let n ← fileLen x F
  if n < s.length then .ok false else allIn F s

/-- `f.keys() == s` (`collections.abc.Set.__eq__`: the lengths are the same and `<=`; `__init__.py:2039-2133`). -/
def keysEq (x : Ctx) (F : FileS) (s : List Str) : Res Bool := do
  let n ← fileLen x F
  if n = s.length then keysLe x F s else .ok false

/-- `f.keys().isdisjoint(s)` (`collections.abc.Set.isdisjoint` over `__contains__`, `__init__.py:2070-2095`). -/
def keysDisjoint (F : FileS) : List Str → Res Bool
  | [] => .ok true
  | k :: r => do
    let b ← fileContains (.str k) F
    if b then .ok false else keysDisjoint F r

/-- `f.keys() & s` (`collections.abc.Set.__and__` over `__contains__`, `__init__.py:2070-2095`). -/
def keysAnd (F : FileS) (s : List Str) : Res (List Str) := keepIn F s

/-- `f.keys() | s` (`collections.abc.Set.__or__` over `__iter__`, `__init__.py:2097-2133`). -/
def keysOr (x : Ctx) (F : FileS) (s : List Str) : Res (List Str) := do
  let ks ← fileIter x F
  .ok (ks ++ s)

/-- `f.keys() - s` (`collections.abc.Set.__sub__` over `__iter__`, `__init__.py:2097-2133`). -/
def keysSub (x : Ctx) (F : FileS) (s : List Str) : Res (List Str) := do
  let ks ← fileIter x F
  .ok (ks.filter fun k => decide (k ∉ s))

/-- `s - f.keys()` (`collections.abc.Set.__rsub__` over `__contains__`, `__init__.py:2070-2095`). -/
def keysRsub (F : FileS) (s : List Str) : Res (List Str) := keepOut F s

/-- `f.keys() ^ s` (`collections.abc.Set.__xor__`: `(f.keys() - s) | (s - f.keys())`; `__init__.py:2070-2133`). -/
def keysXor (x : Ctx) (F : FileS) (s : List Str) : Res (List Str) := do
  let a ← keysSub x F s
  let b ← keysRsub F s
  .ok (a ++ b)

end HS
