import Verif.Model.PathEsc
import Verif.Model.Codec
/-
CPython's `posixpath` (join, split, normpath, isabs, commonpath; `Lib/posixpath.py`) and
`hdf5storage.pathesc.process_path`.
-/
namespace HS

/-- `s.split('/')`. -/
def splitSlash : Str → List Str
  | [] => [[]]
  | c :: r =>
    if c = slash then [] :: splitSlash r
    else match splitSlash r with
      | [] => [[c]]
      | x :: xs => (c :: x) :: xs

/-- `'/'.join(parts)`. -/
def joinSlash : List Str → Str
  | [] => []
  | [x] => x
  | x :: xs => x ++ slash :: joinSlash xs

/-- `s.startswith('/')`, also `posixpath.isabs`. -/
def isAbs (s : Str) : Bool := s.head? == some slash

/-- One step of `posixpath.join`. -/
def joinStep (path b : Str) : Str :=
  if isAbs b then b
  else if path = [] ∨ path.getLast? = some slash then path ++ b
  else path ++ slash :: b

/-- `posixpath.join(*parts)`; without arguments Python raises `TypeError`. -/
def pJoin : List Str → Res Str
  | [] => .error .typeError
  | a :: p => .ok (p.foldl joinStep a)

/-- The loop body of `posixpath.normpath` on the reversed list of components so far. -/
def normStep (init : Bool) (acc : List Str) (comp : Str) : List Str :=
  if comp = [] ∨ comp = [dot] then acc
  else if comp ≠ [dot, dot] ∨ (!init ∧ acc = []) ∨ acc.head? = some [dot, dot] then comp :: acc
  else acc.tail

/-- `initial_slashes` of `posixpath.normpath`: POSIX allows one or two initial slashes, more are one. -/
def initialSlashes (p : Str) : Nat :=
  match p with
  | 47 :: 47 :: 47 :: _ => 1
  | 47 :: 47 :: _ => 2
  | 47 :: _ => 1
  | _ => 0

/-- `posixpath.normpath`. -/
def normpath (p : Str) : Str :=
  if p = [] then [dot]
  else
    let init := initialSlashes p
    let comps := ((splitSlash p).foldl (normStep (init != 0)) []).reverse
    let s := List.replicate init slash ++ joinSlash comps
    if s = [] then [dot] else s

/-- `s.rstrip('/')`. -/
def rstripSlash (s : Str) : Str := (s.reverse.dropWhile (· == slash)).reverse

/-- `posixpath.basename`: what follows the last slash. -/
def pBasename (p : Str) : Str := (p.reverse.takeWhile (· != slash)).reverse

/-- `posixpath.dirname`: everything up to the last slash, trailing slashes stripped unless it is all slashes. -/
def pDirname (p : Str) : Str :=
  let head := (p.reverse.dropWhile (· != slash)).reverse
  if head.all (· == slash) then head else rstripSlash head

/-- Components as `commonpath` sees them: empty ones and `.` dropped. -/
def commonComps (p : Str) : List Str := (splitSlash p).filter (fun c => c ≠ [] ∧ c ≠ [dot])

/-- Lexicographic `<` of Python `str`. -/
def strLt : Str → Str → Bool
  | _, [] => false
  | [], _ :: _ => true
  | a :: r, b :: s => a < b || (a == b && strLt r s)

/-- Lexicographic `<` of Python lists of `str`. -/
def listLt : List Str → List Str → Bool
  | _, [] => false
  | [], _ :: _ => true
  | a :: r, b :: s => strLt a b || (a == b && listLt r s)

/-- The `for i, c in enumerate(s1): if c != s2[i]` loop of `commonpath`; an index past the end of `s2`
(`IndexError`) cannot happen because `s1 = min`, it is cut there. -/
def commonPrefix : List Str → List Str → List Str
  | a :: r, b :: s => if a = b then a :: commonPrefix r s else []
  | _, _ => []

/-- `posixpath.commonpath((p, q))`. -/
def commonpath2 (p q : Str) : Res Str :=
  if isAbs p != isAbs q then .error .valueError
  else
    let a := commonComps p
    let b := commonComps q
    let s1 := if listLt b a then b else a
    let s2 := if listLt a b then b else a
    .ok ((if isAbs p then [slash] else []) ++ joinSlash (commonPrefix s1 s2))

/-- A `pathlib.PurePath` as far as `process_path` looks at it: `.root`, `.parts`, `str()`. -/
structure PurePath where
  root : Str
  parts : List Str
  str : Str
  deriving DecidableEq, Repr

/-- An element of a separated path. -/
inductive PathElem
  | str (s : Str) | bytes (b : Bytes) | pure (p : PurePath) | other
  deriving DecidableEq, Repr

/-- The `pth` argument of `process_path`. -/
inductive PathArg
  | str (s : Str) | bytes (b : Bytes) | pure (p : PurePath) | seq (l : List PathElem) | other
  deriving DecidableEq, Repr

/-- pathesc.py:299-310: one element of a separated path, converted and escaped. -/
def processElem : PathElem → Res Str
  | .bytes b => do escapePath (← utf8Dec b)
  | .pure p => escapePath p.str
  | .str s => escapePath s
  | .other => .error .typeError

/-- pathesc.py:318-336: normalise and split into group and target name. -/
def splitTarget (p : Str) : Str × Str :=
  let path := normpath p
  let groupname := pDirname path
  let targetname := pBasename path
  (if groupname.length = 0 then [slash] else groupname,
   if targetname.length = 0 then [dot] else targetname)

/-- pathesc.py:284-316: conversion of the argument to one path string. -/
def pathText : PathArg → Res Str
  | .bytes b => utf8Dec b
  | .str s => .ok s
  | .pure p =>
    if p.root ≠ [] ∧ p.root ≠ [slash] then pJoin (p.parts.drop 1) else pJoin p.parts
  | .seq l => do pJoin (← l.mapM processElem)
  | .other => .error .typeError

/-- pathesc.py:238-336 `process_path`. -/
def processPath (pth : PathArg) : Res (Str × Str) := do
  let p ← pathText pth
  .ok (splitTarget p)

/-- `__init__.py:1895-1912` and `2001-2018`: the check of one processed path against the
`group_for_references` option (`ValueError` inside the references Group). -/
def guardRefs (refs : Str) (gt : Str × Str) : Res Unit := do
  let pfx : Str := if isAbs gt.1 then [] else [slash]
  let j ← pJoin [pfx, gt.1, gt.2]
  let c ← commonpath2 refs j
  if c ≠ [slash] then .error .valueError else .ok ()

/-- `__init__.py:1894-1913` / `2000-2019`: process and check one path. -/
def checkPath (refs : Str) (pth : PathArg) : Res (Str × Str) := do
  let gt ← processPath pth
  guardRefs refs gt
  .ok gt

end HS
