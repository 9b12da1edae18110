import Verif.Model.PosixPath
/-
`pathlib` as far as `process_path` looks at it (`pathesc.py:288-293`, `302-303`): how CPython's `PurePosixPath` and `PureWindowsPath` split a path (`Lib/pathlib.py`).
-/
namespace HS

/-- `PurePosixPath(s)` (`PurePath._parse_path`): the root is nothing, one slash or (if there are exactly two) two slashes; `parts` are the root, if any, and the names
without empty ones and `.`; `..` is kept.  `str()` of nothing is `.`. -/
def purePosix (s : Str) : PurePath :=
  let root := List.replicate (initialSlashes s) slash
  let names := commonComps s
  ⟨root, if root = [] then names else root :: names, if root = [] ∧ names = [] then [dot] else root ++ joinSlash names⟩

/-- A `PureWindowsPath` with this drive (`C:`, or `\\host\share`), with or without a root (a backslash), and these names. -/
def pureWindows (drive : Str) (rooted : Bool) (names : List Str) : PurePath :=
  let root : Str := if rooted then [92] else []
  let anchor := drive ++ root
  let rest := names.intersperse [92] |>.flatten
  ⟨root, if anchor = [] then names else anchor :: names, if anchor = [] ∧ names = [] then [dot] else anchor ++ rest⟩

end HS
