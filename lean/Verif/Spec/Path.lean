import Verif.Model.PosixPath
/-
Independent specification of what a path means: the list of link names followed from the root Group.
-/
namespace HS.Spec

/-- The names HDF5 follows for a path string: split at slashes, empty names and `.` mean "stay". -/
def hdf5Names (p : Str) : List Str := (splitSlash p).filter (fun c => c ≠ [] ∧ c ≠ [46])

/-- Lexical resolution of `..` (POSIX): it removes the name before it; at the front it is dropped in an absolute path
and kept in a relative one. -/
def dotdot (abs : Bool) : List Str → List Str → List Str
  | done, [] => done
  | done, c :: r =>
    if c = [46, 46] then
      match done.getLast? with
      | none => if abs then dotdot abs [] r else dotdot abs [c] r
      | some d => if d = [46, 46] then dotdot abs (done ++ [c]) r else dotdot abs done.dropLast r
    else dotdot abs (done ++ [c]) r

/-- The names a str path given by the user denotes. -/
def names (p : Str) : List Str := dotdot (p.head? == some 47) [] (hdf5Names p)

/-- The leading slashes a normalised path keeps: POSIX gives exactly two slashes a meaning of their own. -/
def lead (p : Str) : Str :=
  match (p.takeWhile (· == 47)).length with
  | 0 => []
  | 2 => [47, 47]
  | _ => [47]

/-- Group and target for a list of names below a leading part. -/
def groupTarget (ld : Str) (ns : List Str) : Str × Str :=
  match ns.getLast? with
  | none => (if ld = [] then [47] else ld, [46])
  | some t => (if ns.dropLast = [] ∧ ld = [] then [47] else ld ++ joinSlash ns.dropLast, t)

end HS.Spec

namespace HS.Spec

/-- The text of one part of a separated path: itself, UTF-8 decoded, or the `str()` of a `PurePath`. -/
def partText : PathElem → Option Str
  | .str s => some s
  | .bytes b => (utf8Dec b).toOption
  | .pure p => some p.str
  | .other => none

end HS.Spec

namespace HS

/-- A name: non-empty, without slash, not `.`. -/
def IsName (x : Str) : Prop := x ≠ [] ∧ slash ∉ x ∧ x ≠ [dot]

end HS
