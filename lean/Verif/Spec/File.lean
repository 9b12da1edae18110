import Verif.Model.File
import Verif.Spec.Heap
import Verif.Spec.Path
import Verif.Spec.Opts
import Verif.Spec.Values
/-
Independent notions about `File` objects.
-/
namespace HS.Spec

/-- The path argument addresses the object with these link names from the root Group (for a str see `names`, `C06_denotes`; for a separated path its escaped
parts, `C05_separated_path`). -/
def Addr (p : PathArg) (ns : List Str) : Prop := ∃ g t, processPath p = .ok (g, t) ∧ ns = hdf5Names g ++ hdf5Names t

/-- The option `group_for_references` is an absolute path other than the root, as documented. -/
structure RefsPathOk (o : COpts) : Prop where
  abs : o.refsPath.head? = some 47
  notRoot : hdf5Names o.refsPath ≠ []

/-- States a `File` can be in: opened on a file that is a tree, and then used.  Not covered: writing to the root Group itself, and deleting something on the
way to the references Group or in it. -/
inductive Reach (x : Ctx) : FileS → Prop
  | opened (h : Heap) (w : Bool) : Tree h → Reach x (FileS.new h w)
  | wrote {F : FileS} (n : Nat) (mdict : List (PathArg × Val)) : Reach x F → (∀ pv ∈ mdict, ¬ Addr pv.1 []) → Reach x (fileWrites x n mdict F).2
  | deleted {F : FileS} (p : PathArg) : Reach x F → (∀ ns, Addr p ns → ns.head? ≠ (hdf5Names x.o.refsPath).head?) → Reach x (fileDel p F).2
  | closed {F : FileS} : Reach x F → Reach x (fileClose F).2
  | flushed {F : FileS} : Reach x F → Reach x (fileFlush F).2

/-- Something is at the place with these names. -/
def Exists (h : Heap) (ns : List Str) : Prop := ∃ q, LPath h ns q

/-- The 64 bit random numbers number `a` to `b` (excluded) drawn from `random.getrandbits` are different. -/
def DistinctDraws (x : Ctx) (a b : Nat) : Prop := ∀ i j, a ≤ i → i < j → j < b → x.rng i % 2 ^ 64 ≠ x.rng j % 2 ^ 64

/-- `f.write(v, p)` (or `f[p] = v`) succeeded: `F` is a file opened for writing in any state it can be in, nothing is at `p`, which is not the root Group, and
`F'` is the file afterwards.  If names for references had to be drawn at random they did not repeat. -/
structure WroteNew (x : Ctx) (n : Nat) (F : FileS) (p : PathArg) (ns : List Str) (v : Val) (F' : FileS) : Prop where
  refs : RefsPathOk x.o
  reach : Reach x F
  rw : F.ro = false
  addr : Addr p ns
  notRoot : ns ≠ []
  free : ¬ Exists F.st.heap ns
  draws : DistinctDraws x F.st.rpos F'.st.rpos
  ok : fileWrite x n p v F = (.ok (), F')

/-- Whatever path argument `p` addresses the names `ns` and however `G` came to have the file (the same `File` object, or opened again, with the same options or
with different options `y.o` that give the references Group at the same place and do not change how data is read): reading gives `v`, if the recursion limit is
not smaller than for writing. -/
def ReadsBack (x : Ctx) (n : Nat) (h : Heap) (ns : List Str) (v : Val) : Prop :=
  ∀ (y : Ctx) (G : FileS) (p : PathArg) (m : Nat), y.o.refsPath = x.o.refsPath → ReadableWith x.o y.o v → G.isOpen = true → G.st.heap = h → Addr p ns → n ≤ m →
    fileRead y m p G = .ok v

end HS.Spec

namespace HS.Spec

/-- A path argument that is not acceptable: it is of a wrong type or malformed, or it addresses the references Group or something in it. -/
def BadPath (o : COpts) (p : PathArg) : Prop := (∀ ns, ¬ Addr p ns) ∨ ∃ ns, Addr p ns ∧ hdf5Names o.refsPath <+: ns

/-- A path argument that is acceptable: it addresses something that has no name in common with the references Group from the root on.  (For a references Group
directly below the root this is the negation of `BadPath`; for a nested one see finding F9.) -/
def GoodPath (o : COpts) (p : PathArg) : Prop := ∃ ns, Addr p ns ∧ ∀ k, ns.head? = some k → (hdf5Names o.refsPath).head? ≠ some k

/-- The exception, if one was raised. -/
def raised {α : Type} : Res α → Option Exc
  | .ok _ => none
  | .error e => some e

end HS.Spec

namespace HS.Spec

/-- The arguments of the method call are acceptable and the call needs the file. -/
def NeedsFile (o : COpts) : Op → Prop
  | .writes m => ∀ pv ∈ m, GoodPath o pv.1
  | .write p _ => GoodPath o p
  | .reads ps => ∀ p ∈ ps, GoodPath o p
  | .read p => GoodPath o p
  | .contains p => ∃ ns, Addr p ns
  | .del p => ∃ ns, Addr p ns
  | .len | .iter | .flush => True
  | .close | .closed => False

end HS.Spec

namespace HS.Spec

/-- The list has every name in the root Group but `r`, each once. -/
def ListsRoot (h : Heap) (r : Option Str) (l : List Str) : Prop := l.Nodup ∧ ∀ k, k ∈ l ↔ Exists h [k] ∧ r ≠ some k

/-- The calls that work on the data in the file. -/
def OnData : Op → Prop
  | .writes _ | .write _ _ | .reads _ | .read _ | .len | .iter | .del _ | .flush => True
  | .contains _ | .close | .closed => False

/-- The calls that are to change the file. -/
def Changes : Op → Prop
  | .writes _ | .write _ _ | .del _ => True
  | _ => False

end HS.Spec
