import Verif.Spec.Local
import Verif.Spec.Refs
/-
References stored in a file.
-/
namespace HS.Spec

/-- Every reference in every Dataset of the file leads to an object that is in the references Group, under some name. -/
def ValidRefs (o : COpts) (h : Heap) : Prop :=
  ∀ (ns : List Str) (p : Nat) (at' : List (Str × AVal)) (a : Arr) (f : Filters) (r : Nat), LPath h ns p → h[p]? = some ⟨at', .dset a f⟩ → a.dt = .ref → El.ref r ∈ a.data →
    ∃ nm, LPath h (hdf5Names o.refsPath ++ [nm]) r

/-- Numpy arrays whose elements are HDF5 references cannot be written; the value has none in it. -/
inductive HasRefArray : Val → Prop
  | np (c : Cont) (a : Arr) : a.dt = .ref → HasRefArray (.np c a)
  | npObj (c : Cont) (shape : List Nat) (elems : List Val) (e : Val) : e ∈ elems → HasRefArray e → HasRefArray (.npObj c shape elems)
  | seq (k : SeqKind) (elems : List Val) (e : Val) : e ∈ elems → HasRefArray e → HasRefArray (.seq k elems)
  | key (k : DictKind) (keys vals : List Val) (e : Val) : e ∈ keys → HasRefArray e → HasRefArray (.dict k keys vals)
  | val (k : DictKind) (keys vals : List Val) (e : Val) : e ∈ vals → HasRefArray e → HasRefArray (.dict k keys vals)
  | record (k : RecKind) (vals : List Val) (e : Val) : e ∈ vals → HasRefArray e → HasRefArray (.record k vals)
  | npStruct (c : Cont) (shape : List Nat) (names : List Str) (types : List FT) (elems : List Val) (e : Val) : e ∈ elems → HasRefArray e →
      HasRefArray (.npStruct c shape names types elems)

/-- If something is in the references Group under the name 'a' it is the canonical empty, as in files of MATLAB and of this package. -/
def CanonAtA (o : COpts) (h : Heap) : Prop := ∀ q, LPath h (hdf5Names o.refsPath ++ [p!"a"]) q → IsCanonicalEmpty h q

/-- States a `File` can come to when a file with the content `h0` is opened and used: writing data with one call or many, deleting, closing, flushing, opening the
file again, with other options too as long as the references Group is at the same place.  Not covered: writing to the root Group itself, and deleting something on
the way to the references Group or in it.  The random names drawn for references within one call of `writes` did not repeat. -/
inductive UsedFrom (o : COpts) (h0 : Heap) : Ctx → FileS → Prop
  | opened (x : Ctx) (w : Bool) : x.o.refsPath = o.refsPath → NamesOk x.o → UsedFrom o h0 x (FileS.new h0 w)
  | reopened (x y : Ctx) {F : FileS} (w : Bool) : UsedFrom o h0 x F → y.o.refsPath = o.refsPath → NamesOk y.o → UsedFrom o h0 y (FileS.new F.st.heap w)
  | wrote {x : Ctx} {F : FileS} (n : Nat) (mdict : List (PathArg × Val)) : UsedFrom o h0 x F → (∀ pv ∈ mdict, ¬ Addr pv.1 []) → (∀ pv ∈ mdict, ¬ HasRefArray pv.2) →
      DistinctDraws x F.st.rpos (fileWrites x n mdict F).2.st.rpos → UsedFrom o h0 x (fileWrites x n mdict F).2
  | deleted {x : Ctx} {F : FileS} (p : PathArg) : UsedFrom o h0 x F → (∀ ns, Addr p ns → ns.head? ≠ (hdf5Names o.refsPath).head?) → UsedFrom o h0 x (fileDel p F).2
  | closed {x : Ctx} {F : FileS} : UsedFrom o h0 x F → UsedFrom o h0 x (fileClose F).2
  | flushed {x : Ctx} {F : FileS} : UsedFrom o h0 x F → UsedFrom o h0 x (fileFlush F).2

end HS.Spec
