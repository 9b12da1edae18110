import Verif.Spec.ValidRefs
/-
Using a file further, but elsewhere.
-/
namespace HS.Spec

/-- States a `File` can come to from the state `F` when the file is used further without touching the place `ns` (nothing that is written or deleted is there, above or
below): writing data with one call or many, deleting, closing, flushing, opening the file again with other options as long as the references Group is at the same place.
Provisos as for `UsedFrom`. -/
inductive UsedElsewhere (ns : List Str) (x : Ctx) (F : FileS) : Ctx → FileS → Prop
  | same : UsedElsewhere ns x F x F
  | reopened (y z : Ctx) {G : FileS} (w : Bool) : UsedElsewhere ns x F y G → z.o.refsPath = x.o.refsPath → NamesOk z.o → UsedElsewhere ns x F z (FileS.new G.st.heap w)
  | wrote {y : Ctx} {G : FileS} (n : Nat) (mdict : List (PathArg × Val)) : UsedElsewhere ns x F y G → (∀ pv ∈ mdict, ∀ ms, Addr pv.1 ms → Apart ms ns) →
      (∀ pv ∈ mdict, ¬ HasRefArray pv.2) → DistinctDraws y G.st.rpos (fileWrites y n mdict G).2.st.rpos → UsedElsewhere ns x F y (fileWrites y n mdict G).2
  | deleted {y : Ctx} {G : FileS} (p : PathArg) : UsedElsewhere ns x F y G → (∀ ms, Addr p ms → Apart ms ns ∧ ms.head? ≠ (hdf5Names x.o.refsPath).head?) →
      UsedElsewhere ns x F y (fileDel p G).2
  | closed {y : Ctx} {G : FileS} : UsedElsewhere ns x F y G → UsedElsewhere ns x F y (fileClose G).2
  | flushed {y : Ctx} {G : FileS} : UsedElsewhere ns x F y G → UsedElsewhere ns x F y (fileFlush G).2

end HS.Spec
