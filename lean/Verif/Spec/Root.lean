import Verif.Spec.Dict
/-
Writing to the root Group, which is where `write` writes to if no path is given.
-/
namespace HS.Spec

/-- `f.write(v)` (the path defaults to '/') or `f.write(v, p)` with any path addressing the root Group succeeded: `F` is a file opened for writing in any state it
can be in, `F'` is the file afterwards.  If names for references had to be drawn at random they did not repeat. -/
structure WroteRoot (x : Ctx) (n : Nat) (F : FileS) (p : PathArg) (v : Val) (F' : FileS) : Prop where
  refs : RefsPathOk x.o
  reach : Reach x F
  rw : F.ro = false
  addr : Addr p []
  draws : DistinctDraws x F.st.rpos F'.st.rpos
  ok : fileWrite x n p v F = (.ok (), F')

/-- The dict `v` is stored in a Group under the names `k`: those of its fields, or those for all keys and all values if it has keys that are not strings. -/
inductive EntryName (o : COpts) : Val → Str → Prop
  | field {v : Val} {texts : List Str} {vals : List Val} {k : Str} : HasFields v texts vals → FieldName texts k → EntryName o v k
  | keys (dk : DictKind) (keys vals : List Val) : (∃ k ∈ keys, NotTextKey k) → EntryName o (.dict dk keys vals) o.keysName
  | values (dk : DictKind) (keys vals : List Val) : (∃ k ∈ keys, NotTextKey k) → EntryName o (.dict dk keys vals) o.valuesName

/-- Writing `v` to a Group deletes everything else in it. -/
def Clears (o : COpts) (v : Val) : Prop := o.deleteUnused = true ∨ ∃ dk keys vals, v = .dict dk keys vals ∧ ∃ k ∈ keys, NotTextKey k

/-- The root Group can take `v`: none of the names is in use or is the references Group's (of the first name on the way to it), and if everything else is going to
be deleted, the references Group is not there yet or the file has just been opened (otherwise see `C60_counterexample_dangling`). -/
structure RootFree (o : COpts) (F : FileS) (v : Val) : Prop where
  free : ∀ k, EntryName o v k → ¬ Exists F.st.heap [k]
  notRefs : ∀ k, EntryName o v k → (hdf5Names o.refsPath).head? ≠ some k
  noRefs : Clears o v → ∀ r, (hdf5Names o.refsPath).head? = some r → ¬ Exists F.st.heap [r] ∨ ∃ h w, F = FileS.new h w

/-- Nothing else is in the root Group but the references Group, or it is going to be deleted, and the root Group has no attributes, as in a file nothing has been
written to the root Group of. -/
structure RootAlone (o : COpts) (h : Heap) (v : Val) : Prop where
  attrs : ∃ b, h[0]? = some ⟨[], b⟩
  refs : ∃ r, hdf5Names o.refsPath = [r]
  others : ¬ Clears o v → ∀ k, Exists h [k] → hdf5Names o.refsPath = [k]

end HS.Spec
