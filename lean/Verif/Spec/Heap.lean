import Verif.Model.Heap
/-
Independent notions about files: links, reachability along links, the way to the references Group.
-/
namespace HS.Spec

/-- Group `p` has a link named `k` to `q`. -/
def LinkAt (h : Heap) (p : Nat) (k : Str) (q : Nat) : Prop := aget (linksOf h p) k = some q

/-- `q` can be reached from `p` along links. -/
inductive LReach (h : Heap) (p : Nat) : Nat → Prop
  | refl : LReach h p p
  | step {q r : Nat} {k : Str} : LReach h p q → LinkAt h q k r → LReach h p r

/-- `p` is on the way from the root to the references Group (the root, the Groups in between and the references Group itself). -/
def OnRefsPath (cs : List Str) (h : Heap) (p : Nat) : Prop := ∃ pre, pre <+: cs ∧ resolve h 0 pre = some p

end HS.Spec

namespace HS.Spec

/-- The file is a tree of Groups and Datasets, as files written by this package and by MATLAB are: links lead to objects that exist, the root is a Group
that nothing links to, and no object has two names. -/
structure Tree (h : Heap) : Prop where
  wf : ∀ p k q, LinkAt h p k q → q < h.length
  root : isGroup h 0 = true
  noRoot : ∀ p k, ¬ LinkAt h p k 0
  uniq : ∀ p1 k1 p2 k2 q, LinkAt h p1 k1 q → LinkAt h p2 k2 q → p1 = p2 ∧ k1 = k2

/-- `p` is reached from the root along the links with these names. -/
inductive LPath (h : Heap) : List Str → Nat → Prop
  | root : LPath h [] 0
  | snoc {l : List Str} {p q : Nat} {k : Str} : LPath h l p → LinkAt h p k q → LPath h (l ++ [k]) q

end HS.Spec

namespace HS.Spec

/-- Names in a Group are different (as HDF5 guarantees). -/
def DistinctNames (h : Heap) : Prop := ∀ p, ((linksOf h p).map (·.1)).Nodup

end HS.Spec
