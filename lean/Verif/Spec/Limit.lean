import Verif.Spec.Local
/-
How deep data is nested.
-/
namespace HS.Spec

mutual
/-- How deep the value is nested: a number, text, array etc. is 1 deep; a sequence or object array is one deeper than its elements; dicts, records and structured arrays
two (their keys, values or fields may be stored as sequences). -/
def nesting : Val → Nat
  | .npObj _ _ e | .seq _ e => 1 + nestingL e
  | .dict _ k v => 2 + max (nestingL k) (nestingL v)
  | .record _ v => 2 + nestingL v
  | .npStruct _ _ _ _ e => 2 + nestingL e
  | _ => 1
/-- The deepest of them. -/
def nestingL : List Val → Nat
  | [] => 1
  | v :: r => max (nesting v) (nestingL r)
end

/-- What is stored at `q` is nested at most `n` deep, along links and references. -/
inductive StoredDepth (h : Heap) : Nat → Nat → Prop
  | mk (n q : Nat) : (∀ ob r, h[q]? = some ob → Holds ob.body r → StoredDepth h n r) → StoredDepth h (n + 1) q

/-- The type strings of sequences (all but `bytes` etc., which are stored as data). -/
def seqTypes : List Str := [p!"list", p!"tuple", p!"set", p!"frozenset", p!"collections.deque", p!"collections.ChainMap"]

/-- Sequences are nested deeper than `n` at `q`: it is a sequence with an element that has them nested deeper than `n - 1`. -/
inductive TooDeep (h : Heap) : Nat → Nat → Prop
  | zero (q : Nat) : TooDeep h 0 q
  | step (n q r : Nat) (attrs : List (Str × AVal)) (a : Arr) (f : Filters) (t : Str) : h[q]? = some ⟨attrs, .dset a f⟩ → a.dt = .ref → El.ref r ∈ a.data →
      t ∈ seqTypes → aget attrs p!"Python.Type" = some (.bytes t) → TooDeep h n r → TooDeep h (n + 1) q

end HS.Spec
