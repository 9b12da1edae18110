import Verif.Spec.File
import Verif.Model.Write
/-
Histories of the calls of a low level file that deal with the references Group.
-/
namespace HS.Spec

/-- States of a low level file, with the names that `next_unused_ref_group_name` has returned: it starts in any state a `File` can be in; then names are asked for,
values are written to the references Group under names that were returned, and object arrays are written, in any order and number, successfully or not.  The
references Group is known before names are asked for (otherwise see `C17_first`). -/
inductive Hist (x : Ctx) : St → List Str → Prop
  | file {F : FileS} : Reach x F → Hist x F.st []
  | next {s s' : St} {l : List Str} {nm : Str} : Hist x s l → s.refs ≠ none → nextName x s = (.ok nm, s') → Hist x s' (nm :: l)
  | failed {s s' : St} {l : List Str} {e : Exc} : Hist x s l → s.refs ≠ none → nextName x s = (.error e, s') → Hist x s' l
  | write {s : St} {l : List Str} {nm : Str} {r : Nat} (n : Nat) (v : Val) : Hist x s l → nm ∈ l → s.refs = some r →
      Hist x (writeData x n r (refsName x.o) nm v s).2 l
  | objects {s : St} {l : List Str} (n : Nat) (vs : List Val) : Hist x s l → Hist x (writeObjectArray x (writeData x n) vs s).2 l

end HS.Spec

namespace HS.Spec

/-- `write_data` discards the value: it is numpy data of a type MATLAB does not have, or structured numpy data that is not to be written as a struct, in a MATLAB
compatible file with the action 'discard'. -/
def Discarded (o : COpts) (v : Val) : Prop :=
  o.matlab = true ∧ o.action = .discard ∧
    ((∃ c a, v = .np c a ∧ (a.dt = .f16 ∨ (∃ r i d, a.dt = .crec r i d) ∨ ∃ o s n t, a.dt = .comp o s n t)) ∨ (o.structAsStruct = false ∧ ∃ c s n t e, v = .npStruct c s n t e))

/-- The object is a canonical empty: a Dataset of two zeros of an unsigned integer type, marked as MATLAB does it. -/
def IsCanonicalEmpty (h : Heap) (p : Nat) : Prop := ∃ ob a f, h[p]? = some ob ∧ ob.body = .dset a f ∧
  (a.dt = .u8 ∨ a.dt = .u16 ∨ a.dt = .u32 ∨ a.dt = .u64) ∧ a.shape = [2] ∧ a.data = [.num 0, .num 0] ∧
  attrToString (aget ob.attrs p!"MATLAB_class") = .ok (some p!"canonical empty") ∧ attrIsOne (aget ob.attrs p!"MATLAB_empty") = true

end HS.Spec
