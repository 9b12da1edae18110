import Verif.Lemmas.AttrTable
import Verif.Props.MatFile
import Verif.Props.Struct
/-
C61: the documented attributes.
-/
namespace HS
open Spec

/-- C61. Something written to an unused place has exactly the attributes documented for it, with the documented values, and no others: with any options an `Options`
object can have, any value that is not discarded, any history of the file. -/
theorem C61_attributes {o : Options} (ho : ReachableOptions o) {x : Ctx} (hx : x.o = COpts.of o) (hN : NamesOk x.o) {n : Nat} {F F' : FileS} {p : PathArg} {ns : List Str}
    {v : Val} (hw : Wrote x n F p ns v F') (hfree : ¬ Exists F.st.heap ns) (hd : Documented v) (hnd : ¬ Discarded x.o v) :
    ∃ (q : Nat) (attrs : List (Str × AVal)) (b : Body), LPath F'.st.heap ns q ∧ F'.st.heap[q]? = some ⟨attrs, b⟩ ∧
      ∀ k a, aget attrs k = some a ↔ DocAttr x.o b v k a := by
  have hS : x.o.matlab = true → x.o.structAsStruct = true := by
    rw [hx]
    intro hm
    have hm : boolOf o .matlabCompatible = true := hm
    have hm' : o .matlabCompatible = .bool true := by
      rcases C09_always_valid o ho .matlabCompatible with ⟨b, hb⟩
      unfold boolOf at hm
      rw [hb] at hm
      rw [hb, show b = true from hm]
    show boolOf o .structuredNumpyNdarrayAsStruct = true
    unfold boolOf
    rw [C08_matlab_table o ho hm' .structuredNumpyNdarrayAsStruct (.bool true) (by simp [matlabTable])]
    rfl
  obtain ⟨q, at', b, new, h1, h2, h3, h4⟩ := wrote_new hN hw hfree hnd
  obtain ⟨h5, h6⟩ := newAttrs_doc hS hd h3
  exact ⟨q, at', b, h1, h2, stored_doc h5 h6 h4⟩

-- The hypotheses are met: with the default options a dict with keys 'a' and b'b', an empty text, a structured array and a list are written to an unused place.
def exAttrVals : List Val :=
  [.dict .dict [.str p!"a", .bytes [98]] [.int 5, .none], .str [], .npStruct .ndarray [2] [p!"a"] [.base .i64 []] [exI64 1, exI64 2], .seq .list [.int 1]]

theorem ex_attrVals : ∀ v ∈ exAttrVals, ExWrites v ∧ Documented v ∧ ¬ Discarded exX.o v := by
  have hD : ∀ v, ¬ Discarded exX.o v := fun v h => nomatch h.2.1
  unfold exAttrVals
  intro v hv
  rcases List.mem_cons.mp hv with rfl | hv
  · refine ⟨ex_writes _ (by decide +kernel) (by decide +kernel), .fields (texts := [p!"a", p!"b"]) (vals := [.int 5, .none]) ?_, hD _⟩
    exact .dict _ _ _ _ (.cons (.str _) (.cons (.bytes _ _ (by decide)) .nil)) rfl
  rcases List.mem_cons.mp hv with rfl | hv
  · exact ⟨ex_writes _ (by decide +kernel) (by decide +kernel), .plain (.str _) .str0, hD _⟩
  rcases List.mem_cons.mp hv with rfl | hv
  · exact ⟨ex_writes _ (by decide +kernel) (by decide +kernel), .npStruct _ _ _ _ _, hD _⟩
  rcases List.mem_singleton.mp hv with rfl
  exact ⟨ex_writes _ (by decide +kernel) (by decide +kernel), .seq _ _, hD _⟩

example : ∃ o, ReachableOptions o ∧ exX.o = COpts.of o ∧ NamesOk exX.o ∧ ∀ v ∈ exAttrVals, Documented v ∧ ¬ Discarded exX.o v ∧
    ∃ F', Wrote exX 10 exF (.str p!"/x/y") [p!"x", p!"y"] v F' ∧ ¬ Exists exF.st.heap [p!"x", p!"y"] := by
  obtain ⟨o, h1, _, _, h4⟩ := ex_options
  refine ⟨o, h1, h4, ex_rtOpts.names, fun v hv => ?_⟩
  obtain ⟨⟨F', h⟩, h5, h6⟩ := ex_attrVals v hv
  exact ⟨h5, h6, F', ⟨h.refs, h.reach, h.rw, h.addr, h.notRoot, h.ok⟩, h.free⟩

end HS
