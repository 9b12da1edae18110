import Verif.Props.Struct
import Verif.Lemmas.LayoutAll
import Verif.Props.AttrTable
import Verif.Props.RefsValid
/-
C62: the layout of values in the file.
-/
namespace HS
open Spec

theorem options_struct {o : Options} (ho : ReachableOptions o) {x : Ctx} (hx : x.o = COpts.of o) : x.o.matlab = true → x.o.structAsStruct = true := by
  rw [hx]
  intro hm
  have hm : boolOf o .matlabCompatible = true := hm
  have hm' : o .matlabCompatible = .bool true := by
    rcases C09_always_valid o ho .matlabCompatible with ⟨b, hb⟩
    unfold boolOf at hm
    rw [hb] at hm
    rw [hb, show b = true from hm]
  show boolOf o .structuredNumpyNdarrayAsStruct = true
  unfold boolOf
  rw [C08_matlab_table o ho hm' .structuredNumpyNdarrayAsStruct (.bool true) (by simp [matlabTable])]
  rfl

theorem commonComps_nonempty (p : Str) : ∀ c ∈ commonComps p, c ≠ [] := by
  intro c hc
  simp only [commonComps, List.mem_filter] at hc
  simpa using (of_decide_eq_true hc.2).1

/-- C62. Something written to an unused place of a file in use is stored, at every depth, as documented: as Datasets and Groups with the documented names, attributes
and data, the elements of lists and the like in the references Group with references leading to them, and nothing else in the Groups; what is left out of a list is
replaced by a reference to the canonical empty. -/
theorem C62_layout {o : Options} (ho : ReachableOptions o) {x : Ctx} (hx : x.o = COpts.of o) {h0 : Heap} (ht : Tree h0) (hv : ValidRefs x.o h0) (ha : CanonAtA x.o h0) {F : FileS}
    (hu : UsedFrom x.o h0 x F) {n : Nat} {F' : FileS} {p : PathArg} {ns : List Str} {v : Val} (hw : WroteNew x n F p ns v F') (hr : Regular x.o v) (hd : ¬ Discarded x.o v) :
    (∃ q : Nat, Laid x.o F'.st.heap ns none q (.value v)) ∧ CanonAtA x.o F'.st.heap := by
  obtain ⟨_, hN, hR⟩ := used_ri hw.refs ht hv ha hu
  obtain ⟨gs, t, s1, g, ob, hrun⟩ := wrote_run hN ⟨hw.refs, hw.reach, hw.rw, hw.addr, hw.notRoot, hw.ok⟩
  cases ob with
  | none => exact absurd ((writeData_none hrun.run).mp rfl) hd
  | some q =>
    have hf : Fresh s1 g t := by
      intro q hl
      obtain ⟨_, _, h3, _⟩ := hrun.reqG.ok g rfl
      rcases h3 with h3 | h3
      · rw [h3] at hl
        have := hrun.path1
        rw [h3] at this
        exact hw.free ⟨q, by rw [hrun.names]; exact .snoc this hl⟩
      · rw [LinkAt, h3] at hl; cases hl
    have hoff := hrun.names ▸ hrun.off
    have hnr : resolve s1.heap 0 (refsComps x.o) ≠ some g := OffRefs.notRefs hrun.tree hoff hrun.path1
    have hnl := noLoop_of_tree hrun.tree hrun.path1
    have hR0 : RI x noL F.st := ⟨hR.inv, hR.tree, fun _ _ _ h => h.elim, hR.canA, hR.can⟩
    have hR1 : RI x noL s1 := requireGroup_ri hR0 hoff hrun.req
    have hall := writeData_all hN.keys hN.vals (options_struct ho hx) hw.refs.notRoot n
    have hpl : Pl x F'.st.rpos s1 g t := ⟨hrun.pre, fun hh => absurd hh hnr, fun hh => absurd hh hnr⟩
    have hB : RandOk x s1.rpos F'.st.rpos := RandOk.mono hw.draws hrun.reqG.step.fr.rpos
    have out := hall.laid s1 g _ t v F'.st q F'.st.rpos hR1 hpl hf hB (Nat.le_refl _) hr (fun n hn => commonComps_nonempty gs n hn) hrun.run
    have ou := hall.ref s1 g _ t v F'.st _ F'.st.rpos hR1 hpl hB (Nat.le_refl _) (regular_noRef hr) hrun.run
    have hl := hall.at'.link _ _ _ _ _ _ _ hrun.pre hnr hnl hrun.run
    refine ⟨⟨q, ?_⟩, ?_⟩
    · rw [hrun.names]
      exact out.whole (.snoc hrun.path hl)
    · intro c hc
      obtain ⟨rg, h1, h2⟩ := lpath_snoc hc
      obtain ⟨ob, h3, h4⟩ := ou.ri.canA rg c (resolve_lpath (plainComps x) h1) h2
      exact canonical_of_isCanon h3 h4

-- The hypotheses are met: in a file with a list of lists, with the default options, a dict of a list with a structured array in it and an empty text is written.
def exLaid : Val := .dict .dict [.str p!"a/b", .bytes [99]]
  [.seq .list [.int 1, .npStruct .ndarray [2] [p!"u", p!"v"] [.base .i64 [], .base .object []] [exI64 1, exI64 2, .str p!"t", .none]], .str []]

theorem ex_laid_regular : Regular exX.o exLaid := by
  have hi : ∀ i : Nat, Regular exX.o (exI64 i) := fun i => .plain (.np _ _) .i64
  refine .fields (texts := [p!"a/b", p!"c"]) (.dict _ _ _ _ (.cons (.str _) (.cons (.bytes _ _ (by decide)) .nil)) rfl) (by decide) ?_
  intro w hw
  rcases List.mem_cons.mp hw with rfl | hw
  · refine .seq _ _ ?_
    intro w hw
    rcases List.mem_cons.mp hw with rfl | hw
    · exact .plain (.int 1 (by decide) (by decide)) .i64
    rcases List.mem_singleton.mp hw with rfl
    refine .npStruct _ _ _ _ _ (by decide) rfl ?_ ?_
    · intro n ts sp h
      cases h with
      | self => rfl
      | field _ _ _ k nm t _ h1 h2 h3 =>
        match k, h2 with
        | 0, h2 => cases h2; cases h3
        | 1, h2 => cases h2; cases h3
    · intro w hw
      simp only [List.mem_cons, List.not_mem_nil, or_false] at hw
      rcases hw with rfl | rfl | rfl | rfl
      · exact hi 1
      · exact hi 2
      · exact .plain (.str _) (.str _ p!"32" (by decide) (decimal_iff.mpr (by decide)))
      · exact .plain .none .f64
  rcases List.mem_singleton.mp hw with rfl
  exact .plain (.str _) .str0

example : ∃ o, ReachableOptions o ∧ exX.o = COpts.of o ∧ UsedFrom exX.o emptyHeap exX exUsed1 ∧ Tree emptyHeap ∧ ValidRefs exX.o emptyHeap ∧ CanonAtA exX.o emptyHeap ∧
    Regular exX.o exLaid ∧ ¬ Discarded exX.o exLaid ∧ ∃ F', WroteNew exX 10 exUsed1 (.str p!"/y") [p!"y"] exLaid F' := by
  obtain ⟨o, h1, _, _, h4⟩ := ex_options
  refine ⟨o, h1, h4, ex_used1, tree_empty, empty_valid _, empty_canon _, ex_laid_regular, (fun (h : Discarded exX.o exLaid) => nomatch h.2.1), ?_⟩
  have hrun : (fileWrite exX 10 (.str p!"/y") exLaid exUsed1).1 = .ok () := by decide +kernel
  have hpos : (fileWrite exX 10 (.str p!"/y") exLaid exUsed1).2.st.rpos = 0 := by decide +kernel
  refine ⟨(fileWrite exX 10 (.str p!"/y") exLaid exUsed1).2, ⟨⟨rfl, by decide⟩, used_reach ⟨rfl, by decide⟩ tree_empty (empty_valid _) (empty_canon _) ex_used1, by decide +kernel,
    ⟨p!"/", p!"y", by decide, rfl⟩, by decide, ?_, ?_, pair_of_fst hrun⟩⟩
  · rintro ⟨q, hq⟩
    have h1 := resolve_lpath (by intro c hc; simp only [List.mem_singleton] at hc; subst hc; decide) hq
    have h2 : resolve exUsed1.st.heap 0 [p!"y"] = none := by decide +kernel
    rw [h2] at h1
    cases h1
  · intro i j _ _ h3
    rw [hpos] at h3
    omega

-- The same for a structured array that is stored as a compound Dataset, in two dimensions and in MATLAB's order; its values are of the types of the fields.
theorem ex_options_table : ∃ o, ReachableOptions o ∧ exXtab.o = COpts.of o := by
  obtain ⟨o, h, e⟩ : ∃ o, newOptions Options.default = .ok o ∧
      COpts.of (assign o (.structuredNumpyNdarrayAsStruct, .bool false)) = exXtab.o := ⟨_, rfl, by decide +kernel⟩
  exact ⟨_, ⟨_, o, [(.structuredNumpyNdarrayAsStruct, .bool false)], h, rfl⟩, e.symm⟩

theorem ex_table_regular (o : COpts) : Regular o exTable := by
  have hi : ∀ c dt sh data t, DtName dt t → Regular o (.np c ⟨dt, sh, data⟩) := fun c dt sh data t h => .plain (.np _ _) h
  have hs : ∀ a b, Regular o (.npStruct .scalar [] [p!"u", p!"v"] [.base .bool [], .base .c64 []] [.np .scalar ⟨.bool, [], a⟩, .np .scalar ⟨.c64, [], b⟩]) := by
    intro a b
    refine .npStruct _ _ _ _ _ (by decide) rfl ?_ ?_
    · intro n ts sp h
      cases h with
      | self => rfl
      | field _ _ _ k nm t _ h1 h2 h3 =>
        match k, h2 with
        | 0, h2 => cases h2; cases h3
        | 1, h2 => cases h2; cases h3
    · intro w hw
      simp only [List.mem_cons, List.not_mem_nil, or_false] at hw
      rcases hw with rfl | rfl
      · exact hi _ _ _ _ _ .bool
      · exact hi _ _ _ _ _ .c64
  refine .npStruct _ _ _ _ _ (by decide) rfl ?_ ?_
  · intro n ts sp h
    cases h with
    | self => rfl
    | field _ _ _ k nm t _ h1 h2 h3 =>
      match k, h2 with
      | 0, h2 => cases h2; cases h3
      | 1, h2 => cases h2; cases h3
      | 2, h2 =>
        cases h2
        cases h3 with
        | self => rfl
        | field _ _ _ k nm t _ h1 h2 h3 =>
          match k, h2 with
          | 0, h2 => cases h2; cases h3
          | 1, h2 => cases h2; cases h3
  · intro w hw
    simp only [List.mem_cons, List.not_mem_nil, or_false] at hw
    rcases hw with rfl | rfl | rfl | rfl | rfl | rfl
    · exact hi _ _ _ _ _ (.bytes _ p!"24" (by decide) (decimal_iff.mpr (by decide)))
    · exact hi _ _ _ _ _ (.bytes _ p!"16" (by decide) (decimal_iff.mpr (by decide)))
    · exact hi _ _ _ _ _ .f32
    · exact hi _ _ _ _ _ .f32
    · exact hs _ _
    · exact hs _ _

example : ∃ o, ReachableOptions o ∧ exXtab.o = COpts.of o ∧ Regular exXtab.o exTable ∧ ¬ Discarded exXtab.o exTable ∧
    (∃ F', WroteNew exXtab 10 exF (.str p!"/x/y") [p!"x", p!"y"] exTable F') ∧ ∃ c sh n ty e, exTable = .npStruct c sh n ty e ∧ OfTypes sh ty e := by
  obtain ⟨o, h1, h2⟩ := ex_options_table
  obtain ⟨c, sh, n, ty, e, h3, h4⟩ := ex_table
  exact ⟨o, h1, h2, ex_table_regular _, (fun h => by obtain ⟨h, _⟩ := h; cases h), ⟨_, ex_tab_wrote _ (by decide +kernel) (by decide +kernel)⟩, c, sh, n, ty, e, h3, h4.fields⟩

end HS
