import Verif.Spec.Later
import Verif.Spec.Layout
import Verif.Props.RefsValid
/-
What is stored at a place is not changed by using the file elsewhere.
-/
namespace HS
open Spec

theorem inOrRefs_opts {o o' : COpts} (h : o'.refsPath = o.refsPath) {g : Heap} {ms : List Str} {p : Nat} : InOrRefs o' g ms p ↔ InOrRefs o g ms p := by
  unfold InOrRefs refsComps
  rw [h]

theorem Away.opts {o o' : COpts} (h : o'.refsPath = o.refsPath) {ms : List Str} {g g' : Heap} (a : Away o' ms g g') : Away o ms g g' :=
  ⟨a.len, a.old, fun p hp => a.obj p ((inOrRefs_opts h).mpr hp), a.path⟩

/-- Later use elsewhere: the place is left alone, and the file is still in use. -/
theorem elsewhere_away {x : Ctx} (hr : RefsPathOk x.o) {h0 : Heap} (ht : Tree h0) (hv : ValidRefs x.o h0) (ha : CanonAtA x.o h0) {F : FileS} (hF : UsedFrom x.o h0 x F)
    {ns : List Str} (hns : OffRefs x.o ns) {y : Ctx} {G : FileS} (h : UsedElsewhere ns x F y G) : UsedFrom x.o h0 y G ∧ Away x.o ns F.st.heap G.st.heap := by
  have hnil : ∀ {ms : List Str}, Apart ms ns → ms ≠ [] := fun h he => h.1 (by rw [he]; exact List.nil_prefix)
  induction h with
  | same => exact ⟨hF, .refl _ _ _⟩
  | reopened y z w _ hz hn ih => exact ⟨.reopened y z w ih.1 hz hn, ih.2⟩
  | @wrote y G n mdict _ hap hnr hd ih =>
    obtain ⟨hy, hn, hR⟩ := used_ri hr ht hv ha ih.1
    have hry : RefsPathOk y.o := ⟨by rw [hy]; exact hr.abs, by rw [hy]; exact hr.notRoot⟩
    have hnsy : OffRefs y.o ns := by
      refine ⟨hns.plain, hns.ne, ?_, ?_⟩
      · unfold refsComps; rw [hy]; exact hns.refs
      · unfold refsComps; rw [hy]; exact hns.head
    refine ⟨.wrote n mdict ih.1 (fun pv hpv h0 => hnil (hap pv hpv [] h0) rfl) hnr hd, ?_⟩
    exact ih.2.trans ((fileWrites_away hry hn hR.inv hR.tree hnsy hap).opts hy)
  | @deleted y G p _ hap ih =>
    obtain ⟨hy, hn, hR⟩ := used_ri hr ht hv ha ih.1
    have hry : RefsPathOk y.o := ⟨by rw [hy]; exact hr.abs, by rw [hy]; exact hr.notRoot⟩
    have hnsy : OffRefs y.o ns := by
      refine ⟨hns.plain, hns.ne, ?_, ?_⟩
      · unfold refsComps; rw [hy]; exact hns.refs
      · unfold refsComps; rw [hy]; exact hns.head
    refine ⟨.deleted p ih.1 fun ms hms => (hap ms hms).2, ?_⟩
    refine ih.2.trans (Away.opts hy (fileDel_away hry hR.inv hR.tree hnsy ?_))
    intro ms hms
    rw [hy]
    exact hap ms hms
  | closed _ ih => exact ⟨.closed ih.1, ih.2⟩
  | flushed _ ih =>
    refine ⟨.flushed ih.1, ih.2.trans ?_⟩
    unfold fileFlush
    split <;> exact .refl _ _ _

/-- The layout is kept. -/
theorem laid_away {o : COpts} {h h' : Heap} {ms : List Str} (ht : Tree h) (hrn : hdf5Names o.refsPath ≠ []) (a : Away o ms h h') (hv' : ValidRefs o h')
    {ns : List Str} {path : Option Str} {q : Nat} {P : Part} (hl : Laid o h ns path q P)
    (hin : ms <+: ns ∨ (ns.head? = (hdf5Names o.refsPath).head? ∧ ¬ ns <+: hdf5Names o.refsPath)) (hq : LPath h' ns q) : Laid o h' ns path q P := by
  have same : ∀ {l : List Str} {p : Nat}, LPath h l p → (ms <+: l ∨ (l.head? = (hdf5Names o.refsPath).head? ∧ ¬ l <+: hdf5Names o.refsPath)) → h'[p]? = h[p]? := by
    intro l p hp hl
    refine a.obj p ⟨lpath_lt ht hp, ?_⟩
    intro l' hl'
    rw [hl'.unique ht hp]
    exact hl
  -- a referenced object is still where it was
  have there : ∀ {l : List Str} {p r : Nat} {at' : List (Str × AVal)} {b : Arr} {f : Filters} {nm : Str}, LPath h' l p → h'[p]? = some ⟨at', .dset b f⟩ → b.dt = .ref →
      El.ref r ∈ b.data → LPath h (hdf5Names o.refsPath ++ [nm]) r → LPath h' (hdf5Names o.refsPath ++ [nm]) r := by
    intro l p r at' b f nm h1 h2 h3 h4 h5
    obtain ⟨nm', h6⟩ := hv' l p at' b f r h1 h2 h3 h4
    have := a.old _ _ h6 (lpath_lt ht h5)
    rw [h5.unique ht this]; exact h6
  induction hl with
  | data h1 h2 h3 h4 h5 => exact .data hq ((same h1 hin).trans h2) h3 h4 h5
  | table h1 h2 h3 h4 h5 h6 h7 h8 => exact .table hq ((same h1 hin).trans h2) h3 h4 h5 h6 h7 h8
  | shape h1 h2 h3 h4 h5 h6 h7 => exact .shape hq ((same h1 hin).trans h2) h3 h4 h5 h6 h7
  | @refs ns path q P attrs f sh e el ids nms h1 h2 h3 h4 h5 h6 h7 h8 h9 h10 ih =>
    have e2 := (same h1 hin).trans h2
    have hm : ∀ {i : Nat} {r : Nat}, ids[i]? = some r → El.ref r ∈ ids.map El.ref := fun h => List.mem_map_of_mem (List.mem_of_getElem? h)
    refine .refs hq e2 h3 h4 h5 h6 h7 h8 ?_ ?_
    · intro i w r k1 k2 k3
      exact there hq e2 rfl (hm k2) (h9 i w r k1 k2 k3)
    · intro i w r nm k1 k2 k3 k4
      have hp : LPath h (hdf5Names o.refsPath ++ [nm]) r := by
        have := h10 i w r nm k1 k2 k3 k4
        cases this <;> assumption
      refine ih i w r nm k1 k2 k3 k4 (.inr ⟨?_, ?_⟩) (there hq e2 rfl (hm k2) hp)
      · cases hr : hdf5Names o.refsPath with
        | nil => exact absurd hr hrn
        | cons x y => rfl
      · intro hp
        have := hp.length_le
        rw [List.length_append, List.length_singleton] at this
        omega
  | @group ns path q v attrs links names parts h1 h2 h3 h4 h5 h6 h7 h8 ih =>
    have e2 := (same h1 hin).trans h2
    refine .group hq e2 h3 h4 h5 h6 h7 ?_
    intro i k P r k1 k2 k3
    refine ih i k P r k1 k2 k3 ?_ (.snoc hq ?_)
    · rcases hin with h | ⟨h, h'⟩
      · exact .inl (h.trans (List.prefix_append _ _))
      · refine .inr ⟨?_, fun hp => h' ((List.prefix_append _ _).trans hp)⟩
        cases ns with
        | nil => exact absurd List.nil_prefix h'
        | cons x y => exact h
    · unfold LinkAt linksOf
      rw [e2]; exact k3

end HS
