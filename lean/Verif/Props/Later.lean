import Verif.Lemmas.Later
import Verif.Props.MatRead
/-
What was written stays as it is while the file is used elsewhere.
-/
namespace HS
open Spec

/-- C58. Whatever is stored at a place of a file in use reads the same, with any options with the references Group at the same place, however the file is used elsewhere:
writing, deleting, closing and opening it again with other options. -/
theorem C58_later {x : Ctx} (hr : RefsPathOk x.o) {h0 : Heap} (ht : Tree h0) (hv : ValidRefs x.o h0) (ha : CanonAtA x.o h0) {F : FileS} (hF : UsedFrom x.o h0 x F)
    {q : PathArg} {ns : List Str} (hq : Addr q ns) (hne : ns ≠ []) (hh : ns.head? ≠ (hdf5Names x.o.refsPath).head?) (hex : Exists F.st.heap ns)
    {y : Ctx} {H : FileS} (h : UsedElsewhere ns x F y H) (z : Ctx) (hz : z.o.refsPath = x.o.refsPath) (G G' : FileS) (hG : G.isOpen = true) (hG' : G'.isOpen = true)
    (hh1 : G.st.heap = F.st.heap) (hh2 : G'.st.heap = H.st.heap) (m : Nat) : fileRead z m q G' = fileRead z m q G := by
  have hns := good_off hr hq hne hh
  obtain ⟨hU, aw⟩ := elsewhere_away hr ht hv ha hF hns h
  have aw' : Away z.o ns F.st.heap H.st.heap := Away.opts hz.symm aw
  have hrz : RefsPathOk z.o := ⟨by rw [hz]; exact hr.abs, by rw [hz]; exact hr.notRoot⟩
  have hnz : OffRefs z.o ns := good_off hrz hq hne (by rw [hz]; exact hh)
  obtain ⟨_, _, hR⟩ := used_ri hr ht hv ha hF
  have hsc : SelfContained z.o F.st.heap ns := by
    refine C58_self_contained hrz hR.tree ?_ ns
    have := used_valid hr ht hv ha hF
    unfold ValidRefs at this ⊢
    rw [hz]; exact this
  obtain ⟨p, hp⟩ := hex
  rcases snoc_cases ns with rfl | ⟨l, t, rfl⟩
  · exact absurd rfl hne
  obtain ⟨gs, c1, rfl⟩ := addr_check hrz hnz hq
  have hd : t ≠ [dot] := hns.plain t (by simp)
  rw [fileRead_eq, fileRead_eq, c1]
  dsimp only
  rw [hG, hG', hh1, hh2, readOne_at hd hp, readOne_at hd ((aw.path p).mpr hp), away_reads aw' hnz hsc hp]

/-- C58. In particular existence: it stays there, and a place where nothing was stays free. -/
theorem C58_later_exists {x : Ctx} (hr : RefsPathOk x.o) {h0 : Heap} (ht : Tree h0) (hv : ValidRefs x.o h0) (ha : CanonAtA x.o h0) {F : FileS} (hF : UsedFrom x.o h0 x F)
    {q : PathArg} {ns : List Str} (hq : Addr q ns) (hne : ns ≠ []) (hh : ns.head? ≠ (hdf5Names x.o.refsPath).head?)
    {y : Ctx} {H : FileS} (h : UsedElsewhere ns x F y H) : Exists H.st.heap ns ↔ Exists F.st.heap ns := by
  obtain ⟨_, aw⟩ := elsewhere_away hr ht hv ha hF (good_off hr hq hne hh) h
  exact ⟨fun ⟨p, hp⟩ => ⟨p, (aw.path p).mp hp⟩, fun ⟨p, hp⟩ => ⟨p, (aw.path p).mpr hp⟩⟩

/-- The state after a write is one of a file in use. -/
theorem wroteNew_used {x : Ctx} {h0 : Heap} {F F' : FileS} {n : Nat} {p : PathArg} {ns : List Str} {v : Val} (hu : UsedFrom x.o h0 x F) (hw : WroteNew x n F p ns v F')
    (hnr : ¬ HasRefArray v) : UsedFrom x.o h0 x F' := by
  have e : (fileWrites x n [(p, v)] F).2 = F' := by
    have := hw.ok
    unfold fileWrite at this
    rw [this]
  rw [← e]
  refine .wrote n [(p, v)] hu ?_ ?_ ?_
  · intro pv hpv ha0
    rw [List.mem_singleton.mp hpv] at ha0
    exact hw.notRoot (addr_unique hw.addr ha0)
  · intro pv hpv
    rw [List.mem_singleton.mp hpv]; exact hnr
  · rw [e]; exact hw.draws

/-- C62. The layout stays as it is, at every depth, however the file is used elsewhere. -/
theorem C62_kept {o : Options} (ho : ReachableOptions o) {x : Ctx} (hx : x.o = COpts.of o) {h0 : Heap} (ht : Tree h0) (hv : ValidRefs x.o h0) (ha : CanonAtA x.o h0) {F : FileS}
    (hu : UsedFrom x.o h0 x F) {n : Nat} {F' : FileS} {p : PathArg} {ns : List Str} {v : Val} (hw : WroteNew x n F p ns v F') (hr : Regular x.o v) (hd : ¬ Discarded x.o v)
    {y : Ctx} {H : FileS} (h : UsedElsewhere ns x F' y H) : (∃ q : Nat, Laid x.o H.st.heap ns none q (.value v)) ∧ CanonAtA x.o H.st.heap := by
  obtain ⟨_, hN, _⟩ := used_ri hw.refs ht hv ha hu
  obtain ⟨gs, t, s1, g, ob, hrun⟩ := wrote_run hN ⟨hw.refs, hw.reach, hw.rw, hw.addr, hw.notRoot, hw.ok⟩
  obtain ⟨⟨q, hl⟩, _⟩ := C62_layout ho hx ht hv ha hu hw hr hd
  have hu' := wroteNew_used hu hw (regular_noRef hr)
  have hns : OffRefs x.o ns := hrun.names ▸ hrun.off
  obtain ⟨hU, aw⟩ := elsewhere_away hw.refs ht hv ha hu' hns h
  obtain ⟨_, _, hR'⟩ := used_ri hw.refs ht hv ha hu'
  obtain ⟨hy, _, hRH⟩ := used_ri hw.refs ht hv ha hU
  have hq : LPath F'.st.heap ns q := by cases hl <;> assumption
  refine ⟨⟨q, laid_away hR'.tree hw.refs.notRoot aw (used_valid hw.refs ht hv ha hU) hl (.inl (List.prefix_refl _)) ((aw.path q).mpr hq)⟩, ?_⟩
  intro c hc
  obtain ⟨rg, h1, h2⟩ := lpath_snoc hc
  have h1' : LPath H.st.heap (hdf5Names y.o.refsPath) rg := by rw [hy]; exact h1
  obtain ⟨ob, h3, h4⟩ := hRH.canA rg c (resolve_lpath (plainComps y) h1') h2
  exact canonical_of_isCanon h3 h4

/-- C66. And what was written with MATLAB metadata only is read back in its MATLAB form also after the file was used elsewhere. -/
theorem C66_later {o : Options} (ho : ReachableOptions o) (hm : o .matlabCompatible = .bool true) (hi : o .actionForMatlabIncompatible ≠ .str p!"ignore")
    (hp : o .storePythonMetadata = .bool false) {x : Ctx} (hx : x.o = COpts.of o) {h0 : Heap} (ht : Tree h0) (hk : DistinctNames h0) (hv : ValidRefs x.o h0) (ha : CanonAtA x.o h0)
    {F : FileS} (hu : UsedFrom x.o h0 x F) {n : Nat} {F' : FileS} {p : PathArg} {ns : List Str} {v : Val} (hw : WroteNew x n F p ns v F') (y : Ctx)
    (hy : y.o.refsPath = x.o.refsPath) (hg : MatGood x.o y.o.structsAsDicts v) :
    ∃ w N, AsMatlab x.o y.o.structsAsDicts (.value v) w ∧ ∀ (z : Ctx) (H G : FileS) (p' : PathArg) (m : Nat), UsedElsewhere ns x F' z H → G.isOpen = true →
      G.st.heap = H.st.heap → Addr p' ns → N ≤ m → fileRead y m p' G = .ok w := by
  obtain ⟨w, N, h1, h2⟩ := C66_matlab_form ho hm hi hp hx ht hk hv ha hu hw y hy hg
  refine ⟨w, N, h1, ?_⟩
  intro z H G p' m hH hG hh ha' hm'
  have hu' := wroteNew_used hu hw (regular_noRef (matGood_regular hg))
  obtain ⟨_, hN, _⟩ := used_ri hw.refs ht hv ha hu
  obtain ⟨gs, t, s1, g, ob, hrun⟩ := wrote_run hN ⟨hw.refs, hw.reach, hw.rw, hw.addr, hw.notRoot, hw.ok⟩
  have hns : OffRefs x.o ns := hrun.names ▸ hrun.off
  have hR : MatR x.o := hx ▸ matR_of ho hm hi hp
  obtain ⟨⟨q, hl⟩, _⟩ := C62_layout ho hx ht hv ha hu hw (matGood_regular hg) (matGood_kept hR.toMatO hg)
  have hq : LPath F'.st.heap ns q := by cases hl <;> assumption
  rw [C58_later hw.refs ht hv ha hu' ha' hw.notRoot hns.head ⟨q, hq⟩ hH y hy (FileS.new F'.st.heap true) G rfl hG rfl hh m]
  exact h2 _ p' m rfl rfl ha' hm'

-- Writing '/z' and deleting it again, closing the file and opening it read-only leaves '/x' alone.
def exLater1 : FileS := (fileWrites exX 10 [(.str p!"/z", exNested)] exUsed2).2
def exLater2 : FileS := FileS.new (fileClose (fileDel (.str p!"/z") exLater1).2).2.st.heap false

theorem apart_zx {ms : List Str} (h : Addr (.str p!"/z") ms) : ms = [p!"z"] := addr_unique h ⟨p!"/", p!"z", by decide, rfl⟩

theorem ex_used_elsewhere : UsedElsewhere [p!"x"] exX exUsed2 exX exLater2 := by
  have hap : Apart [p!"z"] [p!"x"] := ⟨by decide, by decide⟩
  refine .reopened exX exX false (.closed (.deleted _ (.wrote 10 _ .same ?_ ?_ ?_) ?_)) rfl ex_rtOpts.names
  · intro pv hpv ms hms
    rw [List.mem_singleton.mp hpv] at hms
    rw [apart_zx hms]; exact hap
  · intro pv hpv h
    rw [List.mem_singleton.mp hpv] at h
    exact ex_nested_refs h
  · have h1 : (decide (exLater1.st.rpos ≤ 20)) = true := by decide +kernel
    have h1 := of_decide_eq_true h1
    intro i j _ h2 h3
    have h3 : j < exLater1.st.rpos := h3
    have key : ∀ j < 20, ∀ i < j, exX.rng i % 2 ^ 64 ≠ exX.rng j % 2 ^ 64 := by decide
    exact key j (by omega) i h2
  · intro ms hms
    rw [apart_zx hms]
    exact ⟨hap, by decide⟩

example : UsedFrom exX.o emptyHeap exX exUsed2 ∧ Addr (.str p!"/x") [p!"x"] ∧ Exists exUsed2.st.heap [p!"x"] ∧ UsedElsewhere [p!"x"] exX exUsed2 exX exLater2 ∧
    exLater2.st.heap ≠ exUsed2.st.heap :=
  ⟨ex_used2, ⟨p!"/", p!"x", by decide, rfl⟩, by
    have : resolve exUsed2.st.heap 0 [p!"x"] ≠ none := by decide +kernel
    cases h : resolve exUsed2.st.heap 0 [p!"x"] with
    | none => exact absurd h this
    | some q => exact ⟨q, lpath_resolve (by intro c hc; simp only [List.mem_singleton] at hc; subst hc; decide) h⟩, ex_used_elsewhere, by decide +kernel⟩

end HS
